/-!
# Execution model

Outcomes of C++ code, checked memory, bounded loops and the rules to reason about them.
Nothing in this file models a file of `/repo`; it is the target language of the model.
-/

namespace Scs

universe u v

/-- Abnormal outcomes. `assert` is a failing `assert` (tagged with its place in the source);
`oob`, `null`, `uninit` and `emptyVec` are undefined behaviour in C++; `divZero` is a division by
exactly zero (raised by the exact-real arithmetic only); `nonterm` means that a `while` loop used
up the fuel of the model. -/
inductive Err where
  | assert (loc : String)
  | oob
  | null
  | uninit
  | emptyVec
  | divZero
  | nonterm
  deriving DecidableEq, Repr

/-- The outcome is a failing `assert`. -/
def Err.IsAssert : Err → Prop
  | .assert _ => True
  | _ => False

/-- The outcome is undefined behaviour. -/
def Err.IsUB : Err → Prop
  | .oob | .null | .uninit | .emptyVec => True
  | _ => False

/-- Result of executing code. -/
abbrev Exec (σ : Type u) := Except Err σ

/-- A C++ `assert(p)` at source location `loc`. -/
def chk (p : Prop) [Decidable p] (loc : String) : Exec PUnit.{u+1} :=
  if p then .ok ⟨⟩ else .error (.assert loc)

/-- An allocated array. -/
structure Buf (β : Type u) where
  size : Nat
  val : Nat → β

/-- Checked read of an array element. -/
def Buf.rd {β : Type u} (b : Buf β) (i : Nat) : Exec β :=
  if i < b.size then .ok (b.val i) else .error .oob

/-- Checked write of an array element. -/
def Buf.wr {β : Type u} (b : Buf β) (i : Nat) (v : β) : Exec (Buf β) :=
  if i < b.size then .ok { b with val := fun j => if j = i then v else b.val j }
  else .error .oob

/-- Following a nullable pointer. -/
def deref {β : Type u} : Option β → Exec β
  | some b => .ok b
  | none => .error .null

/-- Using a pointer variable that may be uninitialised. -/
def initd {β : Type u} : Option β → Exec β
  | some b => .ok b
  | none => .error .uninit

/-- `for (int i = 0; i < n; ++i) f(i)`. -/
def forN {σ : Type u} : Nat → (Nat → σ → Exec σ) → σ → Exec σ
  | 0, _, s => .ok s
  | n + 1, f, s => do
    let s ← forN n f s
    f n s

/-- `for (int i = a; i < b; ++i) f(i)`. -/
def forR {σ : Type u} (a b : Nat) (f : Nat → σ → Exec σ) (s : σ) : Exec σ :=
  forN (b - a) (fun i => f (a + i)) s

/-- Pointwise update of a function. -/
def upd {ι : Type u} {β : Type v} [DecidableEq ι] (f : ι → β) (i : ι) (v : β) : ι → β :=
  fun j => if j = i then v else f j

theorem upd_same {ι : Type u} {β : Type v} [DecidableEq ι] (f : ι → β) (i : ι) (v : β) :
    upd f i v i = v := by simp [upd]

theorem upd_other {ι : Type u} {β : Type v} [DecidableEq ι] (f : ι → β) {i j : ι} (v : β)
    (h : j ≠ i) : upd f i v j = f j := by simp [upd, h]

/-- Left-to-right accumulation `v = 0; v += f(0); v += f(1); ...`. -/
def sumTo {α : Type u} [Zero α] [Add α] : Nat → (Nat → α) → α
  | 0, _ => 0
  | n + 1, f => sumTo n f + f n

/-! ## Weakest preconditions -/

/-- `Wp x Q E`: executing `x` either returns a value satisfying `Q` or stops with an error
satisfying `E`. -/
def Wp {σ : Type u} (x : Exec σ) (Q : σ → Prop) (E : Err → Prop) : Prop :=
  match x with
  | .ok s => Q s
  | .error e => E e

/-- No abnormal outcome. -/
def noErr : Err → Prop := fun _ => False
/-- Any abnormal outcome. -/
def anyErr : Err → Prop := fun _ => True

section
variable {σ τ : Type u} {Q R : σ → Prop} {E F : Err → Prop}

@[simp] theorem wp_ok (s : σ) : Wp (.ok s) Q E ↔ Q s := Iff.rfl
@[simp] theorem wp_pure (s : σ) : Wp (pure s : Exec σ) Q E ↔ Q s := Iff.rfl
@[simp] theorem wp_error (e : Err) : Wp (.error e : Exec σ) Q E ↔ E e := Iff.rfl

@[simp] theorem wp_bind (x : Exec τ) (f : τ → Exec σ) :
    Wp (x >>= f) Q E ↔ Wp x (fun a => Wp (f a) Q E) E := by
  cases x <;> rfl

theorem Wp.mono {x : Exec σ} (h : Wp x Q E) (hq : ∀ s, Q s → R s) (he : ∀ e, E e → F e) :
    Wp x R F := by
  cases x with
  | ok s => exact hq s h
  | error e => exact he e h

theorem Wp.imp {x : Exec σ} (h : Wp x Q E) (hq : ∀ s, Q s → R s) : Wp x R E :=
  h.mono hq (fun _ h => h)

theorem Wp.and {x : Exec σ} (h : Wp x Q E) (h' : Wp x R F) :
    Wp x (fun s => Q s ∧ R s) (fun e => E e ∧ F e) := by
  cases x <;> exact ⟨h, h'⟩

theorem wp_noErr_iff {x : Exec σ} : Wp x Q noErr ↔ ∃ s, x = .ok s ∧ Q s := by
  cases x with
  | ok s => simp [Wp]
  | error e => simp [Wp, noErr]

theorem wp_anyErr_iff {x : Exec σ} : Wp x Q anyErr ↔ ∀ s, x = .ok s → Q s := by
  cases x with
  | ok s => simp [Wp]
  | error e => simp [Wp, anyErr]

theorem Wp.of_eq {x : Exec σ} {s : σ} (h : Wp x Q E) (hx : x = .ok s) : Q s := by
  subst hx; exact h

@[simp] theorem wp_chk (p : Prop) [Decidable p] (loc : String) (Q : PUnit.{u+1} → Prop) :
    Wp (chk p loc) Q E ↔ (p → Q ⟨⟩) ∧ (¬ p → E (.assert loc)) := by
  unfold chk; split <;> simp_all

theorem wp_ite (p : Prop) [Decidable p] (x y : Exec σ) :
    Wp (if p then x else y) Q E ↔ (p → Wp x Q E) ∧ (¬ p → Wp y Q E) := by
  split <;> simp_all

/-- Loop rule. -/
theorem wp_forN {n : Nat} {f : Nat → σ → Exec σ} {s : σ} (I : Nat → σ → Prop)
    (h0 : I 0 s) (hs : ∀ i, i < n → ∀ s, I i s → Wp (f i s) (I (i + 1)) E)
    : Wp (forN n f s) (I n) E := by
  induction n with
  | zero => exact h0
  | succ n ih =>
    rw [forN, wp_bind]
    exact (ih (fun i hi => hs i (Nat.lt_succ_of_lt hi))).imp
      (fun s hI => hs n (Nat.lt_succ_self n) s hI)

/-- Loop rule with a separate postcondition. -/
theorem wp_forN' {n : Nat} {f : Nat → σ → Exec σ} {s : σ} (I : Nat → σ → Prop)
    (h0 : I 0 s) (hs : ∀ i, i < n → ∀ s, I i s → Wp (f i s) (I (i + 1)) E)
    (hq : ∀ s, I n s → Q s) : Wp (forN n f s) Q E :=
  (wp_forN I h0 hs).imp hq

end

theorem ok_bind {σ τ : Type u} (a : τ) (f : τ → Exec σ) : ((Except.ok a : Exec τ) >>= f) = f a := rfl

theorem error_bind {σ τ : Type u} (e : Err) (f : τ → Exec σ) :
    ((Except.error e : Exec τ) >>= f) = Except.error e := rfl

theorem chk_true {p : Prop} [Decidable p] (loc : String) (h : p) :
    (chk p loc : Exec PUnit.{u+1}) = .ok ⟨⟩ := by simp [chk, h]

theorem chk_false {p : Prop} [Decidable p] (loc : String) (h : ¬ p) :
    (chk p loc : Exec PUnit.{u+1}) = .error (.assert loc) := by simp [chk, h]

theorem Buf.rd_ok {β : Type u} (b : Buf β) {i : Nat} (h : i < b.size) : b.rd i = .ok (b.val i) := by
  simp [Buf.rd, h]

theorem forN_succ {σ : Type u} (n : Nat) (f : Nat → σ → Exec σ) (s : σ) :
    forN (n + 1) f s = forN n f s >>= f n := rfl

/-- A loop all of whose iterations compute a known function. -/
theorem forN_eq {σ : Type u} {n : Nat} {f : Nat → σ → Exec σ} (g : Nat → σ → σ)
    (h : ∀ i, i < n → ∀ s, f i s = .ok (g i s)) (s : σ) :
    forN n f s = .ok (Nat.rec s (fun i a => g i a) n) := by
  induction n with
  | zero => rfl
  | succ n ih =>
    rw [forN_succ, ih (fun i hi => h i (Nat.lt_succ_of_lt hi)), ok_bind, h n (Nat.lt_succ_self n)]

/-- Accumulation loop `v += f i`. -/
theorem forN_sum {α : Type u} [Zero α] [Add α] {n : Nat} {f : Nat → Exec α} {g : Nat → α}
    (h : ∀ i, i < n → f i = .ok (g i)) :
    forN n (fun i v => do let x ← f i; pure (v + x)) (0 : α) = .ok (sumTo n g) := by
  induction n with
  | zero => rfl
  | succ n ih =>
    rw [forN_succ, ih (fun i hi => h i (Nat.lt_succ_of_lt hi)), ok_bind, h n (Nat.lt_succ_self n)]
    rfl

theorem sumTo_congr {α : Type u} [Zero α] [Add α] {n : Nat} {f g : Nat → α}
    (h : ∀ i, i < n → f i = g i) : sumTo n f = sumTo n g := by
  induction n with
  | zero => rfl
  | succ n ih => simp only [sumTo]; rw [ih (fun i hi => h i (Nat.lt_succ_of_lt hi)), h n (Nat.lt_succ_self n)]

end Scs
