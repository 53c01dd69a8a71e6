import Verif.RoundProc
import Verif.TwinHist

/-!
# Rounding: programs

Whole programs, run with rounding and exactly.
-/

namespace Scs

open Filter Topology

local macro "noeq" : tactic => `(tactic| (intro e; cases e))

/-! ## Specification -/

/-- What a call of `process` of the exact system needs: shipped constraints and force generators
attached to registered bodies; no springs, or springs whose ends are never exactly 0.01 apart
when the force is computed (src/spring.cpp:50 compares this length with 0.01); and the elimination
solver, or the conjugate gradient solver, for the optimized system also Gauss-Seidel, if the numbers
they compare with their tolerances (src/conjugate_gradient_sle_solver.cpp:98,
src/gauss_seidel_sle_solver.cpp:81) never equal them exactly. -/
def Op.Sharp (cls : Cls) (h : List (Op ℝ)) (W : World ℝ) : Op ℝ → Prop
  | .process E D steps => W.Standard h ∧
      match cls with
      | .opt => ((∀ g ∈ regGens h, ∀ p, W.gens g ≠ .spring p) ∨ W.OptClear E D steps) ∧
          ((∀ sv, W.sle = some sv → sv = .ge) ∨ W.OptUntied E D steps)
      | .gen => ((∀ g ∈ regGens h, ∀ p, W.gens g ≠ .spring p) ∨ W.GenClear E D steps) ∧
          ((∀ sv, W.sle = some sv → sv = .ge) ∨ W.GenUntied E D steps) ∧
          ∀ n δ, W.sle ≠ some (.gs n δ)
  | _ => True

/-- Every action of the exact program is valid and `Sharp` at the time it is done. -/
def Sharp (cls : Cls) : List (Op ℝ) → World ℝ → List (Op ℝ) → Prop
  | _, _, [] => True
  | h, W, op :: ops => op.Valid Gen.Shipped h ∧ op.Sharp cls h W ∧
      ∀ V, op.run cls W = .ok V → Sharp cls (op :: h) V ops

section
variable {ι : Type} {l : Filter ι} {F : ι → Type} [∀ i, Rounded (F i)]

/-- The same action with close numbers. -/
def NOp (l : Filter ι) (op : ∀ i, Op (F i)) : Op ℝ → Prop
  | .addBody b => ∀ᶠ i in l, op i = .addBody b
  | .removeBody b => ∀ᶠ i in l, op i = .removeBody b
  | .addCon b => ∀ᶠ i in l, op i = .addCon b
  | .removeCon b => ∀ᶠ i in l, op i = .removeCon b
  | .addGen b => ∀ᶠ i in l, op i = .addGen b
  | .removeGen b => ∀ᶠ i in l, op i = .removeGen b
  | .reset => ∀ᶠ i in l, op i = .reset
  | .newBody b X => ∃ x, (∀ᶠ i in l, op i = .newBody b (x i)) ∧ NBody l x X
  | .newCon b X => ∃ x, (∀ᶠ i in l, op i = .newCon b (x i)) ∧ NCon l x X
  | .newGen b X => ∃ x, (∀ᶠ i in l, op i = .newGen b (x i)) ∧ NGen l x X
  | .setBody b X => ∃ x, (∀ᶠ i in l, op i = .setBody b (x i)) ∧ NBody l x X
  | .setCon b X => ∃ x, (∀ᶠ i in l, op i = .setCon b (x i)) ∧ NCon l x X
  | .setGen b X => ∃ x, (∀ᶠ i in l, op i = .setGen b (x i)) ∧ NGen l x X
  | .init sle ode => ∃ v o, (∀ᶠ i in l, op i = .init (v i) (o i)) ∧ NSle l v sle ∧
      NOdeO l o ode ∧ ∀ᶠ i in l, ∀ p, o i = some p → p.Idle
  | .setBias X => ∃ x, (∀ᶠ i in l, op i = .setBias (x i)) ∧ Near l x X
  | .process E D steps => ∃ e d, (∀ᶠ i in l, op i = .process (e i) (d i) steps) ∧ NEnv l e E ∧
      Near l d D

/-- Programs of the same actions with close numbers. -/
def NProg (l : Filter ι) : (∀ i, List (Op (F i))) → List (Op ℝ) → Prop
  | ops, [] => ∀ᶠ i in l, ops i = []
  | ops, OP :: OPS => ∃ op rest, (∀ᶠ i in l, ops i = op i :: rest i) ∧ NOp l op OP ∧
      NProg l rest OPS

/-- Histories with the same registered objects. -/
def NRegs (l : Filter ι) (h : ∀ i, List (Op (F i))) (H : List (Op ℝ)) : Prop :=
  ∀ᶠ i in l, regBodies (h i) = regBodies H ∧ regCons (h i) = regCons H ∧ regGens (h i) = regGens H

/-! ## Proofs -/

variable {w : ∀ i, World (F i)} {W : World ℝ} {h : ∀ i, List (Op (F i))} {H : List (Op ℝ)}
  {op : ∀ i, Op (F i)} {OP : Op ℝ}

theorem NRegs.cons (hr : NRegs l h H) (ho : NOp l op OP) :
    NRegs l (fun i => op i :: h i) (OP :: H) := by
  have key : ∀ {q : ∀ i, Op (F i)}, (∀ᶠ i in l, op i = q i) →
      (∀ i, regBodies (h i) = regBodies H ∧ regCons (h i) = regCons H ∧ regGens (h i) = regGens H →
        regBodies (q i :: h i) = regBodies (OP :: H) ∧ regCons (q i :: h i) = regCons (OP :: H) ∧
          regGens (q i :: h i) = regGens (OP :: H)) →
      NRegs l (fun i => op i :: h i) (OP :: H) := fun e k => by
    filter_upwards [hr, e] with i h1 h2
    rw [h2]; exact k i h1
  have run : ∀ {q : ∀ i, Op (F i)}, (∀ᶠ i in l, op i = q i) → (∀ i, (∀ h, regBodies (q i :: h) =
      regBodies h ∧ regCons (q i :: h) = regCons h ∧ regGens (q i :: h) = regGens h)) →
      (regBodies (OP :: H) = regBodies H ∧ regCons (OP :: H) = regCons H ∧
        regGens (OP :: H) = regGens H) → NRegs l (fun i => op i :: h i) (OP :: H) :=
    fun e k k' => key e fun i hi => by
      obtain ⟨a, b, c⟩ := k i (h i)
      obtain ⟨a', b', c'⟩ := k'
      rw [a, b, c, a', b', c']; exact hi
  cases OP with
  | addBody b => exact key ho fun i hi => ⟨by simp [regBodies, hi.1], hi.2.1, hi.2.2⟩
  | removeBody b => exact key ho fun i hi => ⟨by simp [regBodies, hi.1], hi.2.1, hi.2.2⟩
  | addCon b => exact key ho fun i hi => ⟨hi.1, by simp [regCons, hi.2.1], hi.2.2⟩
  | removeCon b => exact key ho fun i hi => ⟨hi.1, by simp [regCons, hi.2.1], hi.2.2⟩
  | addGen b => exact key ho fun i hi => ⟨hi.1, hi.2.1, by simp [regGens, hi.2.2]⟩
  | removeGen b => exact key ho fun i hi => ⟨hi.1, hi.2.1, by simp [regGens, hi.2.2]⟩
  | reset => exact key ho fun i hi => ⟨rfl, rfl, rfl⟩
  | newBody b X =>
    obtain ⟨x, e, _⟩ := ho; exact run e (fun _ _ => ⟨rfl, rfl, rfl⟩) ⟨rfl, rfl, rfl⟩
  | newCon b X =>
    obtain ⟨x, e, _⟩ := ho; exact run e (fun _ _ => ⟨rfl, rfl, rfl⟩) ⟨rfl, rfl, rfl⟩
  | newGen b X =>
    obtain ⟨x, e, _⟩ := ho; exact run e (fun _ _ => ⟨rfl, rfl, rfl⟩) ⟨rfl, rfl, rfl⟩
  | setBody b X =>
    obtain ⟨x, e, _⟩ := ho; exact run e (fun _ _ => ⟨rfl, rfl, rfl⟩) ⟨rfl, rfl, rfl⟩
  | setCon b X =>
    obtain ⟨x, e, _⟩ := ho; exact run e (fun _ _ => ⟨rfl, rfl, rfl⟩) ⟨rfl, rfl, rfl⟩
  | setGen b X =>
    obtain ⟨x, e, _⟩ := ho; exact run e (fun _ _ => ⟨rfl, rfl, rfl⟩) ⟨rfl, rfl, rfl⟩
  | init sle ode =>
    obtain ⟨x, o, e, _⟩ := ho; exact run e (fun _ _ => ⟨rfl, rfl, rfl⟩) ⟨rfl, rfl, rfl⟩
  | setBias X =>
    obtain ⟨x, e, _⟩ := ho; exact run e (fun _ _ => ⟨rfl, rfl, rfl⟩) ⟨rfl, rfl, rfl⟩
  | process E D steps =>
    obtain ⟨x, d, e, _⟩ := ho; exact run e (fun _ _ => ⟨rfl, rfl, rfl⟩) ⟨rfl, rfl, rfl⟩

/-! ### The registries -/

theorem NBody.setIndex {b : ∀ i, Body (F i)} {B : Body ℝ} (h : NBody l b B) (k : ι → Int) {K : Int}
    (hk : SameF l k K) : NBody l (fun i => { b i with index := k i }) { B with index := K } :=
  ⟨h.p_x, h.p_y, h.v_x, h.v_y, h.theta, h.v_theta, h.m, h.I, hk⟩

theorem NCon.setIndex {b : ∀ i, Con (F i)} {B : Con ℝ} (h : NCon l b B) (k : ι → Int) {K : Int}
    (hk : SameF l k K) : NCon l (fun i => { b i with index := k i }) { B with index := K } :=
  ⟨h.kind, hk, h.bodyCount, h.bodies, h.F_x, h.F_y, h.F_t, h.rows⟩

theorem ngens_upd {a : ∀ i, Nat → Gen (F i)} {A : Nat → Gen ℝ}
    (h : ∀ k, NGen l (fun i => a i k) (A k)) {b : ∀ i, Gen (F i)} {B : Gen ℝ} (hb : NGen l b B)
    (k : Nat) (j : Nat) : NGen l (fun i => upd (a i) k (b i) j) (upd A k B j) := by
  by_cases e : j = k
  · subst e; simp only [upd_same]; exact hb
  · simp only [upd_other _ _ e]; exact h j

theorem NWorld.setRb (h : NWorld l w W) {r : ι → List Nat} {R : List Nat} (hr : SameF l r R) :
    NWorld l (fun i => { w i with rb := r i }) { W with rb := R } :=
  ⟨h.bodies, h.cons, h.gens, h.genIndex, hr, h.cs, h.fg, h.st, h.mem, h.ring, h.frame, h.sle, h.ode,
    h.nsv, h.bias, h.t⟩

theorem NWorld.setCs (h : NWorld l w W) {r : ι → List Nat} {R : List Nat} (hr : SameF l r R) :
    NWorld l (fun i => { w i with cs := r i }) { W with cs := R } :=
  ⟨h.bodies, h.cons, h.gens, h.genIndex, h.rb, hr, h.fg, h.st, h.mem, h.ring, h.frame, h.sle, h.ode,
    h.nsv, h.bias, h.t⟩

theorem NWorld.setFg (h : NWorld l w W) {r : ι → List Nat} {R : List Nat} (hr : SameF l r R) :
    NWorld l (fun i => { w i with fg := r i }) { W with fg := R } :=
  ⟨h.bodies, h.cons, h.gens, h.genIndex, h.rb, h.cs, hr, h.st, h.mem, h.ring, h.frame, h.sle, h.ode,
    h.nsv, h.bias, h.t⟩

theorem NWorld.setGens (h : NWorld l w W) {g : ∀ i, Nat → Gen (F i)} {G : Nat → Gen ℝ}
    (hg : ∀ k, NGen l (fun i => g i k) (G k)) {x : ι → Nat → Option Int} {X : Nat → Option Int}
    (hx : SameF l x X) :
    NWorld l (fun i => { w i with gens := g i, genIndex := x i })
      { W with gens := G, genIndex := X } :=
  ⟨h.bodies, h.cons, hg, hx, h.rb, h.cs, h.fg, h.st, h.mem, h.ring, h.frame, h.sle, h.ode,
    h.nsv, h.bias, h.t⟩

theorem NWorld.bodyIndex (h : NWorld l w W) (b : Nat) {k : ι → Int} {K : Int} (hk : SameF l k K) :
    NWorld l (fun i => (w i).setBodyIndex b (k i)) (W.setBodyIndex b K) :=
  h.setBodies (nbodies_upd h.bodies ((h.bodies b).setIndex k hk) b)

theorem NWorld.conIndex (h : NWorld l w W) (b : Nat) {k : ι → Int} {K : Int} (hk : SameF l k K) :
    NWorld l (fun i => (w i).setConIndex b (k i)) (W.setConIndex b K) :=
  h.setCons (ncons_upd h.cons ((h.cons b).setIndex k hk) b)

theorem NWorld.genIdx (h : NWorld l w W) (b : Nat) {k : ι → Int} {K : Int} (hk : SameF l k K) :
    NWorld l (fun i => (w i).setGenIndex b (k i)) (W.setGenIndex b K) := by
  refine h.setGens h.gens ?_
  filter_upwards [h.genIndex, hk] with i e1 e2
  rw [e1, e2]

/-! ### The conditions of the comparison of runs with other uninitialised memory -/

theorem NKind.counts {k : ∀ i, CKind (F i)} {K : CKind ℝ} (h : NKind l k K) :
    ∀ᶠ i in l, (k i).counts = K.counts := by
  cases K <;> first
    | exact h.elim
    | exact Filter.Eventually.mono h fun i e => by rw [e]; rfl
    | (obtain ⟨q, e, _⟩ := h; exact e.mono fun i e => by rw [e]; rfl)

theorem NGen.within {k : ∀ i, Gen (F i)} {K : Gen ℝ} (h : NGen l k K) :
    ∀ᶠ i in l, ∀ S, K.Within S → (k i).Within S := by
  cases K with
  | custom f => exact h.elim
  | gravity g => obtain ⟨q, e, _⟩ := h; exact e.mono fun i e S _ => by rw [e]; trivial
  | static p =>
    obtain ⟨q, e, hq⟩ := h
    filter_upwards [e, hq.body] with i e e1 S hS
    rw [e]
    show ∃ b, S b ∧ (q i).body = .obj b
    rw [e1]; exact hS
  | spring p =>
    obtain ⟨q, e, hq⟩ := h
    filter_upwards [e, hq.body1, hq.body2] with i e e1 e2 S hS
    rw [e]
    show (q i).body1 = .null ∨ (∃ b, S b ∧ (q i).body1 = .obj b) ∧
      ((q i).body2 = .null ∨ ∃ b, S b ∧ (q i).body2 = .obj b)
    rw [e1, e2]; exact hS
  | motor p =>
    obtain ⟨q, e, hq⟩ := h
    filter_upwards [e, hq.body0, hq.body1] with i e e1 e2 S hS
    rw [e]
    show (∃ b, S b ∧ (q i).body0 = .obj b) ∧ ∃ b, S b ∧ (q i).body1 = .obj b
    rw [e1, e2]; exact hS

theorem NWorld.usual (hn : NWorld l w W) (hr : NRegs l h H) (hs : W.Standard H) :
    ∀ᶠ i in l, (w i).Usual (h i) := by
  have c1 : ∀ᶠ i in l, ∀ c ∈ regCons H, ((w i).cons c).kind.counts = (W.cons c).kind.counts ∧
      ((w i).cons c).rows = (W.cons c).rows ∧ ((w i).cons c).bodyCount = (W.cons c).bodyCount ∧
      ((w i).cons c).bodies = (W.cons c).bodies := by
    rw [Filter.eventually_all_finset]
    intro c _
    filter_upwards [(hn.cons c).kind.counts, (hn.cons c).rows, (hn.cons c).bodyCount,
      (hn.cons c).bodies] with i a b c d
    exact ⟨a, b, c, d⟩
  have c2 : ∀ᶠ i in l, ∀ b ∈ regBodies H, ((w i).bodies b).index = (W.bodies b).index := by
    rw [Filter.eventually_all_finset]
    exact fun b _ => (hn.bodies b).index
  have c3 : ∀ᶠ i in l, ∀ g ∈ regGens H, ∀ S, (W.gens g).Within S → ((w i).gens g).Within S := by
    rw [Filter.eventually_all_finset]
    exact fun g _ => (hn.gens g).within
  filter_upwards [hr, c1, c2, c3] with i hr c1 c2 c3
  obtain ⟨r1, r2, r3⟩ := hr
  refine ⟨fun c hc => ?_, fun c hc k hk => ?_, fun g hg => ?_, fun c hc k hk b hb => ?_⟩
  · rw [r2] at hc
    obtain ⟨a1, a2, a3, _⟩ := c1 c hc
    rw [a1, a2, a3]; exact hs.kind c hc
  · rw [r2] at hc
    obtain ⟨a1, a2, a3, a4⟩ := c1 c hc
    rw [a4, r1]; exact hs.bodies c hc k (by rw [← a3]; exact hk)
  · rw [r3] at hg
    rw [r1]
    exact c3 g hg _ (hs.gens g hg)
  · rw [r2] at hc
    obtain ⟨a1, a2, a3, a4⟩ := c1 c hc
    rw [a3] at hk
    rw [a4] at hb
    obtain ⟨b', hb', e⟩ := hs.bodies c hc k hk
    rw [hb] at e
    cases e
    rw [c2 b hb']
    exact hs.near c hc k hk b hb

theorem NOp.valid (ho : NOp l op OP) (hr : NRegs l h H) (hv : OP.Valid Gen.Shipped H) :
    ∀ᶠ i in l, (op i).Valid (fun _ => True) (h i) := by
  cases OP with
  | addBody b => filter_upwards [ho, hr] with i e r; rw [e]; simpa only [Op.Valid, r.1] using hv
  | removeBody b => filter_upwards [ho, hr] with i e r; rw [e]; simpa only [Op.Valid, r.1] using hv
  | addCon b => filter_upwards [ho, hr] with i e r; rw [e]; simpa only [Op.Valid, r.2.1] using hv
  | removeCon b => filter_upwards [ho, hr] with i e r; rw [e]; simpa only [Op.Valid, r.2.1] using hv
  | addGen b => filter_upwards [ho, hr] with i e r; rw [e]; simpa only [Op.Valid, r.2.2] using hv
  | removeGen b => filter_upwards [ho, hr] with i e r; rw [e]; simpa only [Op.Valid, r.2.2] using hv
  | reset => filter_upwards [ho] with i e; rw [e]; trivial
  | newBody b X =>
    obtain ⟨x, e, _⟩ := ho; filter_upwards [e, hr] with i e r; rw [e]; simpa only [Op.Valid, r.1] using hv
  | newCon b X =>
    obtain ⟨x, e, _⟩ := ho; filter_upwards [e, hr] with i e r; rw [e]; simpa only [Op.Valid, r.2.1] using hv
  | newGen b X =>
    obtain ⟨x, e, _⟩ := ho
    filter_upwards [e, hr] with i e r; rw [e]; exact ⟨by rw [r.2.2]; exact hv.1, trivial⟩
  | setBody b X => obtain ⟨x, e, _⟩ := ho; filter_upwards [e] with i e; rw [e]; trivial
  | setCon b X => obtain ⟨x, e, _⟩ := ho; filter_upwards [e] with i e; rw [e]; trivial
  | setGen b X => obtain ⟨x, e, _⟩ := ho; filter_upwards [e] with i e; rw [e]; trivial
  | init sle ode =>
    obtain ⟨v, o, e, _, _, hi⟩ := ho
    filter_upwards [e, hi] with i e hi; rw [e]; exact hi
  | setBias X => obtain ⟨x, e, _⟩ := ho; filter_upwards [e] with i e; rw [e]; trivial
  | process E D steps => obtain ⟨x, d, e, _⟩ := ho; filter_upwards [e] with i e; rw [e]; trivial

theorem NSle.direct {v : ∀ i, Option (Solver (F i))} {V : Option (Solver ℝ)} (h : NSle l v V)
    (hq : ∀ n δ, V ≠ some (.gs n δ)) : ∀ᶠ i in l, ∀ sv, v i = some sv → sv.Direct := by
  rcases V with _ | ⟨_ | _ | _⟩
  · have h : ∀ᶠ i in l, v i = none := h
    exact h.mono fun i e sv e' => by rw [e] at e'; cases e'
  · exact absurd rfl (hq _ _)
  · have h : ∀ᶠ i in l, v i = some .ge := h
    exact h.mono fun i e sv e' => by rw [e] at e'; cases e'; trivial
  · obtain ⟨d, d', h, -⟩ := h
    exact h.mono fun i e sv e' => by rw [e] at e'; cases e'; trivial

theorem NOp.fine {cls : Cls} (ho : NOp l op OP) (hn : NWorld l w W) (hr : NRegs l h H)
    (hs : OP.Sharp cls H W) : ∀ᶠ i in l, (op i).Fine cls (h i) (w i) := by
  cases OP with
  | process E D steps =>
    obtain ⟨x, d, e, _⟩ := ho
    cases cls with
    | opt =>
      filter_upwards [e, hn.usual hr hs.1] with i e u
      rw [e]
      exact ⟨u, nofun⟩
    | gen =>
      filter_upwards [e, hn.usual hr hs.1, hn.sle.direct hs.2.2.2] with i e u hd
      rw [e]
      exact ⟨u, fun _ => ⟨hd, fun _ _ => Rounded.div_even⟩⟩
  | addBody b => exact Eventually.mono ho fun i e => by rw [e]; trivial
  | removeBody b => exact Eventually.mono ho fun i e => by rw [e]; trivial
  | addCon b => exact Eventually.mono ho fun i e => by rw [e]; trivial
  | removeCon b => exact Eventually.mono ho fun i e => by rw [e]; trivial
  | addGen b => exact Eventually.mono ho fun i e => by rw [e]; trivial
  | removeGen b => exact Eventually.mono ho fun i e => by rw [e]; trivial
  | reset => exact Eventually.mono ho fun i e => by rw [e]; trivial
  | newBody b X => obtain ⟨x, e, _⟩ := ho; exact e.mono fun i e => by rw [e]; trivial
  | newCon b X => obtain ⟨x, e, _⟩ := ho; exact e.mono fun i e => by rw [e]; trivial
  | newGen b X => obtain ⟨x, e, _⟩ := ho; exact e.mono fun i e => by rw [e]; trivial
  | setBody b X => obtain ⟨x, e, _⟩ := ho; exact e.mono fun i e => by rw [e]; trivial
  | setCon b X => obtain ⟨x, e, _⟩ := ho; exact e.mono fun i e => by rw [e]; trivial
  | setGen b X => obtain ⟨x, e, _⟩ := ho; exact e.mono fun i e => by rw [e]; trivial
  | init sle ode => obtain ⟨x, o, e, _⟩ := ho; exact e.mono fun i e => by rw [e]; trivial
  | setBias X => obtain ⟨x, e, _⟩ := ho; exact e.mono fun i e => by rw [e]; trivial

end

/-! ### One action -/

section
variable {ι : Type} {U : Ultrafilter ι} {F : ι → Type} [∀ i, Rounded (F i)]
  [Shrinks (U : Filter ι) F]
  {w : ∀ i, World (F i)} {W : World ℝ} {h : ∀ i, List (Op (F i))} {H : List (Op ℝ)}
  {op : ∀ i, Op (F i)} {OP : Op ℝ} {cls : Cls}

theorem NOp.run (ho : NOp (U : Filter ι) op OP) (hn : NWorld (U : Filter ι) w W)
    (hw : World.Hist Gen.Shipped cls H W) (hs : OP.Sharp cls H W) :
    RelF U (NWorld (U : Filter ι)) (fun i => (op i).run cls (w i)) (OP.run cls W) := by
  have sw : ∀ {q : ∀ i, Op (F i)}, (∀ᶠ i in (U : Filter ι), op i = q i) →
      RelF U (NWorld (U : Filter ι)) (fun i => (q i).run cls (w i)) (OP.run cls W) →
      RelF U (NWorld (U : Filter ι)) (fun i => (op i).run cls (w i)) (OP.run cls W) :=
    fun e hq => relf_congr (e.mono fun i e => by rw [e]) hq
  cases OP with
  | addBody b =>
    refine sw ho (relf_ok ?_)
    refine (hn.setRb (r := fun i => (w i).rb ++ [b]) (R := W.rb ++ [b]) ?_).bodyIndex b ?_
    · exact hn.rb.mono fun i e => congrArg (· ++ [_]) e
    · exact hn.rb.mono fun i e => by dsimp only; rw [e]
  | removeBody b =>
    refine sw ho ?_
    show RelF U _ (fun i => (w i).removeBody b) (W.removeBody b)
    unfold World.removeBody
    refine relf_bindc (relf_same ?_) fun q _ => relf_pure ?_
    · filter_upwards [hn.rb, (hn.bodies b).index] with i e1 e2
      rw [e1, e2]
    · exact (hn.setRb (r := fun _ => q.1) (R := q.1) SameF.rfl').bodyIndex q.2 (hn.bodies b).index
  | addCon c =>
    refine sw ho (relf_ok ?_)
    refine (hn.setCs (r := fun i => (w i).cs ++ [c]) (R := W.cs ++ [c]) ?_).conIndex c ?_
    · exact hn.cs.mono fun i e => congrArg (· ++ [_]) e
    · exact hn.cs.mono fun i e => by dsimp only; rw [e]
  | removeCon c =>
    refine sw ho ?_
    show RelF U _ (fun i => (w i).removeCon c) (W.removeCon c)
    unfold World.removeCon
    refine relf_bindc (relf_same ?_) fun q _ => relf_pure ?_
    · filter_upwards [hn.cs, (hn.cons c).index] with i e1 e2
      rw [e1, e2]
    · exact (hn.setCs (r := fun _ => q.1) (R := q.1) SameF.rfl').conIndex q.2 (hn.cons c).index
  | addGen g =>
    refine sw ho (relf_ok ?_)
    refine (hn.setFg (r := fun i => (w i).fg ++ [g]) (R := W.fg ++ [g]) ?_).genIdx g ?_
    · exact hn.fg.mono fun i e => congrArg (· ++ [_]) e
    · exact hn.fg.mono fun i e => by dsimp only; rw [e]
  | removeGen g =>
    refine sw ho ?_
    show RelF U _ (fun i => (w i).removeGen g) (W.removeGen g)
    unfold World.removeGen
    refine relf_bindc (relf_same (hn.genIndex.mono fun i e => by rw [e])) fun j _ => ?_
    refine relf_bindc (relf_same (hn.fg.mono fun i e => by rw [e])) fun q _ => relf_pure ?_
    exact (hn.setFg (r := fun _ => q.1) (R := q.1) SameF.rfl').genIdx q.2 SameF.rfl'
  | reset =>
    refine sw ho (relf_ok ?_)
    exact ((hn.setRb (r := fun _ => []) SameF.rfl').setCs (r := fun _ => []) SameF.rfl').setFg
      (r := fun _ => []) SameF.rfl'
  | newBody b X =>
    obtain ⟨x, e, hx⟩ := ho
    exact sw e (relf_ok (hn.setBodies (nbodies_upd hn.bodies (hx.setIndex _ SameF.rfl') b)))
  | newCon c X =>
    obtain ⟨x, e, hx⟩ := ho
    exact sw e (relf_ok (hn.setCons (ncons_upd hn.cons (hx.setIndex _ SameF.rfl') c)))
  | newGen g X =>
    obtain ⟨x, e, hx⟩ := ho
    refine sw e (relf_ok (hn.setGens (ngens_upd hn.gens hx g) ?_))
    exact hn.genIndex.mono fun i e => congrArg (fun x => upd x g none) e
  | setBody b X =>
    obtain ⟨x, e, hx⟩ := ho
    exact sw e (relf_ok (hn.setBodies (nbodies_upd hn.bodies
      (hx.setIndex _ (hn.bodies b).index) b)))
  | setCon c X =>
    obtain ⟨x, e, hx⟩ := ho
    refine sw e (relf_ok (hn.setCons (ncons_upd hn.cons (c := fun i => { x i with
      index := ((w i).cons c).index, rows := ((w i).cons c).rows })
      (C := { X with index := (W.cons c).index, rows := (W.cons c).rows }) ?_ c)))
    exact ⟨hx.kind, (hn.cons c).index, hx.bodyCount, hx.bodies, hx.F_x, hx.F_y, hx.F_t,
      (hn.cons c).rows⟩
  | setGen g X =>
    obtain ⟨x, e, hx⟩ := ho
    exact sw e (relf_ok (hn.setGens (ngens_upd hn.gens hx g) hn.genIndex))
  | init sle ode =>
    obtain ⟨v, o, e, hv, hode, _⟩ := ho
    refine sw e ?_
    cases cls with
    | opt =>
      refine relf_ok ⟨hn.bodies, hn.cons, hn.gens, hn.genIndex, hn.rb, hn.cs, hn.fg, hn.st, hn.mem,
        hn.ring, hn.frame, hv, hn.ode, hn.nsv, hn.bias, hn.t⟩
    | gen =>
      show RelF U _ (fun i => (w i).genInit (v i) (o i)) (W.genInit sle ode)
      unfold World.genInit
      obtain ⟨G, hG, hm⟩ := hn.mem
      refine relf_bind (rel_init0 hm (by noeq) SameF.rfl' SameF.rfl') fun m M hm => relf_pure ?_
      exact ⟨hn.bodies, hn.cons, hn.gens, hn.genIndex, hn.rb, hn.cs, hn.fg, hn.st, ⟨G, hG, hm⟩,
        hn.ring, hn.frame, hv, hode, hn.nsv, hn.bias, hn.t⟩
  | setBias X =>
    obtain ⟨x, e, hx⟩ := ho
    exact sw e (relf_ok ⟨hn.bodies, hn.cons, hn.gens, hn.genIndex, hn.rb, hn.cs, hn.fg, hn.st,
      hn.mem, hn.ring, hn.frame, hn.sle, hn.ode, hn.nsv, hx, hn.t⟩)
  | process E D steps =>
    obtain ⟨x, d, e, he, hd⟩ := ho
    refine sw e ?_
    obtain ⟨hst, hc⟩ := hs
    have hr := (hw.readyG (fun _ => Gen.tame) hst.wired).1
    have ha : (∀ g ∈ regGens H, ∀ p, W.gens g ≠ .spring p) → ∀ S, W.Apart S := fun hs S g hg
      p e => absurd e (hs g ((hw.regs.gens.mem g).mp hg) p)
    cases cls with
    | opt =>
      refine rel_optProcess hn hr.fit hr.sound he hd steps (hc.1.elim (fun hs => ?_) id)
        (hc.2.elim (fun hs => ?_) id)
      · exact fun _ _ _ _ _ _ _ _ _ _ _ _ => LoopMeets.of (fun _ => ha hs) _ _ _ _
      · exact fun _ _ _ _ _ _ _ _ _ _ _ _ => LoopMeets.of
          (fun _ _ _ _ _ _ => ⟨fun n δ e => (by cases hs _ e), fun n δ δ' e => (by cases hs _ e)⟩) _ _ _ _
    | gen =>
      refine rel_genProcess hn hr.fit (fun c hc => ?_) hr.sound he hd steps
        (hc.1.elim (fun hs => ?_) id) (hc.2.1.elim (fun hs => ?_) id) hc.2.2
      rotate_left
      · exact fun _ _ _ _ _ _ _ _ _ _ _ _ _ _ => LoopMeets.of (fun _ => ha hs) _ _ _ _
      · exact fun _ _ _ _ _ _ _ _ _ _ _ _ _ _ => LoopMeets.of
          (fun _ _ _ _ _ _ => ⟨fun n δ e => (by cases hs _ e), fun n δ δ' e => (by cases hs _ e)⟩) _ _ _ _
      exact (counts_le (hst.kind c ((hw.regs.cons.mem c).mp hc))).2.2.1

/-- Rounding and a whole program. -/
theorem rel_runAll : ∀ (OPS : List (Op ℝ)) {ops : ∀ i, List (Op (F i))} {w : ∀ i, World (F i)}
    {W V : World ℝ} {h : ∀ i, List (Op (F i))} {H : List (Op ℝ)},
    NProg (U : Filter ι) ops OPS → NWorld (U : Filter ι) w W → NRegs (U : Filter ι) h H →
    World.Hist Gen.Shipped cls H W → Sharp cls H W OPS → runAll cls OPS W = .ok V →
    ∃ v, (∀ᶠ i in (U : Filter ι), runAll cls (ops i) (w i) = .ok (v i)) ∧
      NWorld (U : Filter ι) v V ∧ ∀ᶠ i in (U : Filter ι), Legal cls (h i) (w i) (ops i)
  | [], ops, w, W, V, h, H, hp, hn, hr, hw, hs, e => by
    cases e
    have hp : ∀ᶠ i in (U : Filter ι), ops i = [] := hp
    exact ⟨w, hp.mono fun i e => by rw [e]; rfl, hn, hp.mono fun i e => by rw [e]; trivial⟩
  | OP :: OPS, ops, w, W, V, h, H, hp, hn, hr, hw, hs, e => by
    obtain ⟨op, rest, e1, ho, hp⟩ := hp
    obtain ⟨s1, s2, s3⟩ := hs
    have e : (OP.run cls W >>= runAll cls OPS) = .ok V := e
    obtain ⟨W1, e2, e3⟩ := bind_ok_of e
    obtain ⟨w1, r1, n1⟩ := ho.run hn hw s2 W1 e2
    obtain ⟨v, r2, n2, l2⟩ := rel_runAll OPS hp n1 (hr.cons ho) (.step OP hw s1 e2) (s3 W1 e2) e3
    refine ⟨v, ?_, n2, ?_⟩
    · filter_upwards [e1, r1, r2] with i e1 r1 r2
      rw [e1]
      show ((op i).run cls (w i) >>= runAll cls (rest i)) = _
      rw [r1]; exact r2
    · filter_upwards [e1, r1, l2, ho.valid hr s1, ho.fine hn hr s2] with i e1 r1 l2 hv hf
      rw [e1]
      refine ⟨hv, hf, fun q eq => ?_⟩
      rw [r1] at eq
      cases eq
      exact l2

end

end Scs
