import Verif.WorldProc

/-!
# The optimized system in terms of the objects of the user

The sub-steps of `process` stated for bodies and constraints instead of positions in arrays.
-/

namespace Scs

open Finset

section
variable {α : Type}

/-- The body a constraint is attached to at place `k`. -/
def World.bodyOf (w : World α) (c k : Nat) : Nat :=
  match (w.cons c).bodies k with
  | .obj b => b
  | _ => 0

/-- The registered constraints have one to three rows and at most two bodies, which are registered
in the same system. -/
structure World.Wired (w : World α) (h : List (Op α)) : Prop where
  rows : ∀ c ∈ regCons h, 1 ≤ (w.cons c).rows ∧ (w.cons c).rows ≤ 3
  two : ∀ c ∈ regCons h, (w.cons c).bodyCount ≤ 2
  bodies : ∀ c ∈ regCons h, ∀ k, k < (w.cons c).bodyCount →
    ∃ b ∈ regBodies h, (w.cons c).bodies k = .obj b

/-- The place of a body in the arrays of the state. -/
def World.at (w : World α) (b : Nat) : Nat := (w.bodies b).index.toNat

/-- The bodies that carry constraints are among the first 255 of the system. -/
def World.Near (w : World α) (h : List (Op α)) : Prop :=
  ∀ c ∈ regCons h, ∀ k, k < (w.cons c).bodyCount → ∀ b, (w.cons c).bodies k = .obj b →
    (w.bodies b).index < 255

/-- `Near` in terms of places. -/
def World.Slim (w : World α) : Prop := w.Low (fun c k => w.at (w.bodyOf c k))

end

section
variable {α : Type} [Zero α] [Add α] [Mul α] [Sub α] [Neg α] [Fp α]
variable {G : Gen α → Prop} {cls : Cls} {h : List (Op α)} {w w' : World α}

/-- The registered bodies are those in the list, each with its place as index. -/
structure World.Placed (w : World α) : Prop where
  rb : w.rb.Nodup
  cs : w.cs.Nodup
  lt : ∀ b ∈ w.rb, w.at b < w.bodyCount
  rbAt : ∀ b ∈ w.rb, w.rbAt (w.at b) = b
  index : ∀ b ∈ w.rb, (w.bodies b).index = (w.at b : Int)
  place : ∀ i, i < w.bodyCount → w.at (w.rbAt i) = i
  bodies : ∀ c ∈ w.cs, ∀ k, k < (w.cons c).bodyCount → (w.cons c).bodies k = .obj (w.bodyOf c k) ∧
    w.bodyOf c k ∈ w.rb

theorem World.Regs.placed (r : w.Regs cls h) (hw : w.Wired h) : w.Placed := by
  have hpos : ∀ b ∈ w.rb, ∃ (i : Nat) (hi : i < w.rb.length), w.rb[i] = b ∧
      (w.bodies b).index = (i : Int) := by
    intro b hb
    obtain ⟨i, hi, e1, e2⟩ := r.bodies.at ((r.bodies.mem b).mp hb)
    exact ⟨i, hi, e1, Option.some.inj e2⟩
  refine ⟨r.bodies.nodup, r.cons.nodup, ?_, ?_, ?_, ?_, ?_⟩
  · intro b hb
    obtain ⟨i, hi, _, e⟩ := hpos b hb
    rw [World.at, e]
    exact hi
  · intro b hb
    obtain ⟨i, hi, e1, e⟩ := hpos b hb
    rw [World.at, e, World.rbAt]
    show w.rb.getD i 0 = b
    rw [List.getD_eq_getElem _ _ hi, e1]
  · intro b hb
    obtain ⟨i, hi, e1, e⟩ := hpos b hb
    rw [World.at, e]
    rfl
  · intro i hi
    have := Option.some.inj (r.bodies.pos i hi)
    rw [World.rbAt, List.getD_eq_getElem _ _ hi, World.at, this]
    rfl
  · intro c hc k hk
    obtain ⟨b, hb, e⟩ := hw.bodies c ((r.cons.mem c).mp hc) k hk
    have : w.bodyOf c k = b := by rw [World.bodyOf, e]
    rw [this]
    exact ⟨e, (r.bodies.mem b).mpr hb⟩

theorem World.Near.slim (n : w.Near h) (p : w.Placed) (r : w.Regs cls h) : w.Slim := by
  intro c hc k hk
  obtain ⟨e, hb⟩ := p.bodies c hc k hk
  have := n c ((r.cons.mem c).mp hc) k hk _ e
  rw [p.index _ hb] at this
  exact_mod_cast this

/-- In a system of at most 255 bodies the bodies that carry constraints are among the first 255. -/
theorem World.Near.of_card (r : w.Regs cls h) (hb : ∀ c ∈ regCons h, ∀ k,
    k < (w.cons c).bodyCount → ∃ b ∈ regBodies h, (w.cons c).bodies k = .obj b)
    (hc : (regBodies h).card ≤ 255) : w.Near h := by
  intro c hc' k hk b e
  obtain ⟨b', hb', e'⟩ := hb c hc' k hk
  obtain rfl : b' = b := by rw [e] at e'; cases e'; rfl
  obtain ⟨i, hi, _, e2⟩ := r.bodies.at hb'
  rw [show (w.bodies b').index = (i : Int) from Option.some.inj e2]
  have : w.rb.length = (regBodies h).card := r.bodies.length
  omega

theorem World.Placed.fit (p : w.Placed) (r : w.Regs cls h) (hw : w.Wired h) :
    w.Fit (fun c k => w.at (w.bodyOf c k)) := by
  have hm : ∀ c ∈ w.cs, c ∈ regCons h := fun c hc => (r.cons.mem c).mp hc
  refine ⟨fun c hc => (hw.rows c (hm c hc)).1, fun c hc => (hw.rows c (hm c hc)).2,
    fun c hc => hw.two c (hm c hc), ?_, ?_⟩
  · intro c hc k hk
    obtain ⟨e, hb⟩ := p.bodies c hc k hk
    have h2 := hw.two c (hm c hc)
    have : rd1 maxBodies (w.cons c).bodies k = .ok (.obj (w.bodyOf c k)) := by
      rw [rd1, if_pos (show k < maxBodies by rw [maxBodies]; omega), e]
    rw [Con.idx, this, ok_bind]
    show Except.ok (w.bodies (w.bodyOf c k)).index = _
    rw [p.index _ hb]
  · intro c hc k hk
    exact p.lt _ (p.bodies c hc k hk).2

end

section
variable {w : World ℝ}

theorem World.Hist.ready {G : Gen ℝ → Prop} {h : List (Op ℝ)} (hG : ∀ g, G g → g.OnlyForces)
    (hw : World.Hist G .opt h w) (hwd : w.Wired h) :
    w.Ready (fun c k => w.at (w.bodyOf c k)) ∧ w.Placed where
  left :=
    { fit := (hw.regs.placed hwd).fit hw.regs hwd
      sound := hw.sound divOk_real hG
      rb := hw.regs.bodies.nodup
      cs := hw.regs.cons.nodup
      nsv := hw.regs.nsv
      ring := hw.prof.ringOk }
  right := hw.regs.placed hwd

/-! ### Sums over rows -/

theorem sum_getD (l : List Nat) (H : Nat → ℝ) :
    ∑ i ∈ range l.length, H (l.getD i 0) = (l.map H).sum := by
  induction l with
  | nil => rfl
  | cons a l ih =>
    rw [List.length_cons, sum_range_succ', List.map_cons, List.sum_cons, ← ih, add_comm]
    rfl

theorem sum_off (w : World ℝ) (g : Nat → ℝ) : ∀ n, n ≤ w.cs.length →
    ∑ f ∈ range (w.off n), g f = ∑ i ∈ range n,
      ∑ j ∈ range (w.cons (w.cs.getD i 0)).rows, g (w.off i + j)
  | 0, _ => by rw [off_zero]; rfl
  | n + 1, h => by
    have hn : n < w.cs.length := h
    rw [off_succ w hn, sum_range_add, sum_range_succ, sum_off w g n (by omega),
      List.getD_eq_getElem _ _ hn]

/-- A sum over all rows as a sum over the constraints and their rows. -/
theorem sum_rows (w : World ℝ) (g : Nat → ℝ) : ∑ f ∈ range w.fullCount, g f =
    ∑ i ∈ range w.cs.length, ∑ j ∈ range (w.cons (w.cs.getD i 0)).rows, g (w.off i + j) := by
  rw [← off_full]
  exact sum_off w g _ (Nat.le_refl _)

/-- The place of a constraint in the list of constraints. -/
def World.conAt {α : Type} (w : World α) (c : Nat) : Nat := w.cs.idxOf c

theorem conAt_get {w : World ℝ} (hnd : w.cs.Nodup) {i : Nat} (hi : i < w.cs.length) :
    w.conAt (w.cs.getD i 0) = i := by
  rw [World.conAt, List.getD_eq_getElem _ _ hi]
  exact hnd.idxOf_getElem i hi

theorem conAt_spec {w : World ℝ} {c : Nat} (hc : c ∈ w.cs) :
    ∃ hi : w.conAt c < w.cs.length, w.cs[w.conAt c] = c :=
  ⟨List.idxOf_lt_length_of_mem hc, List.getElem_idxOf _⟩

theorem sum_cons {w : World ℝ} (hnd : w.cs.Nodup) (H : Nat → Nat → ℝ) :
    ∑ i ∈ range w.cs.length, H i (w.cs.getD i 0) = ∑ c ∈ w.cs.toFinset, H (w.conAt c) c := by
  rw [List.sum_toFinset _ hnd, ← sum_getD]
  refine sum_congr rfl fun i hi => ?_
  rw [conAt_get hnd (mem_range.mp hi)]

theorem sum_bodies {w : World ℝ} (p : w.Placed) (H : Nat → ℝ) :
    ∑ i ∈ range w.bodyCount, H i = ∑ b ∈ w.rb.toFinset, H (w.at b) := by
  rw [List.sum_toFinset _ p.rb, ← sum_getD]
  refine sum_congr rfl fun i hi => ?_
  have := p.place i (mem_range.mp hi)
  rw [World.rbAt] at this
  rw [this]

/-! ### Sub-steps -/

/-- Positions, velocities and accelerations of the bodies. -/
structure Motion where
  pos : Nat → Coord → ℝ
  vel : Nat → Coord → ℝ
  acc : Nat → Coord → ℝ

/-- The force of the constraint `c` on its body `k`, summed over rows and bodies for all registered
constraints: the constraint force on body `b`. -/
noncomputable def World.conForce (w : World ℝ) (F : Nat → Coord → Nat → Nat → ℝ) (b : Nat)
    (q : Coord) : ℝ :=
  ∑ c ∈ w.cs.toFinset, ∑ j ∈ range (w.cons c).rows, ∑ k ∈ range (w.cons c).bodyCount,
    if w.bodyOf c k = b then F c q j k else 0

/-- The entry for body `b` and coordinate `q` of row `j` of constraint `c`. -/
noncomputable def World.coef (w : World ℝ) (out : Nat → Output ℝ) (c j b : Nat) (q : Coord) : ℝ :=
  ∑ k ∈ range (w.cons c).bodyCount, if w.bodyOf c k = b then (out c).J j (k * 3 + q.d) else 0

/-- The acceleration of body `b` caused by forces `z` along the rows of the constraints. -/
noncomputable def World.response (w : World ℝ) (out : Nat → Output ℝ) (z : Nat → Nat → ℝ) (b : Nat)
    (q : Coord) : ℝ :=
  (∑ c ∈ w.cs.toFinset, ∑ j ∈ range (w.cons c).rows, z c j * w.coef out c j b q) /
    (w.bodies b).mass q

/-- The constraint matrix is not singular: only zero forces along the rows leave the velocities
along all rows unchanged. -/
def World.Indep (w : World ℝ) (out : Nat → Output ℝ) : Prop :=
  ∀ z : Nat → Nat → ℝ, (∀ c ∈ w.cs, ∀ i, i < (w.cons c).rows → ∑ b ∈ w.rb.toFinset,
      Coord.sum (fun q => w.coef out c i b q * w.response out z b q) = 0) →
    ∀ c ∈ w.cs, ∀ i, i < (w.cons c).rows → z c i = 0

/-- The velocity along row `i` of constraint `c` caused by a unit impulse along row `i'` of constraint
`c'`. -/
noncomputable def World.coupling (w : World ℝ) (out : Nat → Output ℝ) (c i c' i' : Nat) : ℝ :=
  ∑ b ∈ w.rb.toFinset, Coord.sum (fun q =>
    w.coef out c i b q * (1 / (w.bodies b).mass q) * w.coef out c' i' b q)

/-- `s` shows the motion `x` of the registered bodies, and their masses. -/
structure World.Seen (w : World ℝ) (s : SysState ℝ) (x : Motion) : Prop where
  pos : ∀ b ∈ w.rb, ∀ q : Coord, s.val q.p (w.at b) = x.pos b q
  vel : ∀ b ∈ w.rb, ∀ q : Coord, s.val q.v (w.at b) = x.vel b q
  acc : ∀ b ∈ w.rb, ∀ q : Coord, s.val q.a (w.at b) = x.acc b q
  mass : ∀ b ∈ w.rb, s.val .m (w.at b) = (w.bodies b).m

/-- The left hand side of the condition of row `j` of constraint `c` at the velocities `v`. -/
noncomputable def World.rowAt (w : World ℝ) (o : Output ℝ) (c j : Nat) (v : Nat → Coord → ℝ) : ℝ :=
  ∑ k ∈ range (w.cons c).bodyCount, Coord.sum (fun q => o.J j (k * 3 + q.d) * v (w.bodyOf c k) q)

/-- One sub-step of length `h` from the motion `x` to the motion `x'`: `ext` are the forces of the
generators on each body, `out` the results of each constraint, `mult` the force along each row and
`F` the resulting forces. -/
structure World.SubStep (w : World ℝ) (h : ℝ) (x x' : Motion) (ext : Nat → Coord → ℝ)
    (out : Nat → Output ℝ) (mult : Nat → Nat → ℝ) (F : Nat → Coord → Nat → Nat → ℝ) : Prop where
  ne : h ≠ 0
  state : ∃ s s1 : SysState ℝ, s.Wf ∧ w.bodyCount ≤ s.n ∧ w.Seen s x ∧
    w.processForces { s with dt := h } = .ok s1 ∧ w.Seen s1 x ∧ s1.Wf ∧ s1.n = s.n ∧
    (∀ b ∈ w.rb, ∀ q : Coord, ext b q = s1.val q.f (w.at b)) ∧
    ∀ c ∈ w.cs, ∃ o, (w.cons c).kind.calculate ((w.cons c).idx w.bodies) o s1 = .ok (out c)
  react : ∀ c ∈ w.cs, ∀ (q : Coord) j k, j < (w.cons c).rows → k < (w.cons c).bodyCount →
    w.at (w.bodyOf c k) % 256 ≠ 255 → F c q j k = mult c j * (out c).J j (k * 3 + q.d)
  acc : ∀ b ∈ w.rb, ∀ q : Coord, x'.acc b q =
    (ext b q + w.conForce F b q) / (w.bodies b).mass q
  vel : ∀ b ∈ w.rb, ∀ q : Coord, x'.vel b q = x.vel b q + h * x'.acc b q
  pos : ∀ b ∈ w.rb, ∀ q : Coord, x'.pos b q = x.pos b q + h * x'.vel b q
  indep : w.Slim → w.sle = some .ge → w.Indep out
  ge : w.Slim → w.sle = some .ge → ∀ c ∈ w.cs, ∀ j, j < (w.cons c).rows →
    w.rowAt (out c) c j x'.vel + (out c).v_bias j + w.bias / h * (out c).C j = 0
  cg : w.Slim → ∀ m e1 e2, w.sle = some (.cg m e1 e2) → ∀ c ∈ w.cs, ∀ j, j < (w.cons c).rows →
    |w.rowAt (out c) c j x'.vel + (out c).v_bias j + w.bias / h * (out c).C j| ≤
      max |e1 * (w.rowAt (out c) c j (fun b q => x.vel b q + h * ext b q / (w.bodies b).mass q) +
        (out c).v_bias j + w.bias / h * (out c).C j)| e2
  gs : ∀ m e, w.sle = some (.gs m e) → 0 < h → ∀ c ∈ w.cs, ∀ j, j < (w.cons c).rows →
    (out c).limits j 0 ≤ (out c).limits j 1 →
    (out c).limits j 0 ≤ mult c j ∧ mult c j ≤ (out c).limits j 1
  gsRow : w.Slim → ∀ m e, w.sle = some (.gs m e) → 0 < h → ∃ prev : Nat → Nat → ℝ,
    (∀ c ∈ w.cs, ∀ j, j < (w.cons c).rows →
      |h * mult c j - prev c j| < e * max (1 / 1000) |prev c j|) ∧
    ∀ c ∈ w.cs, ∀ j, j < (w.cons c).rows → 0 < w.coupling out c j c j →
      (out c).limits j 0 ≤ (out c).limits j 1 → ∀ r err,
      r = w.rowAt (out c) c j x'.vel + (out c).v_bias j + w.bias / h * (out c).C j →
      err = ∑ c' ∈ w.cs.toFinset, ∑ j' ∈ range (w.cons c').rows, (if c' = c ∧ j' = j then 0 else
        |w.coupling out c j c' j'| * |h * mult c' j' - prev c' j'|) →
      |r| ≤ err ∨ (mult c j = (out c).limits j 0 ∧ -err ≤ r) ∨
        (mult c j = (out c).limits j 1 ∧ r ≤ err)

section
variable {B : Nat → Nat → Nat}

theorem reactSum_jc {out : Nat → Output ℝ} {lam : Nat → ℝ} {h : ℝ} {r : CFld → Nat → ℝ}
    (hlow : w.Low B)
    (hr : ∀ (q : Coord) f j, f < w.fullCount → j < w.rowN f → B (w.rowC f) j % 256 ≠ 255 →
      r q.r (f * 2 + j) = lam f / h * (out (w.rowI f)).J (w.rowK f) (j * 3 + q.d)) (q : Coord) (i : Nat) :
    w.reactSum B r w.fullCount q i =
      ∑ f ∈ range w.fullCount, lam f / h * w.jc B out f q i := by
  rw [World.reactSum]
  refine sum_congr rfl fun f hf => ?_
  rw [World.jc, mul_sum]
  refine sum_congr rfl fun k hk => ?_
  have := hlow.row (mem_range.mp hf) (mem_range.mp hk)
  rw [mul_ite, mul_zero, hr q f k (mem_range.mp hf) (mem_range.mp hk) (by omega)]

theorem Coord.sum_add (f g : Coord → ℝ) :
    Coord.sum (fun q => f q + g q) = Coord.sum f + Coord.sum g := by
  simp only [Coord.sum]; ring

theorem Coord.sum_sum {n : Nat} (f : Coord → Nat → ℝ) :
    Coord.sum (fun q => ∑ i ∈ range n, f q i) = ∑ i ∈ range n, Coord.sum (fun q => f q i) := by
  simp only [Coord.sum, sum_add_distrib]

theorem Coord.sum_mul (a : ℝ) (f : Coord → ℝ) : Coord.sum (fun q => a * f q) = a * Coord.sum f := by
  simp only [Coord.sum]; ring

/-- The velocity condition of a row after a sub-step: that of the external forces alone and the
effect of the multipliers. -/
theorem World.Step.rows_key {h : ℝ} {s s1 s' : SysState ℝ} {out : Nat → Output ℝ} {lam : Nat → ℝ}
    (st : w.Step B h s s1 s' out lam) (hlow : w.Low B) (f : Nat) : w.rowV B out f (fun q i => s'.val q.v i) =
      w.rowV B out f (fun q i => s1.val q.v i + h * s1.val q.f i / w.massAt q i) +
      mulV w.fullCount (w.sysM B out) lam f := by
  have hh := st.ne
  have v1 : ∀ (q : Coord) i, s1.val q.v i = s.val q.v i := fun q i => by
    rw [st.writes.keep (vel_not_force q)]; rfl
  have hm : mulV w.fullCount (w.sysM B out) lam f = ∑ i ∈ range w.bodyCount, Coord.sum (fun q =>
      w.jb B out f q i * (∑ g ∈ range w.fullCount, lam g * w.jc B out g q i / w.massAt q i)) := by
    simp only [mulV, World.sysM, sum_mul]
    rw [sum_comm]
    refine sum_congr rfl fun i _ => ?_
    simp only [mul_sum]
    rw [Coord.sum_sum]
    refine sum_congr rfl fun g hg => ?_
    rw [mul_comm, ← Coord.sum_mul]
    refine Coord.sum_congr fun q => ?_
    rw [hlow.jb out (mem_range.mp hg)]
    ring
  rw [hm, World.rowV, World.rowV, ← sum_add_distrib]
  refine sum_congr rfl fun i hi => ?_
  rw [← Coord.sum_add]
  refine Coord.sum_congr fun q => ?_
  rw [st.vel q i (mem_range.mp hi), reactSum_jc hlow st.react, v1, ← mul_add]
  congr 1
  have : h * ((s1.val q.f i + ∑ f ∈ range w.fullCount, lam f / h * w.jc B out f q i) /
      w.massAt q i) = h * s1.val q.f i / w.massAt q i +
        h * (∑ f ∈ range w.fullCount, lam f / h * w.jc B out f q i) / w.massAt q i := by ring
  rw [this, mul_sum, sum_div, add_assoc]
  congr 2
  refine sum_congr rfl fun g _ => ?_
  field_simp

/-- With the multipliers of Gaussian elimination the new velocities meet the condition of every
row. -/
theorem World.Step.rows_ge {h : ℝ} {s s1 s' : SysState ℝ} {out : Nat → Output ℝ} {lam : Nat → ℝ}
    (st : w.Step B h s s1 s' out lam) (hlow : w.Low B) (hs : w.sle = some .ge) {f : Nat} (hf : f < w.fullCount) :
    w.rowV B out f (fun q i => s'.val q.v i) + (out (w.rowI f)).v_bias (w.rowK f) +
      w.bias / h * (out (w.rowI f)).C (w.rowK f) = 0 := by
  obtain ⟨sv, e, hsol⟩ := st.solved
  rw [hs] at e
  cases e
  have hsol : mulV w.fullCount (w.sysM B out) lam f = _ := (hsol (by omega)).2 f hf
  rw [st.rows_key hlow, hsol, World.optRhs]
  ring

/-- With the multipliers of the conjugate gradient method the new velocities meet the condition of
every row up to the tolerances. -/
theorem World.Step.rows_cg {h : ℝ} {s s1 s' : SysState ℝ} {out : Nat → Output ℝ} {lam : Nat → ℝ}
    (st : w.Step B h s s1 s' out lam) (hlow : w.Low B) {m : Nat} {e1 e2 : ℝ} (hs : w.sle = some (.cg m e1 e2))
    {f : Nat} (hf : f < w.fullCount) :
    |w.rowV B out f (fun q i => s'.val q.v i) + (out (w.rowI f)).v_bias (w.rowK f) +
      w.bias / h * (out (w.rowI f)).C (w.rowK f)| ≤ max |e1 * (
        w.rowV B out f (fun q i => s1.val q.v i + h * s1.val q.f i / w.massAt q i) +
        (out (w.rowI f)).v_bias (w.rowK f) + w.bias / h * (out (w.rowI f)).C (w.rowK f))| e2 := by
  obtain ⟨sv, e, hsol⟩ := st.solved
  rw [hs] at e
  cases e
  have hsol := hsol (by omega) f hf
  rw [World.optRhs, mul_neg, abs_neg] at hsol
  rw [st.rows_key hlow, ← abs_neg]
  refine le_trans (le_of_eq ?_) hsol
  simp only [World.optRhs]
  congr 1
  ring

/-- The condition of a row in terms of the bodies of the constraint. -/
theorem rowV_eq (hfit : w.Fit B) (hlow : w.Low B) {out : Nat → Output ℝ} {f : Nat} (hf : f < w.fullCount)
    (u : Coord → Nat → ℝ) : w.rowV B out f u = ∑ k ∈ range (w.rowN f), Coord.sum (fun q =>
      (out (w.rowI f)).J (w.rowK f) (k * 3 + q.d) * u q (B (w.rowC f) k)) := by
  rw [World.rowV]
  have : ∀ i ∈ range w.bodyCount, Coord.sum (fun q => w.jb B out f q i * u q i) =
      ∑ k ∈ range (w.rowN f), Coord.sum (fun q => if B (w.rowC f) k = i then
        (out (w.rowI f)).J (w.rowK f) (k * 3 + q.d) * u q i else 0) := by
    intro i _
    rw [← Coord.sum_sum]
    refine Coord.sum_congr fun q => ?_
    rw [hlow.jb out hf, World.jc, sum_mul]
    refine sum_congr rfl fun k _ => ?_
    rw [ite_mul, zero_mul]
  rw [sum_congr rfl this, sum_comm]
  refine sum_congr rfl fun k hk => ?_
  rw [← Coord.sum_sum]
  refine Coord.sum_congr fun q => ?_
  rw [sum_ite_eq, if_pos (mem_range.mpr ((hfit.rowB hf).2 k (mem_range.mp hk)))]

end

section
variable (p : w.Placed) (hfit : w.Fit (fun c k => w.at (w.bodyOf c k)))
include p hfit

/-- The forces stored for a constraint. -/
def World.forceAt (w : World ℝ) (r : CFld → Nat → ℝ) (c : Nat) (q : Coord) (j k : Nat) : ℝ :=
  r q.r ((w.off (w.conAt c) + j) * 2 + k)

theorem at_inj {b b' : Nat} (hb : b ∈ w.rb) (hb' : b' ∈ w.rb) (e : w.at b = w.at b') : b = b' := by
  rw [← p.rbAt b hb, ← p.rbAt b' hb', e]

theorem reactSum_obj (r : CFld → Nat → ℝ) {b : Nat} (hb : b ∈ w.rb) (q : Coord) :
    w.reactSum (fun c k => w.at (w.bodyOf c k)) r w.fullCount q (w.at b) =
      w.conForce (w.forceAt r) b q := by
  rw [World.reactSum, sum_rows, World.conForce,
    sum_cons p.cs (fun i c => ∑ j ∈ range (w.cons c).rows, ∑ k ∈ range (w.rowN (w.off i + j)),
      if w.at (w.bodyOf (w.rowC (w.off i + j)) k) = w.at b then r q.r ((w.off i + j) * 2 + k)
      else 0)]
  refine sum_congr rfl fun c hc => sum_congr rfl fun j hj => ?_
  have hc := List.mem_toFinset.mp hc
  obtain ⟨hi, hci⟩ := conAt_spec hc
  have hr := (row_off w hi (k := j) (by rw [hci]; exact mem_range.mp hj)).2.2
  rw [hci] at hr
  rw [World.rowN, hr]
  refine sum_congr rfl fun k hk => ?_
  have hm := (p.bodies c hc k (mem_range.mp hk)).2
  by_cases e : w.bodyOf c k = b
  · rw [if_pos e, if_pos (by rw [e])]
    rfl
  · rw [if_neg e, if_neg fun h => e (at_inj p hfit hm hb h)]

/-- The motion shown by a state. -/
def World.seen (w : World ℝ) (s : SysState ℝ) : Motion :=
  ⟨fun b q => s.val q.p (w.at b), fun b q => s.val q.v (w.at b), fun b q => s.val q.a (w.at b)⟩

theorem row_of {c : Nat} (hc : c ∈ w.cs) {j : Nat} (hj : j < (w.cons c).rows) :
    w.off (w.conAt c) + j < w.fullCount ∧ w.rowI (w.off (w.conAt c) + j) = w.conAt c ∧
      w.rowK (w.off (w.conAt c) + j) = j ∧ w.rowC (w.off (w.conAt c) + j) = c := by
  obtain ⟨hi, hci⟩ := conAt_spec hc
  have hj' : j < (w.cons w.cs[w.conAt c]).rows := by rw [hci]; exact hj
  have := row_off w hi hj'
  rw [hci] at this
  exact ⟨off_lt w hi hj', this⟩

theorem row_get {f : Nat} (hf : f < w.fullCount) : ∃ c ∈ w.cs, ∃ j, j < (w.cons c).rows ∧
    f = w.off (w.conAt c) + j := by
  obtain ⟨hi, e, hk, hf', hm⟩ := row_spec w hf
  refine ⟨w.rowC f, hm, w.rowK f, hk, ?_⟩
  have : w.conAt (w.rowC f) = w.rowI f := by
    rw [e, ← List.getD_eq_getElem (d := 0) _ hi]
    exact conAt_get p.cs hi
  rw [this, hf']

/-- A sum over all rows as a sum over constraints and rows. -/
theorem sum_full (g : Nat → ℝ) : ∑ f ∈ range w.fullCount, g f =
    ∑ c ∈ w.cs.toFinset, ∑ j ∈ range (w.cons c).rows, g (w.off (w.conAt c) + j) := by
  rw [sum_rows, sum_cons p.cs (fun i c => ∑ j ∈ range (w.cons c).rows, g (w.off i + j))]

theorem jc_coef (out : Nat → Output ℝ) {c : Nat} (hc : c ∈ w.cs) {j : Nat}
    (hj : j < (w.cons c).rows) (q : Coord) {b : Nat} (hb : b ∈ w.rb) :
    w.jc (fun c k => w.at (w.bodyOf c k)) out (w.off (w.conAt c) + j) q (w.at b) =
      w.coef (fun c => out (w.conAt c)) c j b q := by
  obtain ⟨_, r2, r3, r4⟩ := row_of p hfit hc hj
  rw [World.jc, World.coef, World.rowN, r2, r3, r4]
  refine sum_congr rfl fun k hk => ?_
  have hm := (p.bodies c hc k (mem_range.mp hk)).2
  by_cases e : w.bodyOf c k = b
  · rw [if_pos e, if_pos (by rw [e])]
  · rw [if_neg e, if_neg fun h => e (at_inj p hfit hm hb h)]

theorem sysM_obj (hlow : w.Slim) (out : Nat → Output ℝ) (u : Nat → ℝ) {c : Nat} (hc : c ∈ w.cs) {j : Nat}
    (hj : j < (w.cons c).rows) :
    mulV w.fullCount (w.sysM (fun c k => w.at (w.bodyOf c k)) out) u (w.off (w.conAt c) + j) =
      ∑ b ∈ w.rb.toFinset, Coord.sum (fun q => w.coef (fun c => out (w.conAt c)) c j b q *
        w.response (fun c => out (w.conAt c)) (fun c j => u (w.off (w.conAt c) + j)) b q) := by
  simp only [mulV, World.sysM, sum_mul]
  rw [sum_comm, sum_bodies p]
  refine sum_congr rfl fun b hb => ?_
  have hb := List.mem_toFinset.mp hb
  rw [sum_full p hfit]
  have e : ∀ q, w.coef (fun c => out (w.conAt c)) c j b q *
        w.response (fun c => out (w.conAt c)) (fun c j => u (w.off (w.conAt c) + j)) b q =
      ∑ c' ∈ w.cs.toFinset, ∑ j' ∈ range (w.cons c').rows,
        w.coef (fun c => out (w.conAt c)) c j b q * (1 / (w.bodies b).mass q) *
          w.coef (fun c => out (w.conAt c)) c' j' b q * u (w.off (w.conAt c') + j') := by
    intro q
    rw [World.response, sum_div, mul_sum]
    refine sum_congr rfl fun c' _ => ?_
    rw [sum_div, mul_sum]
    refine sum_congr rfl fun j' _ => ?_
    ring
  simp only [e, Coord.sum, ← sum_add_distrib]
  refine sum_congr rfl fun c' hc' => sum_congr rfl fun j' hj' => ?_
  have hc' := List.mem_toFinset.mp hc'
  have r1 := (row_of p hfit hc hj).1
  have r2 := (row_of p hfit hc' (mem_range.mp hj')).1
  simp only [hlow.jb out r1, hlow.jb out r2, jc_coef p hfit out hc hj _ hb, jc_coef p hfit out hc' (mem_range.mp hj') _ hb,
    World.massAt, p.rbAt b hb]
  ring

theorem sysM_coupling (hlow : w.Slim) (out : Nat → Output ℝ) {c : Nat} (hc : c ∈ w.cs) {i : Nat}
    (hi : i < (w.cons c).rows) {c' : Nat} (hc' : c' ∈ w.cs) {i' : Nat} (hi' : i' < (w.cons c').rows) :
    w.sysM (fun c k => w.at (w.bodyOf c k)) out (w.off (w.conAt c) + i) (w.off (w.conAt c') + i') =
      w.coupling (fun c => out (w.conAt c)) c i c' i' := by
  rw [World.sysM, sum_bodies p, World.coupling]
  refine sum_congr rfl fun b hb => Coord.sum_congr fun q => ?_
  have hb := List.mem_toFinset.mp hb
  rw [hlow.jb out (row_of p hfit hc hi).1, hlow.jb out (row_of p hfit hc' hi').1,
    jc_coef p hfit out hc hi q hb, jc_coef p hfit out hc' hi' q hb, World.massAt, p.rbAt b hb]

/-- Regularity of the matrix of the multipliers in terms of the constraints. -/
theorem regular_iff (hlow : w.Slim) (out : Nat → Output ℝ) :
    Regular w.fullCount (w.sysM (fun c k => w.at (w.bodyOf c k)) out) ↔
      w.Indep (fun c => out (w.conAt c)) := by
  constructor
  · intro hr z hz c hc i hi
    have hu : ∀ c ∈ w.cs, ∀ i, i < (w.cons c).rows → z (w.rowC (w.off (w.conAt c) + i))
        (w.rowK (w.off (w.conAt c) + i)) = z c i := by
      intro c hc i hi
      obtain ⟨_, _, r3, r4⟩ := row_of p hfit hc hi
      rw [r3, r4]
    have := hr (fun f => z (w.rowC f) (w.rowK f)) ?_ (w.off (w.conAt c) + i) (row_of p hfit hc hi).1
    · rw [← hu c hc i hi]
      exact this
    · intro f hf
      obtain ⟨c', hc', i', hi', rfl⟩ := row_get p hfit hf
      refine (sysM_obj p hfit hlow out _ hc' hi').trans ?_
      rw [← hz c' hc' i' hi']
      refine sum_congr rfl fun b _ => Coord.sum_congr fun q => ?_
      congr 1
      simp only [World.response]
      congr 1
      refine sum_congr rfl fun c'' hc'' => sum_congr rfl fun j'' hj'' => ?_
      rw [hu c'' (List.mem_toFinset.mp hc'') j'' (mem_range.mp hj'')]
  · intro hi u hu f hf
    obtain ⟨c, hc, j, hj, rfl⟩ := row_get p hfit hf
    refine hi (fun c j => u (w.off (w.conAt c) + j)) ?_ c hc j hj
    intro c' hc' i' hi'
    rw [← sysM_obj p hfit hlow out u hc' hi']
    exact hu _ (row_of p hfit hc' hi').1

theorem World.Step.obj {h : ℝ} {s s1 s' : SysState ℝ} {out : Nat → Output ℝ} {lam : Nat → ℝ}
    (st : w.Step (fun c k => w.at (w.bodyOf c k)) h s s1 s' out lam) (hs : s.Wf)
    (hn : w.bodyCount ≤ s.n) (hm : ∀ b ∈ w.rb, s.val .m (w.at b) = (w.bodies b).m) :
    w.SubStep h (w.seen s) (w.seen s') (fun b q => s1.val q.f (w.at b)) (fun c => out (w.conAt c))
      (fun c j => lam (w.off (w.conAt c) + j) / h) (w.forceAt s'.rval) := by
  have hrow : ∀ c ∈ w.cs, ∀ j, j < (w.cons c).rows → w.off (w.conAt c) + j < w.fullCount ∧
      w.rowI (w.off (w.conAt c) + j) = w.conAt c ∧ w.rowK (w.off (w.conAt c) + j) = j ∧
      w.rowC (w.off (w.conAt c) + j) = c := fun c hc j hj => row_of p hfit hc hj
  refine ⟨st.ne, ⟨s, s1, hs, hn, ⟨fun b _ q => rfl, fun b _ q => rfl, fun b _ q => rfl, hm⟩,
    st.forces, ⟨fun b hb q => ?_, fun b hb q => ?_, fun b hb q => ?_, fun b hb => ?_⟩,
    st.writes.wf (wf_setDt hs h), st.writes.n, fun b hb q => rfl, fun c hc => ?_⟩,
    ?_, ?_, ?_, ?_, ?_, ?_, ?_, ?_, ?_⟩
  · rw [st.writes.keep (pos_not_force q)]; rfl
  · rw [st.writes.keep (vel_not_force q)]; rfl
  · rw [st.writes.keep (acc_not_force q)]; rfl
  · rw [st.writes.keep (by rintro (h | h | h) <;> cases h)]
    exact hm b hb
  · obtain ⟨hi, hci⟩ := conAt_spec hc
    have := st.eval _ hi
    rw [hci] at this
    exact this
  · intro c hc q j k hj hk hne
    obtain ⟨r1, r2, r3, r4⟩ := hrow c hc j hj
    rw [World.forceAt, st.react q _ k r1 (by rw [World.rowN, r4]; exact hk)
      (by rw [r4]; exact hne), r2, r3]
  · intro b hb q
    have := st.acc q _ (p.lt b hb)
    rw [reactSum_obj p hfit _ hb, World.massAt, p.rbAt b hb] at this
    exact this
  · intro b hb q
    have := st.vel q _ (p.lt b hb)
    rw [← st.acc q _ (p.lt b hb)] at this
    exact this
  · intro b hb q
    exact st.pos q _ (p.lt b hb)
  · intro hlow hge
    obtain ⟨sv, e, hsol⟩ := st.solved
    rw [hge] at e
    cases e
    rw [← regular_iff p hfit hlow]
    rcases Nat.eq_zero_or_pos w.fullCount with h0 | h0
    · rw [h0]
      exact fun u _ i hi => absurd hi (Nat.not_lt_zero i)
    · exact (hsol h0).1
  · intro hlow hge c hc j hj
    obtain ⟨r1, r2, r3, r4⟩ := hrow c hc j hj
    have := st.rows_ge hlow hge r1
    rw [rowV_eq hfit hlow r1, World.rowN, r2, r3, r4] at this
    exact this
  · intro hlow m e1 e2 hcg c hc j hj
    obtain ⟨r1, r2, r3, r4⟩ := hrow c hc j hj
    have := st.rows_cg hlow hcg r1
    rw [rowV_eq hfit hlow r1, rowV_eq hfit hlow r1, World.rowN, r2, r3, r4] at this
    refine this.trans (le_of_eq ?_)
    congr 4
    refine congrArg₂ _ ?_ rfl
    refine sum_congr rfl fun k hk => Coord.sum_congr fun q => ?_
    have hb := (p.bodies c hc k (mem_range.mp hk)).2
    simp only [World.massAt, p.rbAt _ hb, World.seen]
    rw [st.writes.keep (vel_not_force q)]
    rfl
  · intro m e hgs hh c hc j hj hl
    obtain ⟨r1, r2, r3, r4⟩ := hrow c hc j hj
    obtain ⟨sv, e1, e2⟩ := st.solved
    rw [hgs] at e1
    cases e1
    have := (e2 (by omega)).limits r1 (by
      simp only [r2, r3]
      exact mul_le_mul_of_nonneg_right hl hh.le)
    simp only [r2, r3] at this
    exact ⟨(le_div_iff₀ hh).mpr this.1, (div_le_iff₀ hh).mpr this.2⟩
  · intro hlow m e hgs hh
    obtain ⟨sv, e1, e2⟩ := st.solved
    rw [hgs] at e1
    cases e1
    have hmul : ∀ f, h * (lam f / h) = lam f := fun f => mul_div_cancel₀ _ hh.ne'
    rcases Nat.eq_zero_or_pos w.fullCount with h0 | h0
    · refine ⟨fun _ _ => 0, fun c hc j hj => absurd (hrow c hc j hj).1 (by omega),
        fun c hc j hj => absurd (hrow c hc j hj).1 (by omega)⟩
    · obtain ⟨he, hd, x0, hx⟩ := e2 h0
      rcases hx with ⟨_, k, hk, hT, _, hy⟩ | ⟨hx, _⟩
      · rw [Function.iterate_succ_apply'] at hT hy
        generalize (sweepTo (rowSolveL _ _ _ _ _) _)^[k] x0 = prev at hT hy
        refine ⟨fun c j => prev (w.off (w.conAt c) + j), fun c hc j hj => ?_,
          fun c hc j hj hpos hl r err hr herr => ?_⟩
        · have r1 := (hrow c hc j hj).1
          have := hT _ r1
          rw [← hy _ r1] at this
          rw [hmul]
          exact this
        · obtain ⟨r1, r2, r3, r4⟩ := hrow c hc j hj
          have hM := sysM_coupling p hfit hlow out hc hj hc hj
          have key := settled_row prev r1 (hM.symm ▸ hpos)
            (by simp only [r2, r3]; exact mul_le_mul_of_nonneg_right hl hh.le)
            (y := lam) (r := r) (err := err) (fun j hj => hy j hj) ?_ ?_
          · simp only [r2, r3] at key
            simp only [div_eq_iff hh.ne']
            exact key
          · have hk := st.rows_key hlow (w.off (w.conAt c) + j)
            rw [rowV_eq hfit hlow r1, World.rowN, r2, r3, r4] at hk
            rw [hr, World.optRhs, r2, r3]
            show (∑ k ∈ range (w.cons c).bodyCount, Coord.sum (fun q =>
              (out (w.conAt c)).J j (k * 3 + q.d) * s'.val q.v (w.at (w.bodyOf c k)))) + _ + _ = _
            rw [hk, mulV]
            ring
          · have e0 : ∀ g : Nat → ℝ, ∑ f ∈ (range w.fullCount).erase (w.off (w.conAt c) + j), g f =
                ∑ f ∈ range w.fullCount, if f = w.off (w.conAt c) + j then 0 else g f := fun g => by
              rw [← add_sum_erase _ _ (mem_range.mpr r1), if_pos rfl, zero_add]
              exact sum_congr rfl fun f hf => by rw [if_neg (ne_of_mem_erase hf)]
            rw [herr, e0, sum_full p hfit]
            refine sum_congr rfl fun c' hc' => sum_congr rfl fun j' hj' => ?_
            obtain ⟨_, _, r3', r4'⟩ := hrow c' (List.mem_toFinset.mp hc') j' (mem_range.mp hj')
            have hiff : (c' = c ∧ j' = j) ↔ w.off (w.conAt c') + j' = w.off (w.conAt c) + j := by
              constructor
              · rintro ⟨rfl, rfl⟩; rfl
              · intro he
                rw [he] at r3' r4'
                exact ⟨r4'.symm.trans r4, r3'.symm.trans r3⟩
            simp only [hiff]
            split
            · rfl
            rw [sysM_coupling p hfit hlow out hc hj (List.mem_toFinset.mp hc') (mem_range.mp hj'),
              hmul]
      · cases hx

end

/-! ### A call -/

/-- Position and velocity of the registered bodies in the motion are those of the body objects. -/
def World.Shows (w : World ℝ) (x : Motion) (bodies : Nat → Body ℝ) : Prop :=
  ∀ b ∈ w.rb, ∀ q : Coord, x.pos b q = (bodies b).pos q ∧ x.vel b q = (bodies b).vel q

theorem World.Trace.mass {B : Nat → Nat → Nat} {h : ℝ} {k : Nat} {S : Nat → SysState ℝ}
    (t : w.Trace B h k S) {i : Nat} : ∀ j, j ≤ k → (S j).val .m i = (S 0).val .m i
  | 0, _ => rfl
  | j + 1, hj => by
    obtain ⟨s1, out, lam, st⟩ := t j hj
    rw [st.mass, t.mass j (by omega)]

/-- A call of `process` of the optimized system as a sequence of sub-steps. -/
structure World.Processed (w : World ℝ) (dt : ℝ) (steps : Int) (w' : World ℝ) (X : Nat → Motion)
    (ext : Nat → Nat → Coord → ℝ) (out : Nat → Nat → Output ℝ) (mult : Nat → Nat → Nat → ℝ)
    (F : Nat → Nat → Coord → Nat → Nat → ℝ) : Prop where
  first : w.Shows (X 0) w.bodies
  still : ∀ b ∈ w.rb, ∀ q : Coord, (X 0).acc b q = 0
  last : w.Shows (X steps.toNat) w'.bodies
  step : ∀ j, j < steps.toNat →
    w.SubStep (dt / steps) (X j) (X (j + 1)) (ext j) (out j) (mult j) (F j)
  forces : ∀ n, steps.toNat = n + 1 → ∀ c ∈ w.cs, ∀ (q : Coord) j k, j < (w.cons c).rows →
    k < (w.cons c).bodyCount → (w'.cons c).F q j k = F n c q j k
  mass : ∀ b ∈ w.rb, ∀ q : Coord, (w.bodies b).mass q ≠ 0

theorem World.OptRun.processed (p : w.Placed) (hfit : w.Fit (fun c k => w.at (w.bodyOf c k)))
    {dt : ℝ} {steps : Int} {w' : World ℝ} {S : Nat → SysState ℝ}
    (r : w.OptRun (fun c k => w.at (w.bodyOf c k)) dt steps w' S) :
    ∃ ext out mult F, w.Processed dt steps w' (fun j => w.seen (S j)) ext out mult F := by
  have hx : ∀ j, ∃ s1 out lam, j < steps.toNat →
      w.Step (fun c k => w.at (w.bodyOf c k)) (dt / steps) (S j) s1 (S (j + 1)) out lam := by
    intro j
    by_cases hj : j < steps.toNat
    · obtain ⟨s1, out, lam, h⟩ := r.trace j hj
      exact ⟨s1, out, lam, fun _ => h⟩
    · exact ⟨S 0, fun _ => ⟨fun _ => 0, fun _ _ => 0, fun _ _ => 0, fun _ => 0, fun _ _ => 0,
        fun _ => 0, fun _ => 0⟩, fun _ => 0, fun h => absurd h hj⟩
  choose s1 out lam hst using hx
  refine ⟨fun j b q => (s1 j).val q.f (w.at b), fun j c => out j (w.conAt c),
    fun j c i => lam j (w.off (w.conAt c) + i) / (dt / steps), fun j => w.forceAt (S (j + 1)).rval,
    ?_, ?_, ?_, ?_, ?_, ?_⟩
  · intro b hb q
    have h1 := r.start.pos q _ (p.lt b hb)
    have h2 := r.start.vel q _ (p.lt b hb)
    rw [p.rbAt b hb] at h1 h2
    exact ⟨h1, h2⟩
  · intro b hb q
    have h1 := r.start.acc q _ (p.lt b hb)
    rw [fp_lit] at h1
    exact h1.trans (by simp)
  · intro b hb q
    have h1 := r.stored.body _ (p.lt b hb) q
    rw [p.rbAt b hb] at h1
    exact ⟨h1.1.symm, h1.2.symm⟩
  · intro j hj
    have hw := r.trace.wf r.start.wf j (by omega)
    refine (hst j hj).obj p hfit hw.1 (by rw [hw.2.1]; exact r.start.n) fun b hb => ?_
    rw [r.trace.mass j (by omega), r.start.mass _ (p.lt b hb), p.rbAt b hb]
  · intro n hn c hc q j k hj hk
    obtain ⟨hi, hci⟩ := conAt_spec hc
    have := r.stored.con _ hi q j k (by rw [hci]; exact hj) (by rw [hci]; exact hk)
    rw [hci, hn] at this
    exact this
  · intro b hb q
    have := r.mass _ (p.lt b hb) q
    rw [World.massAt, p.rbAt b hb] at this
    exact this

/-- Every successful call of `process` is a sequence of sub-steps. -/
theorem World.Hist.processed {G : Gen ℝ → Prop} {h : List (Op ℝ)} (hG : ∀ g, G g → g.OnlyForces)
    (hw : World.Hist G .opt h w) (hwd : w.Wired h) {env : Env ℝ} {dt : ℝ} {steps : Int}
    {w' : World ℝ} (e : w.process .opt env dt steps = .ok w') :
    ∃ X ext out mult F, w.Processed dt steps w' X ext out mult F := by
  obtain ⟨hr, p⟩ := hw.ready hG hwd
  have := optProcess_spec hr (env := env) (dt := dt) (steps := steps) (P := fun _ _ => True)
    (E := anyErr) (Or.inl fun _ => trivial)
  rw [show w.optProcess env dt steps = .ok w' from e] at this
  obtain ⟨S, hS⟩ := this
  obtain ⟨ext, out, mult, F, h⟩ := hS.processed p hr.fit
  exact ⟨_, ext, out, mult, F, h⟩

/-- The matrix of the multipliers after a successful call. -/
theorem World.Hist.kept {G : Gen ℝ → Prop} {h : List (Op ℝ)} (hG : ∀ g, G g → g.OnlyForces)
    (hw : World.Hist G .opt h w) (hwd : w.Wired h) {env : Env ℝ} {dt : ℝ} {steps : Int}
    {w' : World ℝ} (e : w.process .opt env dt steps = .ok w') (hs : 0 < steps) {sv : Solver ℝ}
    (hsv : w.sle = some sv) :
    sv.Kept w.fullCount (w.mem.mat .ivLambda) (w'.mem.mat .ivLambda) := by
  obtain ⟨hr, p⟩ := hw.ready hG hwd
  have := optProcess_spec hr (env := env) (dt := dt) (steps := steps) (P := fun _ _ => True)
    (E := anyErr) (Or.inl fun _ => trivial)
  rw [show w.optProcess env dt steps = .ok w' from e] at this
  obtain ⟨S, hS⟩ := this
  exact hS.lam (by omega) sv hsv

/-- A condition for success of the call. -/
theorem World.Hist.runs {G : Gen ℝ → Prop} {h : List (Op ℝ)} (hG : ∀ g, G g → g.OnlyForces)
    (hw : World.Hist G .opt h w) (hwd : w.Wired h) {dt : ℝ} {steps : Int}
    {P : Nat → SysState ℝ → Prop}
    (hc : w.CanRun (fun c k => w.at (w.bodyOf c k)) (dt / steps) steps.toNat P)
    (env : Env ℝ) : ∃ w', w.process .opt env dt steps = .ok w' := by
  obtain ⟨hr, p⟩ := hw.ready hG hwd
  have := optProcess_spec hr (env := env) (E := noErr) (Or.inr hc)
  obtain ⟨w', e, _⟩ := wp_noErr_iff.mp this
  exact ⟨w', e⟩

end

end Scs
