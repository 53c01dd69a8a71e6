import Verif.WorldRun

/-!
# Sub-steps of systems of shipped constraints and force generators

The sub-steps of `process` of the optimized system, with explicit formulas for the constraints and
the external forces.
-/

namespace Scs

open Finset

section
variable {w : World ℝ}

/-- What the registered constraints evaluate to in the motion `x`. -/
noncomputable def World.rowsOf (w : World ℝ) (x : Motion) (c : Nat) : Output ℝ where
  C := (w.cons c).kind.cT (x.q w c)
  J := (w.cons c).kind.jT (x.q w c)
  J_dot := (w.cons c).kind.jdT (x.q w c) (x.u w c)
  v_bias := fun _ => (w.cons c).kind.biasT
  limits := fun _ k => if k = 0 then (w.cons c).kind.loT else (w.cons c).kind.hiT
  ks := (w.cons c).kind.ksT
  kd := (w.cons c).kind.kdT

/-- The force of row `j` of constraint `c` on its body `k`, when the force along the row is
`mult c j`. -/
noncomputable def World.reaction (w : World ℝ) (x : Motion) (mult : Nat → Nat → ℝ) (c : Nat)
    (q : Coord) (j k : Nat) : ℝ := mult c j * (w.rowsOf x c).J j (k * 3 + q.d)

/-- One sub-step of length `h` from the motion `x` to the motion `x'`; `mult` is the force along
each row of the constraints. -/
structure World.Move (w : World ℝ) (h : ℝ) (x x' : Motion) (mult : Nat → Nat → ℝ) : Prop where
  ne : h ≠ 0
  acc : ∀ b ∈ w.rb, ∀ q : Coord, x'.acc b q =
    (w.load x b q + w.conForce (w.reaction x mult) b q) / (w.bodies b).mass q
  vel : ∀ b ∈ w.rb, ∀ q : Coord, x'.vel b q = x.vel b q + h * x'.acc b q
  pos : ∀ b ∈ w.rb, ∀ q : Coord, x'.pos b q = x.pos b q + h * x'.vel b q
  indep : w.sle = some .ge → w.Indep (w.rowsOf x)
  ge : w.sle = some .ge → ∀ c ∈ w.cs, ∀ j, j < (w.cons c).rows →
    w.rowAt (w.rowsOf x c) c j x'.vel + (w.rowsOf x c).v_bias j +
      w.bias / h * (w.rowsOf x c).C j = 0
  cg : ∀ m e1 e2, w.sle = some (.cg m e1 e2) → ∀ c ∈ w.cs, ∀ j, j < (w.cons c).rows →
    |w.rowAt (w.rowsOf x c) c j x'.vel + (w.rowsOf x c).v_bias j +
      w.bias / h * (w.rowsOf x c).C j| ≤
      max |e1 * (w.rowAt (w.rowsOf x c) c j
          (fun b q => x.vel b q + h * w.load x b q / (w.bodies b).mass q) +
        (w.rowsOf x c).v_bias j + w.bias / h * (w.rowsOf x c).C j)| e2
  gs : ∀ m e, w.sle = some (.gs m e) → 0 < h → ∀ c ∈ w.cs, ∀ j, j < (w.cons c).rows →
    (w.cons c).kind.loT ≤ (w.cons c).kind.hiT →
    (w.cons c).kind.loT ≤ mult c j ∧ mult c j ≤ (w.cons c).kind.hiT

/-- Two families of results agree on the rows and columns of the registered constraints. -/
structure World.SameRows (w : World ℝ) (o o' : Nat → Output ℝ) : Prop where
  C : ∀ c ∈ w.cs, ∀ j, j < (w.cons c).rows → (o c).C j = (o' c).C j
  J : ∀ c ∈ w.cs, ∀ j, j < (w.cons c).rows → ∀ k, k < (w.cons c).bodyCount → ∀ q : Coord,
    (o c).J j (k * 3 + q.d) = (o' c).J j (k * 3 + q.d)
  bias : ∀ c ∈ w.cs, ∀ j, j < (w.cons c).rows → (o c).v_bias j = (o' c).v_bias j
  lo : ∀ c ∈ w.cs, ∀ j, j < (w.cons c).rows → (o c).limits j 0 = (o' c).limits j 0
  hi : ∀ c ∈ w.cs, ∀ j, j < (w.cons c).rows → (o c).limits j 1 = (o' c).limits j 1

theorem same_of_has {x : Motion} {o : Nat → Output ℝ} (h : ∀ c ∈ w.cs,
    (o c).Has (w.cons c).kind (w.cons c).rows (w.cons c).bodyCount (x.q w c) (x.u w c)) :
    w.SameRows o (w.rowsOf x) where
  C := fun c hc j hj => (h c hc).C j hj
  J := fun c hc j hj k hk q => (h c hc).J j _ hj (by cases q <;> simp only [Coord.d] <;> omega)
  bias := fun c hc j hj => (h c hc).bias j hj
  lo := fun c hc j hj => (h c hc).lo j hj
  hi := fun c hc j hj => (h c hc).hi j hj

namespace World.SameRows
variable {o o' : Nat → Output ℝ} (s : w.SameRows o o')
include s

theorem rowAt {c : Nat} (hc : c ∈ w.cs) {j : Nat} (hj : j < (w.cons c).rows)
    (v : Nat → Coord → ℝ) : w.rowAt (o c) c j v = w.rowAt (o' c) c j v := by
  refine sum_congr rfl fun k hk => Coord.sum_congr fun q => ?_
  rw [s.J c hc j hj k (mem_range.mp hk) q]

theorem coef {c : Nat} (hc : c ∈ w.cs) {j : Nat} (hj : j < (w.cons c).rows) (b : Nat) (q : Coord) :
    w.coef o c j b q = w.coef o' c j b q := by
  refine sum_congr rfl fun k hk => ?_
  rw [s.J c hc j hj k (mem_range.mp hk) q]

theorem response (z : Nat → Nat → ℝ) (b : Nat) (q : Coord) :
    w.response o z b q = w.response o' z b q := by
  rw [World.response, World.response]
  congr 1
  refine sum_congr rfl fun c hc => sum_congr rfl fun j hj => ?_
  rw [s.coef (List.mem_toFinset.mp hc) (mem_range.mp hj)]

theorem indep (h : w.Indep o) : w.Indep o' := by
  intro z hz
  refine h z fun c hc i hi => ?_
  rw [← hz c hc i hi]
  refine sum_congr rfl fun b _ => Coord.sum_congr fun q => ?_
  rw [s.coef hc hi, s.response]

end World.SameRows

theorem World.SameRows.symm {o o' : Nat → Output ℝ} (s : w.SameRows o o') : w.SameRows o' o :=
  ⟨fun c hc j hj => (s.C c hc j hj).symm, fun c hc j hj k hk q => (s.J c hc j hj k hk q).symm,
    fun c hc j hj => (s.bias c hc j hj).symm, fun c hc j hj => (s.lo c hc j hj).symm,
    fun c hc j hj => (s.hi c hc j hj).symm⟩

theorem conForce_congr {F F' : Nat → Coord → Nat → Nat → ℝ} (h : ∀ c ∈ w.cs, ∀ (q : Coord) j k,
    j < (w.cons c).rows → k < (w.cons c).bodyCount → F c q j k = F' c q j k) (b : Nat) (q : Coord) :
    w.conForce F b q = w.conForce F' b q := by
  refine sum_congr rfl fun c hc => sum_congr rfl fun j hj => sum_congr rfl fun k hk => ?_
  rw [h c (List.mem_toFinset.mp hc) q j k (mem_range.mp hj) (mem_range.mp hk)]

theorem World.SubStep.move (p : w.Placed) (hlow : w.Slim) (hp : w.Proper) (hg : w.Driven) {h : ℝ} {x x' : Motion}
    {ext : Nat → Coord → ℝ} {out : Nat → Output ℝ} {mult : Nat → Nat → ℝ}
    {F : Nat → Coord → Nat → Nat → ℝ} (st : w.SubStep h x x' ext out mult F) :
    w.Move h x x' mult ∧ ∀ c ∈ w.cs, ∀ (q : Coord) j k, j < (w.cons c).rows →
      k < (w.cons c).bodyCount → F c q j k = w.reaction x mult c q j k := by
  have s : w.SameRows out (w.rowsOf x) := same_of_has fun c hc => st.has p hp hc
  have hF : ∀ c ∈ w.cs, ∀ (q : Coord) j k, j < (w.cons c).rows →
      k < (w.cons c).bodyCount → F c q j k = w.reaction x mult c q j k := by
    intro c hc q j k hj hk
    have hb : w.at (w.bodyOf c k) < 255 := hlow c hc k hk
    rw [st.react c hc q j k hj hk (by omega), World.reaction, s.J c hc j hj k hk]
  refine ⟨⟨st.ne, ?_, st.vel, st.pos, fun h => s.indep (st.indep hlow h), ?_, ?_, ?_⟩, hF⟩
  · intro b hb q
    rw [st.acc b hb q, st.load p hg hb, conForce_congr hF]
  · intro hge c hc j hj
    rw [← s.rowAt hc hj, ← s.bias c hc j hj, ← s.C c hc j hj]
    exact st.ge hlow hge c hc j hj
  · intro m e1 e2 hcg c hc j hj
    rw [← s.rowAt hc hj, ← s.rowAt hc hj, ← s.bias c hc j hj, ← s.C c hc j hj]
    refine (st.cg hlow m e1 e2 hcg c hc j hj).trans (le_of_eq ?_)
    congr 4
    refine congrArg₂ _ ?_ rfl
    refine sum_congr rfl fun k hk => Coord.sum_congr fun q => ?_
    simp only [st.load p hg (p.bodies c hc k (mem_range.mp hk)).2]
  · intro m e hgs hh c hc j hj hl
    have := st.gs m e hgs hh c hc j hj
    rw [s.lo c hc j hj, s.hi c hc j hj] at this
    exact this hl

/-- A call of `process` of the optimized system as a sequence of sub-steps. -/
structure World.Moved (w : World ℝ) (dt : ℝ) (steps : Int) (w' : World ℝ) (X : Nat → Motion)
    (mult : Nat → Nat → Nat → ℝ) : Prop where
  first : w.Shows (X 0) w.bodies
  still : ∀ b ∈ w.rb, ∀ q : Coord, (X 0).acc b q = 0
  last : w.Shows (X steps.toNat) w'.bodies
  step : ∀ j, j < steps.toNat → w.Move (dt / steps) (X j) (X (j + 1)) (mult j)
  forces : ∀ n, steps.toNat = n + 1 → ∀ c ∈ w.cs, ∀ (q : Coord) j k, j < (w.cons c).rows →
    k < (w.cons c).bodyCount → (w'.cons c).F q j k = w.reaction (X n) (mult n) c q j k
  mass : ∀ b ∈ w.rb, ∀ q : Coord, (w.bodies b).mass q ≠ 0

theorem World.Processed.moved (p : w.Placed) (hlow : w.Slim) (hp : w.Proper) (hg : w.Driven) {dt : ℝ} {steps : Int}
    {w' : World ℝ} {X : Nat → Motion} {ext : Nat → Nat → Coord → ℝ} {out : Nat → Nat → Output ℝ}
    {mult : Nat → Nat → Nat → ℝ} {F : Nat → Nat → Coord → Nat → Nat → ℝ}
    (h : w.Processed dt steps w' X ext out mult F) : w.Moved dt steps w' X mult where
  first := h.first
  still := h.still
  last := h.last
  step := fun j hj => ((h.step j hj).move p hlow hp hg).1
  forces := fun n hn c hc q j k hj hk => by
    rw [h.forces n hn c hc q j k hj hk]
    exact ((h.step n (by omega)).move p hlow hp hg).2 c hc q j k hj hk
  mass := h.mass

/-! ### Only registered bodies matter -/

/-- Two motions agree on the registered bodies. -/
structure World.SameAs (w : World ℝ) (x y : Motion) : Prop where
  pos : ∀ b ∈ w.rb, ∀ q : Coord, x.pos b q = y.pos b q
  vel : ∀ b ∈ w.rb, ∀ q : Coord, x.vel b q = y.vel b q
  acc : ∀ b ∈ w.rb, ∀ q : Coord, x.acc b q = y.acc b q

theorem World.SameAs.symm {x y : Motion} (s : w.SameAs x y) : w.SameAs y x :=
  ⟨fun b hb q => (s.pos b hb q).symm, fun b hb q => (s.vel b hb q).symm,
    fun b hb q => (s.acc b hb q).symm⟩

theorem rowsOf_congr (p : w.Placed) {x y : Motion} (s : w.SameAs x y) {c : Nat} (hc : c ∈ w.cs) :
    w.rowsOf x c = w.rowsOf y c := by
  have hq : x.q w c = y.q w c := by
    funext t
    rw [Motion.q, Motion.q]
    by_cases h : t / 3 < (w.cons c).bodyCount
    · rw [if_pos h, if_pos h, s.pos _ (p.bodies c hc _ h).2]
    · rw [if_neg h, if_neg h]
  have hu : x.u w c = y.u w c := by
    funext t
    rw [Motion.u, Motion.u]
    by_cases h : t / 3 < (w.cons c).bodyCount
    · rw [if_pos h, if_pos h, s.vel _ (p.bodies c hc _ h).2]
    · rw [if_neg h, if_neg h]
  rw [World.rowsOf, World.rowsOf, hq, hu]

theorem Gen.load_congr {g : Gen ℝ} (hg : g.Within (· ∈ w.rb)) {x y : Motion} (s : w.SameAs x y)
    (m : ℝ) {b : Nat} (hb : b ∈ w.rb) (q : Coord) : g.load m x b q = g.load m y b q := by
  have hp : ∀ b ∈ w.rb, ∀ u v, x.point b u v = y.point b u v := fun b hb u v => by
    simp only [Motion.point, s.pos b hb]
  have hv : ∀ b ∈ w.rb, ∀ u v, x.pointVel b u v = y.pointVel b u v := fun b hb u v => by
    simp only [Motion.pointVel, s.pos b hb, s.vel b hb, hp b hb]
  have hw : ∀ z f, x.wrench b z f q = y.wrench b z f q := fun z f => by
    cases q <;> simp only [Motion.wrench, s.pos b hb]
  cases g with
  | gravity a => rfl
  | static t => simp only [Gen.load, hp b hb, hw]
  | motor t =>
    obtain ⟨⟨b0, h0, e0⟩, b1, h1, e1⟩ := hg
    simp only [Gen.load, e0, e1, Motor.drive, s.vel _ h0, s.vel _ h1, s.acc _ h0, s.acc _ h1]
  | spring t =>
    rcases hg with h | ⟨⟨b1, h1, e1⟩, h | ⟨b2, h2, e2⟩⟩
    · simp only [Gen.load, h]
    · simp only [Gen.load, e1, h]
    · simp only [Gen.load, e1, e2, Spring.pullOn, hp _ h1, hp _ h2, hv _ h1, hv _ h2, hw]
  | custom f => exact hg.elim

theorem load_congr (hg : w.Driven) {x y : Motion} (s : w.SameAs x y) {b : Nat} (hb : b ∈ w.rb)
    (q : Coord) : w.load x b q = w.load y b q :=
  sum_congr rfl fun g hgm => Gen.load_congr (hg.2 g (List.mem_toFinset.mp hgm)) s _ hb q

theorem reaction_congr (p : w.Placed) {x y : Motion} (s : w.SameAs x y) (mult : Nat → Nat → ℝ)
    {c : Nat} (hc : c ∈ w.cs) (q : Coord) (j k : Nat) :
    w.reaction x mult c q j k = w.reaction y mult c q j k := by
  rw [World.reaction, World.reaction, rowsOf_congr p s hc]

theorem sameRows_congr (p : w.Placed) {x y : Motion} (s : w.SameAs x y) :
    w.SameRows (w.rowsOf x) (w.rowsOf y) :=
  ⟨fun c hc _ _ => by rw [rowsOf_congr p s hc], fun c hc _ _ _ _ _ => by rw [rowsOf_congr p s hc],
    fun c hc _ _ => by rw [rowsOf_congr p s hc], fun c hc _ _ => by rw [rowsOf_congr p s hc],
    fun c hc _ _ => by rw [rowsOf_congr p s hc]⟩

theorem World.Move.congr (p : w.Placed) (hg : w.Driven) {h : ℝ} {x x' y y' : Motion}
    {mult : Nat → Nat → ℝ} (st : w.Move h x x' mult) (s : w.SameAs x y) (s' : w.SameAs x' y') :
    w.Move h y y' mult where
  ne := st.ne
  acc := fun b hb q => by
    rw [← s'.acc b hb q, st.acc b hb q, load_congr hg s hb, conForce_congr
      (fun c hc q j k _ _ => reaction_congr p s mult hc q j k)]
  vel := fun b hb q => by rw [← s'.vel b hb q, ← s'.acc b hb q, ← s.vel b hb q, st.vel b hb q]
  pos := fun b hb q => by rw [← s'.pos b hb q, ← s'.vel b hb q, ← s.pos b hb q, st.pos b hb q]
  indep := fun hge => (sameRows_congr p s).indep (st.indep hge)
  ge := fun hge c hc j hj => by
    rw [← st.ge hge c hc j hj, rowsOf_congr p s hc]
    congr 2
    refine sum_congr rfl fun k hk => Coord.sum_congr fun q => ?_
    rw [s'.vel _ (p.bodies c hc k (mem_range.mp hk)).2]
  cg := fun m e1 e2 hcg c hc j hj => by
    have := st.cg m e1 e2 hcg c hc j hj
    rw [rowsOf_congr p s hc] at this
    have r1 : w.rowAt (w.rowsOf y c) c j x'.vel = w.rowAt (w.rowsOf y c) c j y'.vel :=
      sum_congr rfl fun k hk => Coord.sum_congr fun q => by
        rw [s'.vel _ (p.bodies c hc k (mem_range.mp hk)).2]
    have r2 : w.rowAt (w.rowsOf y c) c j
          (fun b q => x.vel b q + h * w.load x b q / (w.bodies b).mass q) =
        w.rowAt (w.rowsOf y c) c j
          (fun b q => y.vel b q + h * w.load y b q / (w.bodies b).mass q) :=
      sum_congr rfl fun k hk => Coord.sum_congr fun q => by
        simp only [s.vel _ (p.bodies c hc k (mem_range.mp hk)).2,
          load_congr hg s (p.bodies c hc k (mem_range.mp hk)).2]
    rw [r1, r2] at this
    exact this
  gs := st.gs

/-- The motion a call of `process` starts from. -/
def World.now (w : World ℝ) : Motion where
  pos := fun b => (w.bodies b).pos
  vel := fun b => (w.bodies b).vel
  acc := fun _ _ => 0

/-- The first motion may be taken to be what the bodies show. -/
theorem World.Moved.start (p : w.Placed) (hg : w.Driven) {dt : ℝ} {steps : Int} {w' : World ℝ}
    {X : Nat → Motion} {mult : Nat → Nat → Nat → ℝ} (h : w.Moved dt steps w' X mult) :
    w.Moved dt steps w' (fun j => if j = 0 then w.now else X j) mult := by
  have s : ∀ j, w.SameAs (X j) (if j = 0 then w.now else X j) := by
    intro j
    by_cases hj : j = 0
    · subst hj
      rw [if_pos rfl]
      exact ⟨fun b hb q => (h.first b hb q).1, fun b hb q => (h.first b hb q).2,
        fun b hb q => h.still b hb q⟩
    · rw [if_neg hj]
      exact ⟨fun _ _ _ => rfl, fun _ _ _ => rfl, fun _ _ _ => rfl⟩
  refine ⟨fun b hb q => ⟨rfl, rfl⟩, fun b hb q => rfl, fun b hb q => ?_, fun j hj =>
    (h.step j hj).congr p hg (s j) (s (j + 1)), fun n hn c hc q j k hj hk => ?_, h.mass⟩
  · have := (s steps.toNat)
    rw [← this.pos b hb q, ← this.vel b hb q]
    exact h.last b hb q
  · rw [h.forces n hn c hc q j k hj hk]
    exact reaction_congr p (s n) _ hc q j k

/-! ### Success -/

/-- Forces along different rows do not influence each other. -/
def World.Decoupled (w : World ℝ) (o : Nat → Output ℝ) : Prop :=
  ∀ c ∈ w.cs, ∀ i, i < (w.cons c).rows → ∀ c' ∈ w.cs, ∀ i', i' < (w.cons c').rows →
    (c ≠ c' ∨ i ≠ i') → ∑ b ∈ w.rb.toFinset, Coord.sum (fun q =>
      w.coef o c i b q * (1 / (w.bodies b).mass q) * w.coef o c' i' b q) = 0

/-- The solver certainly finds the forces of the constraints in the motion `x`. -/
def World.Solvable (w : World ℝ) (x : Motion) : Prop :=
  match w.sle with
  | none => False
  | some .ge => w.Indep (w.rowsOf x)
  | some (.cg m _ _) => (∀ b ∈ w.rb, ∀ q : Coord, 0 < (w.bodies b).mass q) ∧ w.fullCount ≤ m ∧
    ∀ z : Nat → Nat → ℝ, (∀ b ∈ w.rb, ∀ q : Coord, ∑ c ∈ w.cs.toFinset,
        ∑ j ∈ range (w.cons c).rows, z c j * w.coef (w.rowsOf x) c j b q = 0) →
      ∀ c ∈ w.cs, ∀ i, i < (w.cons c).rows → z c i = 0
  | some (.gs m e) => 0 < e ∧ 2 ≤ m ∧ w.Indep (w.rowsOf x) ∧ w.Decoupled (w.rowsOf x)

theorem coordOf_d (q : Coord) : coordOf q.d = q := by cases q <;> rfl

theorem row_mod (q : Coord) (i : Nat) : coordOf (q.row i % 3) = q ∧ q.row i / 3 = i := by
  have : q.row i = i * 3 + q.d := rfl
  have hd : q.d < 3 := by cases q <;> simp [Coord.d]
  have h1 : q.row i % 3 = q.d := by omega
  rw [h1, coordOf_d]
  exact ⟨rfl, by omega⟩

theorem posDef_of (p : w.Placed) (hfit : w.Fit (fun c k => w.at (w.bodyOf c k))) (hlow : w.Slim)
    (hm : ∀ b ∈ w.rb, ∀ q : Coord, 0 < (w.bodies b).mass q) {out : Nat → Output ℝ}
    (hz : ∀ z : Nat → Nat → ℝ, (∀ b ∈ w.rb, ∀ q : Coord, ∑ c ∈ w.cs.toFinset,
        ∑ j ∈ range (w.cons c).rows, z c j * w.coef (fun c => out (w.conAt c)) c j b q = 0) →
      ∀ c ∈ w.cs, ∀ i, i < (w.cons c).rows → z c i = 0) :
    PosDef w.fullCount (w.sysM (fun c k => w.at (w.bodyOf c k)) out) := by
  have e : w.sysM (fun c k => w.at (w.bodyOf c k)) out = gram (w.bodyCount * 3)
      (fun f c => w.jb (fun c k => w.at (w.bodyOf c k)) out f (coordOf (c % 3)) (c / 3))
      (fun c => 1 / w.massAt (coordOf (c % 3)) (c / 3)) := by
    funext f g
    rw [World.sysM, gram, sum_cols]
    refine sum_congr rfl fun i _ => Coord.sum_congr fun q => ?_
    rw [(row_mod q i).1, (row_mod q i).2]
  have hrb : ∀ i, i < w.bodyCount → w.rbAt i ∈ w.rb := fun i hi => by
    rw [World.rbAt, List.getD_eq_getElem _ _ hi]
    exact List.getElem_mem hi
  rw [e]
  refine gram_posDef (fun c hc => ?_) (fun u hu f hf => ?_)
  · exact one_div_pos.mpr (hm _ (hrb _ (by omega)) _)
  · obtain ⟨c, hc, j, hj, rfl⟩ := row_get p hfit hf
    refine hz (fun c j => u (w.off (w.conAt c) + j)) (fun b hb q => ?_) c hc j hj
    have := hu (q.row (w.at b)) (by
      have h1 : q.row (w.at b) = w.at b * 3 + q.d := rfl
      have h2 := p.lt b hb
      have hd : q.d < 3 := by cases q <;> simp [Coord.d]
      omega)
    rw [(row_mod q _).1, (row_mod q _).2, sum_full p hfit] at this
    rw [← this]
    refine sum_congr rfl fun c' hc' => sum_congr rfl fun j' hj' => ?_
    rw [hlow.jb out (row_of p hfit (List.mem_toFinset.mp hc') (mem_range.mp hj')).1,
      jc_coef p hfit out (List.mem_toFinset.mp hc') (mem_range.mp hj') q hb]

theorem Easy_of (p : w.Placed) (hfit : w.Fit (fun c k => w.at (w.bodyOf c k))) (hlow : w.Slim)
    {x : Motion}
    (hs : w.Solvable x) {sv : Solver ℝ} (e : w.sle = some sv) {out : Nat → Output ℝ}
    (ho : w.SameRows (fun c => out (w.conAt c)) (w.rowsOf x)) (b lo hi : Nat → ℝ) :
    sv.Easy w.fullCount (w.sysM (fun c k => w.at (w.bodyOf c k)) out) b lo hi := by
  rw [World.Solvable, e] at hs
  cases sv with
  | ge => exact (regular_iff p hfit hlow out).mpr (ho.symm.indep hs)
  | cg m e1 e2 =>
    obtain ⟨h1, h2, h3⟩ := hs
    refine ⟨posDef_of p hfit hlow h1 fun z hz => h3 z fun b hb q => ?_, h2⟩
    rw [← hz b hb q]
    refine sum_congr rfl fun c' hc' => sum_congr rfl fun j' hj' => ?_
    rw [ho.coef (List.mem_toFinset.mp hc') (mem_range.mp hj')]
  | gs m e =>
    obtain ⟨h1, h2, h3, h4⟩ := hs
    have hr := (regular_iff p hfit hlow out).mpr (ho.symm.indep h3)
    have hd : ∀ f g, f < w.fullCount → g < w.fullCount → f ≠ g →
        w.sysM (fun c k => w.at (w.bodyOf c k)) out f g = 0 := by
      intro f g hf hg hne
      obtain ⟨c, hc, i, hi, rfl⟩ := row_get p hfit hf
      obtain ⟨c', hc', i', hi', rfl⟩ := row_get p hfit hg
      rw [← h4 c hc i hi c' hc' i' hi' (by
        by_contra hn
        push Not at hn
        exact hne (by rw [hn.1, hn.2])), World.sysM, sum_bodies p]
      refine sum_congr rfl fun b hb => Coord.sum_congr fun q => ?_
      have hb := List.mem_toFinset.mp hb
      rw [hlow.jb out hf, hlow.jb out hg, jc_coef p hfit out hc hi q hb, jc_coef p hfit out hc' hi' q hb, World.massAt, p.rbAt b hb,
        ho.coef hc hi, ho.coef hc' hi']
    refine Solver.Easy.diag h1 (fun i hi h0 => ?_) hd h2
    have := hr (fun j => if j = i then 1 else 0) (fun j hj => by
      refine sum_eq_zero fun k hk => ?_
      rw [mem_range] at hk
      by_cases hki : k = i
      · subst hki
        by_cases hjk : j = k
        · subst hjk; rw [h0, zero_mul]
        · rw [hd j k hj hk hjk, zero_mul]
      · rw [if_neg hki, mul_zero]) i hi
    rw [if_pos rfl] at this
    exact one_ne_zero this

/-- A call of `process` of the optimized system succeeds if the equations of the multipliers can be
solved in every state that can occur; `R j` is a property of the state before sub-step `j`. -/
theorem World.Hist.goes_any {G : Gen ℝ → Prop} {h : List (Op ℝ)} (hG : ∀ g, G g → g.OnlyForces)
    (hw : World.Hist G .opt h w) (hwd : w.Wired h) (hp : w.Proper) (hg : w.Driven) {dt : ℝ}
    {steps : Int}
    (hm : ∀ b ∈ w.rb, ∀ q : Coord, (w.bodies b).mass q ≠ 0) (hdt : dt ≠ 0) (hsle : w.sle ≠ none)
    (R : Nat → SysState ℝ → Prop) (h0 : ∀ s, w.Populated s → R 0 s)
    (hR : ∀ j, j < steps.toNat → ∀ s s1 s' out lam, s.Wf → w.bodyCount ≤ s.n →
      (∀ b ∈ w.rb, s.val .m (w.at b) = (w.bodies b).m) → R j s →
      w.Step (fun c k => w.at (w.bodyOf c k)) (dt / steps) s s1 s' out lam → R (j + 1) s')
    (hS : ∀ j, j < steps.toNat → ∀ s, R j s → w.cs ≠ [] → ∀ sv out, w.sle = some sv →
      w.SameRows (fun c => out (w.conAt c)) (w.rowsOf (w.seen s)) →
      ∀ b lo hi, sv.Easy w.fullCount (w.sysM (fun c k => w.at (w.bodyOf c k)) out) b lo hi)
    (hz : w.cs = [] → ∀ sv, w.sle = some sv → sv.Easy0 (w.mem.mat .ivLambda)) (env : Env ℝ) :
    ∃ w', w.process .opt env dt steps = .ok w' := by
  obtain ⟨hr, p⟩ := hw.ready hG hwd
  have hn0 : ∀ j, j < steps.toNat → dt / steps ≠ 0 := by
    intro j hj
    have : 0 < steps := by omega
    refine div_ne_zero hdt ?_
    exact_mod_cast this.ne'
  have hfull : w.fullCount = 0 ↔ w.cs = [] := by
    constructor
    · intro h0
      have := hr.fit.con
      rw [h0, Nat.le_zero, World.conCount] at this
      exact List.length_eq_zero_iff.mp this
    · intro h0
      rw [World.fullCount, h0]
      rfl
  have seenDt : ∀ (s : SysState ℝ) (d : ℝ), (∀ b ∈ w.rb, s.val .m (w.at b) = (w.bodies b).m) →
      w.Seen ({ s with dt := d } : SysState ℝ) (w.seen s) := fun s d hs =>
    ⟨fun b _ q => rfl, fun b _ q => rfl, fun b _ q => rfl, hs⟩
  refine World.Hist.runs hG hw hwd (dt := dt) (steps := steps)
    (P := fun j s => s.Wf ∧ w.bodyCount ≤ s.n ∧
      (∀ b ∈ w.rb, s.val .m (w.at b) = (w.bodies b).m) ∧ R j s) ⟨?_, ⟨?_, ?_⟩, ?_⟩ env
  · intro i hi c
    have : w.rbAt i ∈ w.rb := by
      rw [World.rbAt, List.getD_eq_getElem _ _ hi]
      exact List.getElem_mem hi
    exact hm _ this c
  · intro j hj
    refine ⟨hn0 j hj, ?_, ?_, ?_⟩
    · rintro s ⟨s1, s2, s3, s4⟩
      obtain ⟨s', e, _⟩ := forces_run p hg (wf_setDt s1 (dt / steps)) s2 (seenDt s _ s3)
      exact ⟨s', e⟩
    · rintro s s1 ⟨q1, q2, q3, q4⟩ e c hc o
      obtain ⟨s', e', f', g', _⟩ := forces_run p hg (wf_setDt q1 (dt / steps)) q2
          (seenDt s _ q3)
      rw [e] at e'
      cases e'
      obtain ⟨out, e, _⟩ := has_of p hp hc (f'.wf (wf_setDt q1 _)) (by rw [f'.n]; exact q2) g' o
      exact ⟨out, e⟩
    · cases hsv : w.sle with
      | none => exact absurd hsv hsle
      | some sv =>
        refine ⟨sv, rfl, fun hf => hz (hfull.mp hf) sv hsv, ?_⟩
        rintro s s1 out ⟨q1, q2, q3, q4⟩ e hc hpos
        obtain ⟨s', e', f', g', _⟩ := forces_run p hg (wf_setDt q1 (dt / steps)) q2
          (seenDt s _ q3)
        rw [e] at e'
        cases e'
        refine hS j hj _ q4 (fun h0 => ?_) sv out hsv (same_of_has fun c hc' => ?_) _ _ _
        · rw [← hfull] at h0
          omega
        · obtain ⟨hi, hci⟩ := conAt_spec hc'
          obtain ⟨o, eo⟩ := hc _ hi
          rw [hci] at eo
          obtain ⟨out', eo', h'⟩ := has_of p hp hc' (f'.wf (wf_setDt q1 _))
            (by rw [f'.n]; exact q2) g' o
          rw [eo] at eo'
          cases eo'
          exact h'
  · rintro j hj s s1 s' out lam ⟨q1, q2, q3, q4⟩ st
    exact ⟨st.wf, by rw [st.n]; exact q2, fun b hb => by rw [st.mass]; exact q3 b hb,
      hR j hj _ _ _ _ _ q1 q2 q3 q4 st⟩
  · intro s hs
    refine ⟨hs.wf, hs.n, fun b hb => ?_, h0 s hs⟩
    rw [hs.mass _ (p.lt b hb), p.rbAt b hb]

/-- A call of `process` of the optimized system succeeds if the constraints can be solved in every
motion that can occur; `R j` is a property of the motion before sub-step `j`. -/
theorem World.Hist.goes {G : Gen ℝ → Prop} {h : List (Op ℝ)} (hG : ∀ g, G g → g.OnlyForces)
    (hw : World.Hist G .opt h w) (hst : w.Standard h) {dt : ℝ} {steps : Int}
    (hm : ∀ b ∈ w.rb, ∀ q : Coord, (w.bodies b).mass q ≠ 0) (hdt : dt ≠ 0) (hsle : w.sle ≠ none)
    (R : Nat → Motion → Prop)
    (h0 : ∀ x, w.Shows x w.bodies → (∀ b ∈ w.rb, ∀ q : Coord, x.acc b q = 0) → R 0 x)
    (hR : ∀ j, j < steps.toNat → ∀ x x' mult, R j x → w.Move (dt / steps) x x' mult →
      R (j + 1) x')
    (hS : ∀ j, j < steps.toNat → ∀ x, R j x → w.cs ≠ [] → w.Solvable x)
    (hz : w.cs = [] → ∀ sv, w.sle = some sv → sv.Easy0 (w.mem.mat .ivLambda)) (env : Env ℝ) :
    ∃ w', w.process .opt env dt steps = .ok w' := by
  obtain ⟨hr, p⟩ := hw.ready hG hst.wired
  have hlow := hst.slim hw.regs
  have hp := hst.proper hw.regs
  have hg := hst.driven hw.regs
  refine hw.goes_any hG hst.wired hp hg hm hdt hsle (fun j s => R j (w.seen s)) ?_ ?_ ?_ hz env
  · intro s hs
    refine h0 _ (fun b hb q => ?_) (fun b hb q => ?_)
    · have h1 := hs.pos q _ (p.lt b hb)
      have h2 := hs.vel q _ (p.lt b hb)
      rw [p.rbAt b hb] at h1 h2
      exact ⟨h1, h2⟩
    · have h1 := hs.acc q _ (p.lt b hb)
      rw [fp_lit] at h1
      exact h1.trans (by simp)
  · intro j hj s s1 s' out lam q1 q2 q3 q4 st
    exact hR j hj _ _ _ q4 ((st.obj p hr.fit q1 q2 q3).move p hlow hp hg).1
  · intro j hj s q4 hne sv out hsv ho
    exact Easy_of p hr.fit hlow (hS j hj _ q4 hne) hsv ho

theorem World.Hist.driven {G : Gen ℝ → Prop} {h : List (Op ℝ)} {cls : Cls}
    (hw : World.Hist G cls h w) (hgn : ∀ g ∈ regGens h, (w.gens g).Within (· ∈ regBodies h)) :
    w.Driven :=
  ⟨hw.regs.gens.nodup, fun g hg => (hgn g ((hw.regs.gens.mem g).mp hg)).mono
    fun b hb => (hw.regs.bodies.mem b).mpr hb⟩

/-- Every successful call of `process` is a sequence of sub-steps that starts from what the bodies
show. -/
theorem World.Hist.moved {G : Gen ℝ → Prop} {h : List (Op ℝ)} (hG : ∀ g, G g → g.OnlyForces)
    (hw : World.Hist G .opt h w) (hst : w.Standard h) {env : Env ℝ} {dt : ℝ} {steps : Int}
    {w' : World ℝ} (e : w.process .opt env dt steps = .ok w') :
    ∃ X mult, X 0 = w.now ∧ w.Moved dt steps w' X mult := by
  obtain ⟨X, ext, out, mult, F, hP⟩ := hw.processed hG hst.wired e
  have p := (hw.ready hG hst.wired).2
  have hg := hst.driven hw.regs
  exact ⟨_, mult, if_pos rfl, (hP.moved p (hst.slim hw.regs) (hst.proper hw.regs) hg).start p hg⟩

end

end Scs
