import Verif.PropsOdeWorld

/-!
# New and reset bodies

C94: what a new `RigidBody` and `RigidBody::reset` provide, and that such a body needs a mass.
-/

namespace Scs

/-! ## C94 -/

/-- The body is at rest at the origin of the world, not turned, and has no mass. -/
structure Body.Blank (b : Body ℝ) : Prop where
  local_ : ∀ x y, b.localToWorld x y = (x, y)
  world : ∀ x y, b.worldToLocal x y = (x, y)
  still : ∀ q : Coord, b.vel q = 0
  angle : b.pos .th = 0
  massless : ∀ q : Coord, b.mass q = 0
  energy : b.energy = 0

theorem Body.blank_reset (b : Body ℝ) : b.reset.Blank where
  local_ := fun x y => by simp [Body.localToWorld, Body.reset, Fp.cos, Fp.sin]
  world := fun x y => by simp [Body.worldToLocal, Body.reset, Fp.cos, Fp.sin]
  still := fun q => by cases q <;> rfl
  angle := rfl
  massless := fun q => by cases q <;> rfl
  energy := by simp [Body.energy, Body.reset]

/-- **C94.** A new body is at rest at the origin, not turned, without mass and energy, and has the
index of a body that is in no system, whatever was in its memory before. -/
theorem C94_new_body (raw : Body ℝ) :
    (Body.construct raw).Blank ∧ (Body.construct raw).index = -1 ∧
      ∀ raw' : Body ℝ, Body.construct raw' = Body.construct raw :=
  ⟨Body.blank_reset _, rfl, fun _ => rfl⟩

/-- The claim for memory with arbitrary contents. -/
example : (Body.construct (⟨3, 4, 5, 6, 7, 8, 9, 10, 11⟩ : Body ℝ)).localToWorld 1 2 = (1, 2) :=
  (C94_new_body _).1.local_ 1 2

/-- **C94.** `reset` brings a body into the same state and keeps its index, so a body that is in a
system stays in it. -/
theorem C94_reset_body (b : Body ℝ) : b.reset.Blank ∧ b.reset.index = b.index :=
  ⟨Body.blank_reset _, rfl⟩

/-- The claim for a body that is in a system. -/
example : (⟨3, 4, 5, 6, 7, 8, 9, 10, 11⟩ : Body ℝ).reset.index = 11 ∧
    (⟨3, 4, 5, 6, 7, 8, 9, 10, 11⟩ : Body ℝ).reset.energy = 0 :=
  ⟨(C94_reset_body _).2, (C94_reset_body _).1.energy⟩

section
variable {G : Gen ℝ → Prop} {h : List (Op ℝ)} {w w' : World ℝ} {env : Env ℝ} {dt : ℝ}
  {steps : Int} {o : Ode ℝ}

/-- **C94.** A registered body that is new or was reset must be given a mass and a moment of inertia:
`process` of the optimized system divides by zero otherwise. -/
theorem C94_needs_mass (hG : ∀ g, G g → g.OnlyForces) (hw : World.Hist G .opt h w)
    (hst : w.Standard h) (e : w.process .opt env dt steps = .ok w') {b : Nat}
    (hb : b ∈ regBodies h) : ¬ (w.bodies b).Blank ∧ (w.bodies b).m ≠ 0 ∧ (w.bodies b).I ≠ 0 := by
  obtain ⟨X, mult, _, hX⟩ := hw.moved hG hst e
  have hm := hX.mass b ((hw.regs.bodies.mem b).mpr hb)
  exact ⟨fun hB => hm .x (hB.massless .x), hm .x, hm .th⟩

/-- The hypotheses are met by two bodies with a clutch. -/
example (env : Env ℝ) : ∃ (h : List (Op ℝ)) (w w' : World ℝ), World.Hist Gen.Shipped .opt h w ∧
    w.Standard h ∧ w.process .opt env 2 4 = .ok w' ∧ 0 ∈ regBodies h ∧
    (w.bodies 0).m ≠ 0 := by
  obtain ⟨h, w, w', d, hst, e⟩ := demo_turns (turns_clutch ⟨-1, 1, 0, 0⟩) (g := .gravity 9)
    trivial trivial (sv := .ge) trivial (two_ne_zero) 4 env
  exact ⟨h, w, w', d.hist, hst, e, d.bodies_mem.1,
    (C94_needs_mass (fun g => Gen.tame) d.hist hst e d.bodies_mem.1).2.1⟩

/-- **C94**, for the generic system. -/
theorem C94_needs_mass_generic (hG : ∀ g, G g → g.OnlyForces) (hw : World.Hist G .gen h w)
    (hst : w.Standard h) (hode : w.ode = some o) (ho : o.sort ≠ 0) (hsync : o.sort = 3 → InSync h)
    (e : w.process .gen env dt steps = .ok w') {b : Nat} (hb : b ∈ regBodies h) :
    ¬ (w.bodies b).Blank ∧ (w.bodies b).m ≠ 0 ∧ (w.bodies b).I ≠ 0 := by
  obtain ⟨X, hX⟩ := hw.ode_moved hG hst hode ho hsync e
  have hm := hX.mass b ((hw.regs.bodies.mem b).mpr hb)
  exact ⟨fun hB => hm .x (hB.massless .x), hm .x, hm .th⟩

/-- The hypotheses are met by two bodies with a clutch. -/
example (env : Env ℝ) : ∃ (h : List (Op ℝ)) (w w' : World ℝ), World.Hist Gen.Shipped .gen h w ∧
    w.Standard h ∧ w.ode = some (.rk4 newRk4) ∧ InSync h ∧ w.process .gen env 2 4 = .ok w' ∧
    0 ∈ regBodies h ∧ (w.bodies 0).I ≠ 0 := by
  obtain ⟨h, w, w', d, hs, hst, e⟩ := demo_genOde (.inl (turns_clutch ⟨-1, 1, 0, 0⟩))
    (g := .gravity 9) trivial trivial (sv := .ge) trivial (by simp) (o := .rk4 newRk4)
    (.inr (.inr rfl)) 2 4 env
  exact ⟨h, w, w', d.hist, hst, d.ode, hs, e, d.bodies_mem.1,
    (C94_needs_mass_generic (fun g => Gen.tame) d.hist hst d.ode (by decide) (fun _ => hs) e
      d.bodies_mem.1).2.2⟩

end

end Scs
