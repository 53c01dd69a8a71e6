import Verif.Attach
import Verif.PropsOdeWorld

/-!
# Objects must be attached before they are processed

C101: which objects a successful `process` needs to be attached to bodies of the system. The
theorems hold for any arithmetic.
-/

namespace Scs

/-! ## Specification -/

/-- The body was constructed and never added since (newest action first). -/
def neverAdded {α : Type} : List (Op α) → Nat → Prop
  | [], _ => False
  | .newBody b _ :: h, x => x = b ∨ neverAdded h x
  | .addBody b :: h, x => x ≠ b ∧ neverAdded h x
  | _ :: h, x => neverAdded h x

section
variable {α : Type} [Zero α] [Add α] [Mul α] [Sub α] [Neg α] [Fp α]
variable {G : Gen α → Prop} {cls : Cls} {h : List (Op α)} {w w' : World α} {env : Env α} {dt : α}
  {steps : Int}

theorem World.Hist.never_added (hw : World.Hist G cls h w) {b : Nat} (hb : neverAdded h b) :
    (w.bodies b).index = -1 ∧ b ∉ regBodies h := by
  induction hw with
  | start bodies cons gens genIndex hg j j' k k' => exact absurd hb id
  | @step h w w' op hw hv e ih =>
    have r := hw.regs
    cases op with
    | addBody c =>
      cases e
      obtain ⟨i1, i2⟩ := ih hb.2
      refine ⟨?_, by simp [regBodies, hb.1, i2]⟩
      simp only [World.addBody, World.setBodyIndex, upd_other _ _ hb.1]
      exact i1
    | removeBody c =>
      obtain ⟨i1, i2⟩ := ih hb
      obtain ⟨l', x, he, -, hx, -⟩ := removeBody_ok r.bodies hv
      have e' : w.removeBody c = .ok w' := e
      rw [he] at e'
      cases e'
      have hne : b ≠ x := fun hbx => i2 (hbx ▸ hx)
      refine ⟨?_, fun hb' => i2 (Finset.mem_of_mem_erase hb')⟩
      simp only [World.setBodyIndex, upd_other _ _ hne]
      exact i1
    | addCon c => cases e; exact ih hb
    | removeCon c =>
      obtain ⟨l', x, he, -⟩ := removeCon_ok r.cons hv
      have e' : w.removeCon c = .ok w' := e
      rw [he] at e'
      cases e'
      exact ih hb
    | addGen c => cases e; exact ih hb
    | removeGen c =>
      obtain ⟨l', x, i, he, -⟩ := removeGen_ok r.gens hv
      have e' : w.removeGen c = .ok w' := e
      rw [he] at e'
      cases e'
      exact ih hb
    | reset => cases e; exact ⟨(ih hb).1, by simp [regBodies]⟩
    | newBody c x =>
      cases e
      by_cases hbc : b = c
      · subst hbc; exact ⟨by simp [upd_same], hv⟩
      · obtain ⟨i1, i2⟩ := ih (hb.resolve_left hbc)
        exact ⟨by simpa [upd_other _ _ hbc] using i1, i2⟩
    | newCon c x => cases e; exact ih hb
    | newGen c x => cases e; exact ih hb
    | setBody c x =>
      cases e
      obtain ⟨i1, i2⟩ := ih hb
      refine ⟨?_, i2⟩
      by_cases hbc : b = c
      · subst hbc; simpa [upd_same] using i1
      · simpa [upd_other _ _ hbc] using i1
    | setCon c x => cases e; exact ih hb
    | setGen c x => cases e; exact ih hb
    | init sle ode =>
      cases cls with
      | opt => cases e; exact ih hb
      | gen => rw [genInit_eq (show w.genInit sle ode = .ok w' from e)]; exact ih hb
    | setBias x => cases e; exact ih hb
    | process env dt steps =>
      obtain ⟨i1, i2⟩ := ih hb
      cases cls with
      | opt =>
        have := (optProcess_wp w env dt steps r.nsv).of_eq
          (show w.optProcess env dt steps = .ok w' from e)
        exact ⟨(this.1.moves.index b).trans i1, i2⟩
      | gen =>
        have := (genProcess_wp w env dt steps).of_eq (show w.genProcess env dt steps = .ok w' from e)
        exact ⟨(this.1.moves.index b).trans i1, i2⟩

/-! ## C101 -/

/-- **C101.** If `process` with at least one sub-step returns normally, each registered constraint
with at least one row is attached: all its bodies exist, have the index of a body in a
system, and none of them was constructed and never added. -/
theorem C101_constraints (hw : World.Hist G cls h w) (e : w.process cls env dt steps = .ok w')
    (hs : 0 < steps) {c : Nat} (hc : c ∈ regCons h) (hr : 0 < (w.cons c).rows) {k : Nat}
    (hk : k < (w.cons c).bodyCount) :
    ∃ b, (w.cons c).bodies k = .obj b ∧ 0 ≤ (w.bodies b).index ∧ ¬ neverAdded h b := by
  obtain ⟨b, hb, hi⟩ := (World.process_attached e hs).2 c ((hw.regs.cons.mem c).mpr hc) hr k hk
  exact ⟨b, hb, hi, fun hn => by have := (hw.never_added hn).1; omega⟩

/-- The theorem applies to a link that is processed. -/
example (env : Env ℝ) : ∃ (h : List (Op ℝ)) (w w' : World ℝ), World.Hist Gen.Shipped .opt h w ∧
    w.process .opt env 2 4 = .ok w' ∧ 0 ∈ regCons h ∧ (w.cons 0).rows = 2 ∧
    (w.cons 0).bodyCount = 2 ∧ ∃ b, (w.cons 0).bodies 1 = .obj b ∧ 0 ≤ (w.bodies b).index := by
  obtain ⟨h, w, w', d, hst, e⟩ := demo_pins (pins_link ⟨1, 0, 0, 0, 5, 0, 0⟩) (g := .gravity 9)
    trivial trivial (sv := .ge) trivial (by simp) (two_ne_zero) 4 env
  have h1 : (w.cons 0).rows = 2 := congrArg Con.rows (d.con 0)
  have h2 : (w.cons 0).bodyCount = 2 := congrArg Con.bodyCount (d.con 0)
  have hc : 0 ∈ regCons h := by rw [d.regC]; simp
  obtain ⟨b, hb, hi, -⟩ := C101_constraints d.hist e (by decide) hc (by omega) (k := 1) (by omega)
  exact ⟨h, w, w', d.hist, e, hc, h1, h2, b, hb, hi⟩

/-- It shows that a constraint on a body that was constructed but not added cannot be processed. -/
example (cls : Cls) (x : Body α) (y : Con α) (hy : y.bodies 0 = .obj 7) (hr : 0 < y.rows)
    (hb : 0 < y.bodyCount) : ∃ (h : List (Op α)) (w : World α),
    World.Hist (fun _ => True) cls h w ∧ neverAdded h 7 ∧ 0 ∈ regCons h ∧
    ∀ env dt steps, 0 < steps → ∃ x, w.process cls env dt steps = .error x := by
  have h0 := World.Hist.start (G := fun _ => True) (cls := cls) (fun _ => x) (fun _ => y)
    (fun _ => Gen.gravity (Fp.lit 0)) (fun _ => none) (fun _ => trivial) (fun _ _ => 0)
    (fun _ _ => (0 : α)) (fun _ _ => 0) (fun _ _ => 0)
  have h1 := World.Hist.step (.newBody 7 x) h0 (show 7 ∉ regBodies [] by simp [regBodies]) rfl
  have h2 := World.Hist.step (.newCon 0 y) h1 (show 0 ∉ regCons _ by simp [regCons]) rfl
  have h3 := World.Hist.step (.addCon 0) h2 (show 0 ∉ regCons _ by simp [regCons]) rfl
  refine ⟨_, _, h3, Or.inl rfl, by simp [regCons], fun env dt steps hs => ?_⟩
  cases e : World.process cls _ env dt steps with
  | error x => exact ⟨x, rfl⟩
  | ok w' =>
    obtain ⟨b, hb', -, hn⟩ := C101_constraints h3 e hs (c := 0) (by simp [regCons]) hr (k := 0) hb
    cases hy.symm.trans hb'
    exact absurd (Or.inl rfl) hn

/-- **C101.** A static force must name a body that was added to the system. -/
theorem C101_static (hw : World.Hist G cls h w) (e : w.process cls env dt steps = .ok w')
    (hs : 0 < steps) {g : Nat} (hg : g ∈ regGens h) {p : StaticForce α}
    (hp : w.gens g = .static p) : ∃ b, p.body = .obj b ∧ 0 ≤ (w.bodies b).index ∧
      ¬ neverAdded h b := by
  have := (World.process_attached e hs).1 g ((hw.regs.gens.mem g).mpr hg)
  rw [hp] at this
  obtain ⟨b, hb, hi⟩ := this
  exact ⟨b, hb, hi, fun hn => by have := (hw.never_added hn).1; omega⟩

/-- The hypotheses are met by two bodies with a clutch and a force on the second. -/
example (env : Env ℝ) : ∃ (h : List (Op ℝ)) (w w' : World ℝ), World.Hist Gen.Shipped .opt h w ∧
    w.process .opt env 2 4 = .ok w' ∧ 0 ∈ regGens h ∧ w.gens 0 = .static ⟨1, 2, 3, 4, .obj 1⟩ ∧
    0 ≤ (w.bodies 1).index := by
  obtain ⟨h, w, w', d, hst, e⟩ := demo_turns (turns_clutch ⟨-1, 1, 0, 0⟩)
    (g := .static ⟨1, 2, 3, 4, .obj 1⟩) trivial ⟨1, by simp, rfl⟩ (sv := .ge) trivial
    (two_ne_zero) 4 env
  have hg : 0 ∈ regGens h := by rw [d.regG]; simp
  obtain ⟨b, hb, hi, -⟩ := C101_static d.hist e (by decide) hg (d.gens 0)
  cases hb
  exact ⟨h, w, w', d.hist, e, hg, d.gens 0, hi⟩

/-- **C101.** A motor must name two bodies, of which the second, which it turns, was added to the
system. -/
theorem C101_motor (hw : World.Hist G cls h w) (e : w.process cls env dt steps = .ok w')
    (hs : 0 < steps) {g : Nat} (hg : g ∈ regGens h) {p : Motor α} (hp : w.gens g = .motor p) :
    ∃ b0 b1, p.body0 = .obj b0 ∧ p.body1 = .obj b1 ∧ -1 ≤ (w.bodies b0).index ∧
      0 ≤ (w.bodies b1).index ∧ ¬ neverAdded h b1 := by
  have := (World.process_attached e hs).1 g ((hw.regs.gens.mem g).mpr hg)
  rw [hp] at this
  obtain ⟨b0, b1, h0, h1, hj, hi⟩ := this
  exact ⟨b0, b1, h0, h1, hj, hi, fun hn => by have := (hw.never_added hn).1; omega⟩

/-- The hypotheses are met by two bodies with a clutch and a motor. -/
example (env : Env ℝ) : ∃ (h : List (Op ℝ)) (w w' : World ℝ), World.Hist Gen.Shipped .opt h w ∧
    w.process .opt env 2 4 = .ok w' ∧ 0 ∈ regGens h ∧
    w.gens 0 = .motor ⟨1, 0, 7, 3, .obj 0, .obj 1⟩ ∧ 0 ≤ (w.bodies 1).index := by
  obtain ⟨h, w, w', d, hst, e⟩ := demo_turns (turns_clutch ⟨-1, 1, 0, 0⟩)
    (g := .motor ⟨1, 0, 7, 3, .obj 0, .obj 1⟩) trivial ⟨⟨0, by simp, rfl⟩, ⟨1, by simp, rfl⟩⟩
    (sv := .ge) trivial (two_ne_zero) 4 env
  have hg : 0 ∈ regGens h := by rw [d.regG]; simp
  obtain ⟨b0, b1, h0, h1, -, hi, -⟩ := C101_motor d.hist e (by decide) hg (d.gens 0)
  cases h1
  exact ⟨h, w, w', d.hist, e, hg, d.gens 0, hi⟩

/-- **C101.** A spring needs no bodies, but if it has two, both must have been added to the
system. -/
theorem C101_spring (hw : World.Hist G cls h w) (e : w.process cls env dt steps = .ok w')
    (hs : 0 < steps) {g : Nat} (hg : g ∈ regGens h) {p : Spring α} (hp : w.gens g = .spring p) :
    p.body1 = .null ∨ p.body2 = .null ∨ ∃ b1 b2, p.body1 = .obj b1 ∧ p.body2 = .obj b2 ∧
      0 ≤ (w.bodies b1).index ∧ 0 ≤ (w.bodies b2).index ∧ ¬ neverAdded h b1 ∧ ¬ neverAdded h b2 := by
  have := (World.process_attached e hs).1 g ((hw.regs.gens.mem g).mpr hg)
  rw [hp] at this
  rcases this with h1 | h2 | ⟨b1, b2, h1, h2, i1, i2⟩
  · exact .inl h1
  · exact .inr (.inl h2)
  · exact .inr (.inr ⟨b1, b2, h1, h2, i1, i2, fun hn => by have := (hw.never_added hn).1; omega,
      fun hn => by have := (hw.never_added hn).1; omega⟩)

/-- The hypotheses are met by two bodies with a clutch and a spring. -/
example (env : Env ℝ) : ∃ (h : List (Op ℝ)) (w w' : World ℝ), World.Hist Gen.Shipped .opt h w ∧
    w.process .opt env 2 4 = .ok w' ∧ 0 ∈ regGens h ∧
    w.gens 0 = .spring ⟨1, 2, 3, 0, 0, 0, 0, .obj 0, .obj 1⟩ ∧ 0 ≤ (w.bodies 0).index := by
  obtain ⟨h, w, w', d, hst, e⟩ := demo_turns (turns_clutch ⟨-1, 1, 0, 0⟩)
    (g := .spring ⟨1, 2, 3, 0, 0, 0, 0, .obj 0, .obj 1⟩) trivial
    (.inr ⟨⟨0, by simp, rfl⟩, .inr ⟨1, by simp, rfl⟩⟩) (sv := .ge) trivial (two_ne_zero) 4 env
  have hg : 0 ∈ regGens h := by rw [d.regG]; simp
  rcases C101_spring d.hist e (by decide) hg (d.gens 0) with h1 | h1 | ⟨b1, b2, h1, h2, i1, -⟩
  · cases h1
  · cases h1
  · cases h1
    exact ⟨h, w, w', d.hist, e, hg, d.gens 0, i1⟩

/-- **C101.** A constraint with at least one row and one body that is added as it was constructed
makes `process` fail, with any arithmetic and in both systems. -/
theorem C101_new_constraint_fails (hw : World.Hist G cls h w) (hs : 0 < steps) {c : Nat}
    (hc : c ∈ regCons h) {raw : Con α} {kind : CKind α} {rows count : Nat}
    (hk : Con.construct raw kind rows count = .ok { w.cons c with index := -1 })
    (hr : 0 < rows) (hb : 0 < count) : ∃ x, w.process cls env dt steps = .error x := by
  cases e : w.process cls env dt steps with
  | error x => exact ⟨x, rfl⟩
  | ok w' =>
    exfalso
    have hk := hk
    simp only [Con.construct, chk] at hk
    split at hk <;> [skip; cases hk]
    split at hk <;> [skip; cases hk]
    have hk := Except.ok.inj hk
    have h1 : (w.cons c).rows = rows := (congrArg Con.rows hk).symm
    have h2 : (w.cons c).bodyCount = count := (congrArg Con.bodyCount hk).symm
    have h3 : Ptr.null = (w.cons c).bodies 0 := congrFun (congrArg Con.bodies hk) 0
    obtain ⟨b, hb', -⟩ := C101_constraints hw e hs hc (h1 ▸ hr) (h2 ▸ hb)
    rw [← h3] at hb'
    cases hb'

/-- The hypotheses are met by a default line constraint that is constructed and added. -/
example (cls : Cls) (x : Body α) (raw : Con α) : ∃ (h : List (Op α)) (w : World α) (y : Con α),
    World.Hist (fun _ => True) cls h w ∧ 0 ∈ regCons h ∧
    Con.construct raw (.line .default) 1 1 = .ok y ∧ y = { w.cons 0 with index := -1 } ∧
    ∀ env dt, ∃ x, w.process cls env dt 1 = .error x := by
  obtain ⟨y, hy⟩ : ∃ y, Con.construct raw (.line .default) 1 1 = .ok y := ⟨_, rfl⟩
  have h0 := World.Hist.start (G := fun _ => True) (cls := cls) (fun _ => x) (fun _ => raw)
    (fun _ => Gen.gravity (Fp.lit 0)) (fun _ => none) (fun _ => trivial) (fun _ _ => 0)
    (fun _ _ => (0 : α)) (fun _ _ => 0) (fun _ _ => 0)
  have h1 := World.Hist.step (.newCon 0 y) h0 (show 0 ∉ regCons _ by simp [regCons]) rfl
  have h2 := World.Hist.step (.addCon 0) h1 (show 0 ∉ regCons _ by simp [regCons]) rfl
  have hy' : y = { (upd (fun _ => raw) 0 { y with index := -1 } 0 : Con α) with index := -1 } := by
    rw [upd_same]; cases hy; rfl
  refine ⟨_, _, y, h2, by simp [regCons], hy, hy', fun env dt => ?_⟩
  exact C101_new_constraint_fails h2 (by decide) (c := 0) (by simp [regCons]) (hy.trans (congrArg _ hy'))
    (by decide) (by decide)

end

end Scs
