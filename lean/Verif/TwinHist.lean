import Verif.TwinWorld

/-!
# Two runs of the same program: whole programs
-/

namespace Scs

section
variable {α : Type} [Zero α] [Add α] [Mul α] [Sub α] [Neg α] [Fp α]

/-! ## Specification -/

/-- Two ODE solver objects of the same class handed over between two steps; the saved states of two
RK4 solvers have the same sizes, their contents may differ. -/
def Ode.SameSort : Ode α → Ode α → Prop
  | .base _, .base _ => True
  | .euler _, .euler _ => True
  | .nsv _, .nsv _ => True
  | .rk4 r, .rk4 r' => (Ode.rk4 r).Idle ∧ (Ode.rk4 r').Idle ∧ r'.init.n = r.init.n ∧
      r'.init.nc = r.init.nc ∧ r'.acc.n = r.acc.n ∧ r'.acc.nc = r.acc.nc
  | _, _ => False

/-- The same action of the program in two runs. What may differ: the reported forces in a constraint
object (the constructor does not initialise them), the contents of the memory of an RK4 solver, and
for `process` the clock and the contents of its uninitialised local variable. -/
def Op.Same : Op α → Op α → Prop
  | .newCon c x, .newCon c' x' => c' = c ∧ x.SameBut x'
  | .setCon c x, .setCon c' x' => c' = c ∧ x.SameBut x'
  | .init sle none, .init sle' none => sle' = sle
  | .init sle (some o), .init sle' (some o') => sle' = sle ∧ o.SameSort o'
  | .process _ dt steps, .process _ dt' steps' => dt' = dt ∧ steps' = steps
  | op, op' => op' = op

/-- Running a program. -/
def runAll (cls : Cls) : List (Op α) → World α → Exec (World α)
  | [], w => .ok w
  | op :: ops, w => op.run cls w >>= runAll cls ops

/-- The registered constraints are shipped ones, they and the force generators are attached to
registered bodies, and the bodies that carry constraints are among the first 255. -/
structure World.Usual (w : World α) (h : List (Op α)) : Prop where
  kind : ∀ c ∈ regCons h, (w.cons c).kind.counts = some ((w.cons c).rows, (w.cons c).bodyCount)
  bodies : ∀ c ∈ regCons h, ∀ k, k < (w.cons c).bodyCount →
    ∃ b ∈ regBodies h, (w.cons c).bodies k = .obj b
  gens : ∀ g ∈ regGens h, (w.gens g).Within (· ∈ regBodies h)
  near : w.Near h

/-- What a call of `process` needs to be reproducible: a usual system; for the generic system the
solver is not Gauss-Seidel, and if RK4 integrates, whether a division fails depends on the divisor
only. -/
def Op.Fine (cls : Cls) (h : List (Op α)) (w : World α) : Op α → Prop
  | .process _ _ _ => w.Usual h ∧ (cls = .gen →
      (∀ sv, w.sle = some sv → sv.Direct) ∧ ∀ r, w.ode = some (.rk4 r) → DivEven α)
  | _ => True

/-- Every action of the program is valid and fine at the time it is done; `h` and `w` are the history
and the world before it. -/
def Legal (cls : Cls) : List (Op α) → World α → List (Op α) → Prop
  | _, _, [] => True
  | h, w, op :: ops => op.Valid (fun _ => True) h ∧ op.Fine cls h w ∧
      ∀ v, op.run cls w = .ok v → Legal cls (op :: h) v ops

/-- What a program sees of a system: everything except the reported forces and the times. -/
structure World.SameSight (v v' : World α) : Prop where
  bodies : v'.bodies = v.bodies
  cons : ∀ c, (v.cons c).SameBut (v'.cons c)
  gens : v'.gens = v.gens
  rb : v'.rb = v.rb
  cs : v'.cs = v.cs
  fg : v'.fg = v.fg
  t : v'.t = v.t
  bias : v'.bias = v.bias

/-! ## Proofs -/

variable {w w' : World α} {cls : Cls} {h : List (Op α)}

theorem Mate.map (m : Mate w w') {v v' : World α}
    (he : ∃ fx fy ft, v' = v.redo fx fy ft w'.st w'.mem w'.ring w'.ode w'.nsv) (h1 : v.st = w.st)
    (h2 : v.mem = w.mem) (h3 : v.ring = w.ring) (h3' : v.frame = w.frame) (h4 : v.ode = w.ode)
    (h5 : v.nsv = w.nsv) : Mate v v' := by
  obtain ⟨fx, fy, ft, rfl⟩ := he
  refine ⟨⟨fx, fy, ft, _, _, _, _, _, rfl⟩, h1 ▸ m.wf, m.wf', ?_, ?_, ⟨?_, ?_⟩, ⟨m.ring'.size, ?_⟩, ?_, ?_, ?_⟩
  · rw [h1]; exact m.n
  · rw [h1]; exact m.nc
  · rw [h3]; exact m.ring.size
  · rw [h3']; exact m.ring.frame
  · show v.frame < _
    rw [h3']; exact m.ring.frame
  · rw [h2]; exact m.mem
  · rw [h4]; exact m.ode
  · rw [h5]; exact m.nsv

theorem Mate.sight (m : Mate w w') : w.SameSight w' := by
  obtain ⟨fx, fy, ft, st, mem, ring, ode, nsv, e⟩ := m.eq
  subst e
  exact ⟨rfl, fun _ => rfl, rfl, rfl, rfl, rfl, rfl, rfl⟩

theorem Mate.eq' (m : Mate w w') : ∃ fx fy ft, w' = w.redo fx fy ft w'.st w'.mem w'.ring w'.ode
    w'.nsv := by
  obtain ⟨fx, fy, ft, st, mem, ring, ode, nsv, e⟩ := m.eq
  exact ⟨fx, fy, ft, by subst e; rfl⟩

theorem Ode.SameSort.alike {o o' : Ode α} (h : o.SameSort o') : o.Alike o' := by
  cases o <;> cases o' <;> first | exact h.elim | trivial | skip
  rename_i r r'
  obtain ⟨⟨a1, a2, a3, a4⟩, ⟨b1, b2, b3, b4⟩, c1, c2, c3, c4⟩ := h
  exact ⟨by rw [a1, b1], by rw [a2, b2], ⟨a3.wf, b3.wf, c1, c2⟩, a4.wf, b4.wf, c3, c4⟩

theorem World.Usual.wired (u : w.Usual h) : w.Wired h where
  rows := fun c hc => by have := counts_le (u.kind c hc); omega
  two := fun c hc => (counts_le (u.kind c hc)).2.2.2
  bodies := u.bodies

theorem World.Usual.set (u : w.Usual h) (r : w.Regs cls h) :
    w.Set0 (fun c k => w.at (w.bodyOf c k)) := by
  have p := r.placed u.wired
  refine ⟨p.fit r u.wired, u.near.slim p r, fun k hk => u.kind k ((r.cons.mem k).mp hk), fun g hg => ?_, p.rb, p.cs⟩
  refine (u.gens g ((r.gens.mem g).mp hg)).mono fun b hb => ?_
  have hb' := (r.bodies.mem b).mpr hb
  rw [p.index b hb']
  exact ⟨_, p.lt b hb', rfl⟩

theorem upd_redo (f : Nat → Con α) (fx fy ft : Nat → Nat → Nat → α) (c : Nat) (x x' : Con α)
    (hx : x.SameBut x') :
    upd (fun k => { f k with F_x := fx k, F_y := fy k, F_t := ft k }) c x' =
      fun k => { upd f c x k with
        F_x := upd fx c x'.F_x k, F_y := upd fy c x'.F_y k, F_t := upd ft c x'.F_t k } := by
  funext k
  by_cases hk : k = c
  · subst hk
    simp only [upd_same]
    exact hx
  · simp only [upd_other _ _ hk]

/-- Another constraint object at address `c`. -/
theorem Mate.con (m : Mate w w') (c : Nat) {x x' : Con α} (hx : x.SameBut x') :
    Mate { w with cons := upd w.cons c x } { w' with cons := upd w'.cons c x' } := by
  obtain ⟨fx, fy, ft, e⟩ := m.eq'
  refine m.map ⟨upd fx c x'.F_x, upd fy c x'.F_y, upd ft c x'.F_t, ?_⟩ rfl rfl rfl rfl rfl rfl
  generalize w'.st = st at *
  generalize w'.mem = mem at *
  generalize w'.ring = ring at *
  generalize w'.ode = ode at *
  generalize w'.nsv = nsv at *
  subst e
  have := upd_redo w.cons fx fy ft c x x' hx
  exact congrArg (fun d => { w.redo fx fy ft st mem ring ode nsv with cons := d }) this

theorem Mate.rbs (m : Mate w w') {x0 y0 : List Nat} (h0 : y0 = x0) :
    Mate { w with rb := x0 } { w' with rb := y0 } := by
  obtain ⟨fx, fy, ft, e⟩ := m.eq'
  subst h0
  exact m.map ⟨fx, fy, ft, by rw [e]; rfl⟩ rfl rfl rfl rfl rfl rfl

theorem Mate.css (m : Mate w w') {x0 y0 : List Nat} (h0 : y0 = x0) :
    Mate { w with cs := x0 } { w' with cs := y0 } := by
  obtain ⟨fx, fy, ft, e⟩ := m.eq'
  subst h0
  exact m.map ⟨fx, fy, ft, by rw [e]; rfl⟩ rfl rfl rfl rfl rfl rfl

theorem Mate.fgs (m : Mate w w') {x0 y0 : List Nat} (h0 : y0 = x0) :
    Mate { w with fg := x0 } { w' with fg := y0 } := by
  obtain ⟨fx, fy, ft, e⟩ := m.eq'
  subst h0
  exact m.map ⟨fx, fy, ft, by rw [e]; rfl⟩ rfl rfl rfl rfl rfl rfl

theorem Mate.body (m : Mate w w') {x0 y0 : Nat → Body α} (h0 : y0 = x0) :
    Mate { w with bodies := x0 } { w' with bodies := y0 } := by
  obtain ⟨fx, fy, ft, e⟩ := m.eq'
  subst h0
  exact m.map ⟨fx, fy, ft, by rw [e]; rfl⟩ rfl rfl rfl rfl rfl rfl

theorem Mate.gen (m : Mate w w') {x0 y0 : Nat → Gen α} (h0 : y0 = x0) {x1 y1 : Nat → Option Int} (h1 : y1 = x1) :
    Mate { w with gens := x0, genIndex := x1 } { w' with gens := y0, genIndex := y1 } := by
  obtain ⟨fx, fy, ft, e⟩ := m.eq'
  subst h0; subst h1
  exact m.map ⟨fx, fy, ft, by rw [e]; rfl⟩ rfl rfl rfl rfl rfl rfl

theorem Mate.others (m : Mate w w') {x0 y0 : Option (Solver α)} (h0 : y0 = x0) {x1 y1 : α} (h1 : y1 = x1) :
    Mate { w with sle := x0, bias := x1 } { w' with sle := y0, bias := y1 } := by
  obtain ⟨fx, fy, ft, e⟩ := m.eq'
  subst h0; subst h1
  exact m.map ⟨fx, fy, ft, by rw [e]; rfl⟩ rfl rfl rfl rfl rfl rfl

theorem Mate.parts (m : Mate w w') : w'.bodies = w.bodies ∧ w'.genIndex = w.genIndex ∧ w'.gens = w.gens ∧
    w'.rb = w.rb ∧ w'.cs = w.cs ∧ w'.fg = w.fg ∧ w'.bias = w.bias ∧ w'.sle = w.sle := by
  obtain ⟨fx, fy, ft, e⟩ := m.eq'
  rw [e]
  exact ⟨rfl, rfl, rfl, rfl, rfl, rfl, rfl, rfl⟩

theorem Con.SameBut.index {x x' : Con α} (h : x.SameBut x') : x'.index = x.index := by rw [h]
theorem Con.SameBut.rows {x x' : Con α} (h : x.SameBut x') : x'.rows = x.rows := by rw [h]

theorem Con.SameBut.setIndex {x x' : Con α} (h : x.SameBut x') (i : Int) :
    Con.SameBut { x with index := i } { x' with index := i } := by
  rw [h]; rfl

theorem Con.SameBut.setBoth {x x' : Con α} (h : x.SameBut x') (i : Int) (r : Nat) :
    Con.SameBut { x with index := i, rows := r } { x' with index := i, rows := r } := by
  rw [h]; rfl

theorem Op.run_rel (m : Mate w w') (r : w.Regs cls h) {op op' : Op α} (hf : op.Fine cls h w)
    (hs : op.Same op') : Rel Mate (op.run cls w) (op'.run cls w') := by
  obtain ⟨p1, p2, p3, p4, p5, p6, p7, p8⟩ := m.parts
  cases op with
  | addBody b =>
    cases op' <;> cases hs
    exact (m.rbs (by rw [p4])).body (by simp only [p1, p4])
  | removeBody b =>
    cases op' <;> cases hs
    show Rel Mate (w.removeBody b) (w'.removeBody b)
    rw [World.removeBody, World.removeBody, p1, p4]
    refine rel_same _ fun q _ => ?_
    exact (m.rbs rfl).body (by simp only [p1])
  | addCon c =>
    cases op' <;> cases hs
    show Mate (w.addCon c) (w'.addCon c)
    have := (m.css (x0 := w.cs ++ [c]) rfl).con c
      ((m.sight.cons c).setIndex (((w.cs ++ [c]).length : Int) - 1))
    rw [World.addCon, World.addCon, World.setConIndex, World.setConIndex, p5]
    exact this
  | removeCon c =>
    cases op' <;> cases hs
    show Rel Mate (w.removeCon c) (w'.removeCon c)
    rw [World.removeCon, World.removeCon, (m.sight.cons c).index, p5]
    refine rel_same _ fun q _ => ?_
    exact (m.css rfl).con q.2 ((m.sight.cons q.2).setIndex (w.cons c).index)
  | addGen g =>
    cases op' <;> cases hs
    exact (m.fgs (by rw [p6])).gen p3 (by simp only [p2, p6])
  | removeGen g =>
    cases op' <;> cases hs
    show Rel Mate (w.removeGen g) (w'.removeGen g)
    rw [World.removeGen, World.removeGen, p2, p6]
    refine rel_same _ fun i _ => rel_same _ fun q _ => ?_
    exact (m.fgs rfl).gen p3 (by simp only [p2])
  | reset =>
    cases op' <;> cases hs
    exact ((m.rbs (x0 := []) rfl).css (x0 := []) rfl).fgs (x0 := []) rfl
  | newBody b x =>
    cases op' <;> cases hs
    exact m.body (by rw [p1])
  | newCon c x =>
    cases op' <;> first | (obtain ⟨rfl, hx⟩ := hs; exact m.con _ (hx.setIndex (-1))) | cases hs
  | newGen g x =>
    cases op' <;> cases hs
    exact m.gen (by rw [p3]) (by rw [p2])
  | setBody b x =>
    cases op' <;> cases hs
    exact m.body (by simp only [p1])
  | setCon c x =>
    cases op' with
    | setCon c' x' =>
      obtain ⟨rfl, hx⟩ := hs
      have := m.con c' (hx.setBoth (w.cons c').index (w.cons c').rows)
      rw [← (m.sight.cons c').index, ← (m.sight.cons c').rows] at this
      rw [(m.sight.cons c').index, (m.sight.cons c').rows] at this
      show Mate _ _
      simp only [(m.sight.cons c').index, (m.sight.cons c').rows]
      exact this
    | _ => cases hs
  | setGen g x =>
    cases op' <;> cases hs
    exact m.gen (by rw [p3]) p2
  | init sle ode =>
    cases op' with
    | init sle' ode' =>
      have hh : sle' = sle ∧ OdeLike ode ode' := by
        cases ode <;> cases ode'
        · exact ⟨hs, trivial⟩
        · cases hs
        · cases hs
        · exact ⟨hs.1, hs.2.alike⟩
      obtain ⟨rfl, ho⟩ := hh
      cases cls with
      | opt => exact m.others rfl p7
      | gen =>
        show Rel Mate (w.genInit _ _) (w'.genInit _ _)
        rw [World.genInit, World.genInit]
        refine rel_bind (m.mem.init0 .ivLambda 0 0) fun a a' ha => ?_
        obtain ⟨fx, fy, ft, e⟩ := m.eq'
        refine ⟨⟨fx, fy, ft, w'.st, a', w'.ring, ode', w'.nsv, by rw [e]; rfl⟩, m.wf, m.wf', m.n, m.nc,
          ⟨m.ring.size, m.ring.frame⟩, ⟨m.ring'.size, m.ring'.frame⟩, ha.subk (by simp), ho, m.nsv⟩
    | _ => cases ode <;> cases hs
  | setBias x =>
    cases op' <;> cases hs
    exact m.others p8 rfl
  | process env dt steps =>
    cases op' with
    | process env' dt' steps' =>
      obtain ⟨rfl, rfl⟩ := hs
      obtain ⟨hu, hg⟩ := hf
      cases cls with
      | opt => exact (optProcess_rel m (hu.set r) r.nsv env env' dt' steps').mono fun _ _ z => z.1
      | gen => exact genProcess_rel m (hu.set r) (hg rfl).1 (hg rfl).2 env env' dt' steps'
    | _ => cases hs

theorem World.mate_start {bodies : Nat → Body α} {cons cons' : Nat → Con α} {gens : Nat → Gen α}
    {genIndex : Nat → Option Int} (hc : ∀ c, (cons c).SameBut (cons' c)) (j j' j1 j1' : Nat → Nat → α)
    (k k' k1 k1' : Nat → Nat → Nat) :
    Mate (World.construct bodies cons gens genIndex (Store.fresh j k) j1 k1)
      (World.construct bodies cons' gens genIndex (Store.fresh j' k') j1' k1') := by
  refine ⟨⟨fun c => (cons' c).F_x, fun c => (cons' c).F_y, fun c => (cons' c).F_t,
    SysState.mk0 j1' k1', Store.fresh j' k', fun _ => ⟨profSamples, fun _ => -1⟩, none, Ode.newNsv, ?_⟩,
    (SysState.Reach.fresh _ _).wf, (SysState.Reach.fresh _ _).wf, rfl, rfl, ⟨fun _ => rfl, show 0 < 600 by decide⟩,
    ⟨fun _ => rfl, show 0 < 600 by decide⟩, ?_, trivial,
    trivial⟩
  · have : cons' = fun c => { cons c with
        F_x := (cons' c).F_x, F_y := (cons' c).F_y, F_t := (cons' c).F_t } := funext hc
    exact congrArg (fun d => World.construct bodies d gens genIndex (Store.fresh j' k') j1' k1') this
  · refine ⟨Inv.ofFresh 3 2 j k, Inv.ofFresh 3 2 j' k', fun _ _ => rfl, fun _ _ => rfl,
      fun a _ r c hr _ => absurd hr (Nat.not_lt_zero _), ?_, ?_, ?_, ?_, ?_⟩ <;> intro a ha <;> cases ha

theorem runAll_rel {h : List (Op α)} {w w' : World α} (m : Mate w w')
    (hw : World.Hist (fun _ => True) cls h w) :
    ∀ {ops ops' : List (Op α)}, List.Forall₂ Op.Same ops ops' → Legal cls h w ops →
      Rel Mate (runAll cls ops w) (runAll cls ops' w') := by
  intro ops
  induction ops generalizing h w w' with
  | nil => intro ops' hs _; cases hs; exact m
  | cons op ops ih =>
    intro ops' hs hl
    cases hs with
    | cons hs hss =>
      refine rel_bind' (Op.run_rel m hw.regs hl.2.1 hs) fun v v' e _ hm => ?_
      exact ih hm (.step op hw hl.1 e) hss (hl.2.2 v e)

end

end Scs
