import Verif.OdeLemmas

/-!
# Specification of complete ODE steps
-/

namespace Scs

open SysState

section
variable {α : Type} [Zero α] [Add α] [Mul α] [Sub α] [Neg α] [Fp α]

theorem euler_solve {s : SysState α} (h : s.Wf) (dt : α) :
    ∃ s', (Ode.euler dt).solve s = .ok (.euler dt, s') ∧
      BodyTo { s with dt := dt } s' (· < s.n) (fun _ st =>
        motion (fun c => st c.p + st c.v * dt) (fun c => st c.v + st c.a * dt) st) := by
  obtain ⟨s', e, hb⟩ := forN_bodies (s := { s with dt := dt }) (body := eulerBody dt)
    (G := fun _ st => motion (fun c => st c.p + st c.v * dt) (fun c => st c.v + st c.a * dt) st)
    (fun hp => let o := h hp; ⟨o.fld, o.rf, o.im⟩) s.n (Nat.le_refl _)
    (fun i _ s1 o1 hi _ => eulerBody_to o1 hi dt)
  refine ⟨s', ?_, hb⟩
  simp only [Ode.solve]
  rw [e]; rfl

theorem nsv_solve {s : SysState α} (h : s.Wf) (dt : α) :
    ∃ s', (Ode.nsv dt).solve s = .ok (.nsv dt, s') ∧
      BodyTo { s with dt := dt } s' (· < s.n) (fun _ st =>
        motion (fun c => st c.p + (st c.v + st c.a * dt) * dt) (fun c => st c.v + st c.a * dt)
          st) := by
  obtain ⟨s', e, hb⟩ := forN_bodies (s := { s with dt := dt }) (body := nsvBody dt)
    (G := fun _ st => motion (fun c => st c.p + (st c.v + st c.a * dt) * dt)
      (fun c => st c.v + st c.a * dt) st)
    (fun hp => let o := h hp; ⟨o.fld, o.rf, o.im⟩) s.n (Nat.le_refl _)
    (fun i _ s1 o1 hi _ => nsvBody_to o1 hi dt)
  refine ⟨s', ?_, hb⟩
  simp only [Ode.solve]
  rw [e]; rfl

end

/-! ## Copying -/

section
variable {α : Type}

/-- After `resize` the destination `d` has exactly the size of `s`. -/
def SysState.Fits (d s : SysState α) : Prop :=
  (d.n = s.n ∧ d.nc = s.nc) ∨ ¬ (s.n ≤ d.n ∧ s.nc ≤ d.nc)

theorem SysState.Fits.resize {d s : SysState α} (h : d.Fits s) :
    (d.resize s.n s.nc).n = s.n ∧ (d.resize s.n s.nc).nc = s.nc := by
  rcases h with h | h
  · rw [resize_of_ge d (by omega) (by omega)]; exact h
  · rw [resize_of_not d h]; exact ⟨rfl, rfl⟩

theorem Ok.val_copied {d s : SysState α} (hd : d.Ok) (hs : s.Ok) (f : Fld) {i : Nat} (hi : i < d.n) :
    (d.copied s).val f i = s.val f i := by
  obtain ⟨b, hb, _⟩ := hd.fld f
  obtain ⟨b', hb', _⟩ := hs.fld f
  simp [SysState.val, copied, hb, hb', hi]

theorem Ok.rval_copied {d s : SysState α} (hd : d.Ok) (hs : s.Ok) (f : CFld) {i : Nat}
    (hi : i < d.nc * 2) : (d.copied s).rval f i = s.rval f i := by
  obtain ⟨b, hb, _⟩ := hd.rf f
  obtain ⟨b', hb', _⟩ := hs.rf f
  simp [SysState.rval, copied, hb, hb', hi]

theorem Ok.copied {d : SysState α} (hd : d.Ok) (s : SysState α) : (d.copied s).Ok := by
  refine ⟨fun f => ?_, fun f => ?_, ?_⟩
  · obtain ⟨b, hb, hz⟩ := hd.fld f
    refine ⟨?_, ?_, ?_⟩
    rotate_left
    · simp only [SysState.copied, hb, Option.map_some]; rfl
    · exact hz
  · obtain ⟨b, hb, hz⟩ := hd.rf f
    refine ⟨?_, ?_, ?_⟩
    rotate_left
    · simp only [SysState.copied, hb, Option.map_some]; rfl
    · exact hz
  · obtain ⟨b, hb, hz⟩ := hd.im
    refine ⟨?_, ?_, ?_⟩
    rotate_left
    · simp only [SysState.copied, hb, Option.map_some]; rfl
    · exact hz

/-- `copy` into a state that fits. -/
theorem copy_fits {d s : SysState α} (hd : d.Wf) (hs : s.Wf) (hf : d.Fits s) :
    ∃ d', d.copy s = .ok d' ∧ d'.Wf ∧ d'.n = s.n ∧ d'.nc = s.nc ∧
      (∀ f i, i < s.n → d'.val f i = s.val f i) ∧
      (0 < s.n → ∀ f i, i < s.nc * 2 → d'.rval f i = s.rval f i) := by
  obtain ⟨h1, h2⟩ := hf.resize
  by_cases h0 : s.n = 0
  · refine ⟨_, by rw [SysState.copy]; simp only [h0, if_true]; rfl, ?_, ?_, ?_, ?_, ?_⟩
    · exact hd.resize _ _
    · rw [← h0]; exact h1
    · rw [← h0]; exact h2
    · intro f i hi; omega
    · intro h; omega
  · have ho : (d.resize s.n s.nc).Ok := hd.resize _ _ (Or.inl (by omega))
    have hso : s.Ok := hs (Or.inl (by omega))
    refine ⟨_, copy_ok ho hso h1 h2 h0, (Ok.copied ho s).wf, h1, h2, ?_, ?_⟩
    · intro f i hi
      exact Ok.val_copied ho hso f (by omega)
    · intro _ f i hi
      exact Ok.rval_copied ho hso f (by omega)

end

/-! ## RK4 -/

/-- What `Rk4.step` does before the second and third evaluation. -/
noncomputable def halfG (h : ℝ) (ini : SysState ℝ) (j : Nat) (st : Fld → ℝ) : Fld → ℝ :=
  motion (fun c => ini.val c.p j + h * (ini.val c.v j + h * st c.a / 2) / 2)
    (fun c => ini.val c.v j + h * st c.a / 2) st

/-- What `Rk4.step` does before the fourth evaluation. -/
noncomputable def fullG (h : ℝ) (ini : SysState ℝ) (j : Nat) (st : Fld → ℝ) : Fld → ℝ :=
  motion (fun c => ini.val c.p j + h * (ini.val c.v j + h * st c.a))
    (fun c => ini.val c.v j + h * st c.a) st

theorem SysState.BodyTo.congr {α : Type} {s s' : SysState α} {P P' : Nat → Prop} [DecidablePred P]
    [DecidablePred P'] {G H : Nat → (Fld → α) → Fld → α} (h : BodyTo s s' P G)
    (hP : ∀ j, P j ↔ P' j)
    (e : ∀ j, P' j → ∀ st f, G j st f = H j st f) : BodyTo s s' P' H := by
  refine ⟨h.1, h.2.1, fun f j => ?_⟩
  rw [h.2.2 f j]
  by_cases hp : P' j
  · simp only [hp, (hP j).2 hp, if_true, e j hp]
  · simp only [hp, mt (hP j).1 hp, if_false]

theorem SysState.BodyTo.setDt {α : Type} {s s' : SysState α} {P : Nat → Prop} [DecidablePred P]
    {G : Nat → (Fld → α) → Fld → α} (h : BodyTo s s' P G) (dt : α) :
    BodyTo { s with dt := dt } { s' with dt := dt } P G := by
  refine ⟨?_, fun hp => let o := h.2.1 hp; ⟨o.fld, o.rf, o.im⟩, h.2.2⟩
  rw [h.1]

theorem div2 (x : ℝ) : Fp.div x (Fp.lit 2) = .ok (x / 2) := by
  rw [fp_div (by rw [fp_lit]; norm_num)]; norm_num [fp_lit]

theorem rk4_step1 (r : Rk4 ℝ) (s : SysState ℝ) (hs : r.stage = .stage1) :
    r.step s = .ok ({ r with nextStage := .stage2 }, { s with dt := 0 }, false) := by
  simp only [Rk4.step, hs]
  have : (Fp.lit 0 : ℝ) = 0 := by norm_num [fp_lit]
  rw [this]; rfl

theorem rk4_step23 (r : Rk4 ℝ) {s : SysState ℝ} (h : s.Wf) (hi : r.init.Wf)
    (hn : r.init.n = s.n) (hs : r.stage = .stage2 ∨ r.stage = .stage3) :
    ∃ s', r.step s = .ok ({ r with nextStage := r.stage.next }, s', false) ∧
      BodyTo { s with dt := r.dt / 2 } s' (· < s.n) (halfG r.dt r.init) := by
  obtain ⟨s1, e, hb⟩ := forN_bodies (s := s) (body := rkHalfBody r.dt r.init)
    (G := halfG r.dt r.init) h s.n (Nat.le_refl _)
    (fun i hin s1 o1 hi1 _ => rkHalfBody_to o1 (hi.ok (i := i) (by omega)) hi1 (by omega) r.dt)
  refine ⟨{ s1 with dt := r.dt / 2 }, ?_, hb.setDt _⟩
  rcases hs with hs | hs <;>
  · simp only [Rk4.step, hs]
    rw [e]
    simp only [ok_bind]
    rw [div2]
    rfl

theorem rk4_step4 (r : Rk4 ℝ) {s : SysState ℝ} (h : s.Wf) (hi : r.init.Wf)
    (hn : r.init.n = s.n) (hs : r.stage = .stage4) :
    ∃ s', r.step s = .ok ({ r with nextStage := .complete }, s', true) ∧
      BodyTo { s with dt := r.dt } s' (· < s.n) (fullG r.dt r.init) := by
  obtain ⟨s1, e, hb⟩ := forN_bodies (s := s) (body := rkFullBody r.dt r.init)
    (G := fullG r.dt r.init) h s.n (Nat.le_refl _)
    (fun i hin s1 o1 hi1 _ => rkFullBody_to o1 (hi.ok (i := i) (by omega)) hi1 (by omega) r.dt)
  refine ⟨{ s1 with dt := r.dt }, ?_, hb.setDt _⟩
  simp only [Rk4.step, hs]
  rw [e]
  rfl

/-- The accumulation of one stage. -/
structure RkAdded (h w : ℝ) (s acc acc' : SysState ℝ) : Prop where
  wf : acc'.Wf
  n : acc'.n = acc.n
  nc : acc'.nc = acc.nc
  pos : ∀ c : Coord, ∀ i, i < s.n → acc'.val c.p i = acc.val c.p i + h / 6 * s.val c.v i * w
  vel : ∀ c : Coord, ∀ i, i < s.n → acc'.val c.v i = acc.val c.v i + h / 6 * s.val c.a i * w
  rows : ∀ f i, i < s.nc → acc'.rval f i = acc.rval f i + h / 6 * s.rval f i * w

theorem rk4_accum {s acc : SysState ℝ} (h : s.Wf) (ha : acc.Wf) (hn : acc.n = s.n)
    (hc : acc.nc = s.nc) (dt w : ℝ) :
    ∃ a1 a2, forN s.n (rkAccBody dt w s) acc = .ok a1 ∧ forN s.nc (rkAccRBody dt w s) a1 = .ok a2 ∧
      RkAdded dt w s acc a2 := by
  obtain ⟨a1, e1, f1, w1, v1⟩ := forN_bodies (s := acc) (body := rkAccBody dt w s)
    (G := fun j st => motion (fun c => st c.p + dt / 6 * s.val c.v j * w)
        (fun c => st c.v + dt / 6 * s.val c.a j * w) st) ha s.n (by omega)
    (fun i hin s1 o1 hi1 _ => rkAccBody_to o1 (h.ok (i := i) (by omega)) hi1 (by omega) dt w)
  have n1 : a1.n = acc.n := by rw [f1]
  have c1 : a1.nc = acc.nc := by rw [f1]
  have r1 : ∀ f i, a1.rval f i = acc.rval f i := fun f i => by
    rw [f1]; rfl
  obtain ⟨a2, e2, f2, w2, v2⟩ := forN_rows (s := a1) (body := rkAccRBody dt w s)
    (G := fun j st f => st f + dt / 6 * s.rval f j * w) w1 s.nc (by omega)
    (fun i hin s1 o1 hi1 _ =>
      rkAccRBody_to o1 (h.okc (i := i) (by omega)) hi1 (by omega) dt w)
  have q2 : ∀ f i, a2.val f i = a1.val f i := fun f i => by rw [f2]; rfl
  refine ⟨a1, a2, e1, e2, w2, by rw [f2]; exact n1, by rw [f2]; exact c1, ?_, ?_, ?_⟩
  · intro c i hi
    rw [q2, v1, if_pos hi]; exact motion_p _ _ _ c
  · intro c i hi
    rw [q2, v1, if_pos hi]; exact motion_v _ _ _ c
  · intro f i hi
    rw [v2, if_pos hi]; simp only [r1]

theorem rk4_solve_mid (r : Rk4 ℝ) {s : SysState ℝ} (h : s.Wf) (ha : r.acc.Wf) (hn : r.acc.n = s.n)
    (hc : r.acc.nc = s.nc) (hs : r.stage ≠ .stage4) :
    ∃ acc', r.solve s = .ok ({ r with acc := acc', stage := r.nextStage }, s) ∧
      RkAdded r.dt r.stage.weight s r.acc acc' := by
  obtain ⟨a1, a2, e1, e2, hh⟩ := rk4_accum h ha hn hc r.dt r.stage.weight
  refine ⟨a2, ?_, hh⟩
  simp only [Rk4.solve]
  rw [e1]; simp only [ok_bind]
  rw [e2]; simp only [ok_bind, hs, if_false]
  rfl

theorem rk4_solve_end (r : Rk4 ℝ) {s : SysState ℝ} (h : s.Wf) (ha : r.acc.Wf) (hn : r.acc.n = s.n)
    (hc : r.acc.nc = s.nc) (hs : r.stage = .stage4) :
    ∃ acc' s', r.solve s = .ok ({ r with acc := acc', stage := r.nextStage }, s') ∧
      RkAdded r.dt r.stage.weight s r.acc acc' ∧
      s' = { s with fld := s'.fld, rf := s'.rf } ∧ s'.Wf ∧
      (∀ f j, s'.val f j = if j < s.n then
        motion (fun c => acc'.val c.p j) (fun c => acc'.val c.v j) (fun g => s.val g j) f
        else s.val f j) ∧
      (∀ f j, s'.rval f j = if j < s.nc then acc'.rval f j else s.rval f j) := by
  obtain ⟨a1, a2, e1, e2, hh⟩ := rk4_accum h ha hn hc r.dt r.stage.weight
  have an := hh.n
  have ac := hh.nc
  obtain ⟨s1, e3, f3, w3, v3⟩ := forN_bodies (s := s) (body := rkGetBody a2)
    (G := fun j st => motion (fun c => a2.val c.p j) (fun c => a2.val c.v j) st) h s.n (Nat.le_refl _)
    (fun i hin s1 o1 hi1 _ => rkGetBody_to o1 (hh.wf.ok (i := i) (by omega)) hi1 (by omega))
  have n1 : s1.n = s.n := by rw [f3]
  have c1 : s1.nc = s.nc := by rw [f3]
  obtain ⟨s2, e4, f4, w4, v4⟩ := forN_rows (s := s1) (body := rkGetRBody a2)
    (G := fun j _ f => a2.rval f j) w3 s.nc (by omega)
    (fun i hin s1 o1 hi1 _ => rkGetRBody_to o1 (hh.wf.okc (i := i) (by omega)) hi1 (by omega))
  refine ⟨a2, s2, ?_, hh, ?_, w4, ?_, ?_⟩
  · simp only [Rk4.solve]
    rw [e1]; simp only [ok_bind]
    rw [e2]; simp only [ok_bind, hs, if_true]
    rw [e3]; simp only [ok_bind]
    rw [c1, e4]; rfl
  · rw [f4, f3]
  · intro f j
    have : s2.val f j = s1.val f j := by rw [f4]; rfl
    rw [this, v3]
  · intro f j
    rw [v4]
    have : s1.rval f j = s.rval f j := by rw [f3]; rfl
    rw [this]

/-- What an evaluation of forces and constraints must leave alone. -/
structure EvOk (s e : SysState ℝ) : Prop where
  wf : e.Wf
  n : e.n = s.n
  nc : e.nc = s.nc
  pos : ∀ c : Coord, ∀ i, i < s.n → e.val c.p i = s.val c.p i
  vel : ∀ c : Coord, ∀ i, i < s.n → e.val c.v i = s.val c.v i

/-- The four evaluations of an RK4 step of length `h` from `s` and its result `s'`. -/
structure RkTrace {τ : Type} (ev : τ → SysState ℝ → Exec (τ × SysState ℝ)) (x : τ) (s : SysState ℝ)
    (h : ℝ) (x' : τ) (s' : SysState ℝ) where
  x1 : τ
  x2 : τ
  x3 : τ
  e1 : SysState ℝ
  s2 : SysState ℝ
  e2 : SysState ℝ
  s3 : SysState ℝ
  e3 : SysState ℝ
  s4 : SysState ℝ
  e4 : SysState ℝ
  ev1 : ev x { s with dt := 0 } = .ok (x1, e1)
  ok1 : EvOk { s with dt := 0 } e1
  to2 : BodyTo { e1 with dt := h / 2 } s2 (· < s.n) (halfG h s)
  ev2 : ev x1 s2 = .ok (x2, e2)
  ok2 : EvOk s2 e2
  to3 : BodyTo { e2 with dt := h / 2 } s3 (· < s.n) (halfG h s)
  ev3 : ev x2 s3 = .ok (x3, e3)
  ok3 : EvOk s3 e3
  to4 : BodyTo { e3 with dt := h } s4 (· < s.n) (fullG h s)
  ev4 : ev x3 s4 = .ok (x', e4)
  ok4 : EvOk s4 e4
  fin : s' = { e4 with fld := s'.fld, rf := s'.rf }
  wf : s'.Wf
  vals : ∀ f j, s'.val f j = if j < s.n then
    motion
      (fun c => s.val c.p j + h / 6 * e1.val c.v j * 1 + h / 6 * e2.val c.v j * 2
        + h / 6 * e3.val c.v j * 2 + h / 6 * e4.val c.v j * 1)
      (fun c => s.val c.v j + h / 6 * e1.val c.a j * 1 + h / 6 * e2.val c.a j * 2
        + h / 6 * e3.val c.a j * 2 + h / 6 * e4.val c.a j * 1)
      (fun g => e4.val g j) f
    else e4.val f j
  rvals : 0 < s.n → ∀ f j, s'.rval f j = if j < s.nc then
    s.rval f j + h / 6 * e1.rval f j * 1 + h / 6 * e2.rval f j * 2
        + h / 6 * e3.rval f j * 2 + h / 6 * e4.rval f j * 1
    else e4.rval f j

/-- An RK4 step runs exactly four evaluations and its result is as described by `RkTrace`. -/
theorem rk4_run {τ : Type} {ev : τ → SysState ℝ → Exec (τ × SysState ℝ)} {r : Rk4 ℝ}
    {s : SysState ℝ} (hs : s.Wf) (hi : r.init.Wf) (ha : r.acc.Wf) (fi : r.init.Fits s)
    (fa : r.acc.Fits s)
    (hev : ∀ x s1, s1.Wf → s1.n = s.n → s1.nc = s.nc → ∃ x' e, ev x s1 = .ok (x', e) ∧ EvOk s1 e)
    (x : τ) (h : ℝ) :
    ∃ x' r' s', odeRun ev x (.rk4 r) s h = .ok (x', .rk4 r', s') ∧
      Nonempty (RkTrace ev x s h x' s') ∧
      r'.stage = .undefined ∧ r'.nextStage = .undefined ∧ r'.init.Wf ∧ r'.acc.Wf ∧
      r'.init.n = s.n ∧ r'.init.nc = s.nc ∧ r'.acc.n = s.n ∧ r'.acc.nc = s.nc := by
  obtain ⟨i0, ei, wi, ni, ci, vi, _⟩ := copy_fits hi hs fi
  obtain ⟨a0, ea, wa, na, ca, va, ra⟩ := copy_fits ha hs fa
  have est : r.start s h = .ok { r with dt := h, init := i0, acc := a0, stage := .stage1 } := by
    rw [Rk4.start, ei, ok_bind, ea]; rfl
  have w0 : ({ s with dt := 0 } : SysState ℝ).Wf := fun hp => let o := hs hp; ⟨o.fld, o.rf, o.im⟩
  -- stage 1
  obtain ⟨x1, e1, q1, k1⟩ := hev x { s with dt := 0 } w0 rfl rfl
  have m1 : e1.n = s.n := k1.n
  have mc1 : e1.nc = s.nc := k1.nc
  obtain ⟨b1, z1, d1⟩ := rk4_solve_mid
    { r with dt := h, init := i0, acc := a0, stage := .stage1, nextStage := .stage2 }
    k1.wf wa (by rw [na, m1]) (by rw [ca, mc1]) (by simp)
  -- stage 2
  have w1 : ({ e1 with dt := h / 2 } : SysState ℝ).Wf :=
    fun hp => let o := k1.wf hp; ⟨o.fld, o.rf, o.im⟩
  obtain ⟨s2, y2, t2⟩ := rk4_step23
    { r with dt := h, init := i0, acc := b1, stage := .stage2, nextStage := .stage2 }
    k1.wf wi (by rw [ni, m1]) (Or.inl rfl)
  have p2 : s2.n = s.n := by rw [t2.1]; exact m1
  have pc2 : s2.nc = s.nc := by rw [t2.1]; exact mc1
  obtain ⟨x2, e2, q2, k2⟩ := hev x1 s2 t2.2.1 p2 pc2
  have m2 : e2.n = s.n := by rw [k2.n, p2]
  have mc2 : e2.nc = s.nc := by rw [k2.nc, pc2]
  obtain ⟨b2, z2, d2⟩ := rk4_solve_mid
    { r with dt := h, init := i0, acc := b1, stage := .stage2, nextStage := .stage3 }
    k2.wf d1.wf (by have := d1.n; simp only [] at this ⊢; omega)
      (by have := d1.nc; simp only [] at this ⊢; omega) (by simp)
  -- stage 3
  obtain ⟨s3, y3, t3⟩ := rk4_step23
    { r with dt := h, init := i0, acc := b2, stage := .stage3, nextStage := .stage3 }
    k2.wf wi (by rw [ni, m2]) (Or.inr rfl)
  have p3 : s3.n = s.n := by rw [t3.1]; exact m2
  have pc3 : s3.nc = s.nc := by rw [t3.1]; exact mc2
  obtain ⟨x3, e3, q3, k3⟩ := hev x2 s3 t3.2.1 p3 pc3
  have m3 : e3.n = s.n := by rw [k3.n, p3]
  have mc3 : e3.nc = s.nc := by rw [k3.nc, pc3]
  have u1 := d1.n
  have u2 := d2.n
  have uc1 := d1.nc
  have uc2 := d2.nc
  simp only [] at u1 u2 uc1 uc2
  obtain ⟨b3, z3, d3⟩ := rk4_solve_mid
    { r with dt := h, init := i0, acc := b2, stage := .stage3, nextStage := .stage4 }
    k3.wf d2.wf (by simp only []; omega) (by simp only []; omega) (by simp)
  have u3 := d3.n
  have uc3 := d3.nc
  simp only [] at u3 uc3
  -- stage 4
  obtain ⟨s4, y4, t4⟩ := rk4_step4
    { r with dt := h, init := i0, acc := b3, stage := .stage4, nextStage := .stage4 }
    k3.wf wi (by rw [ni, m3]) rfl
  have p4 : s4.n = s.n := by rw [t4.1]; exact m3
  have pc4 : s4.nc = s.nc := by rw [t4.1]; exact mc3
  obtain ⟨x4, e4, q4, k4⟩ := hev x3 s4 t4.2.1 p4 pc4
  have m4 : e4.n = s.n := by rw [k4.n, p4]
  have mc4 : e4.nc = s.nc := by rw [k4.nc, pc4]
  obtain ⟨b4, s', z4, d4, f4, w4, v4, r4⟩ := rk4_solve_end
    { r with dt := h, init := i0, acc := b3, stage := .stage4, nextStage := .complete }
    k4.wf d3.wf (by simp only []; omega) (by simp only []; omega) rfl
  have u4 := d4.n
  have uc4 := d4.nc
  simp only [] at u4 uc4
  refine ⟨x4, { r with dt := h, init := i0, acc := b4, stage := .undefined, nextStage := .undefined },
    s', ?_, ⟨?_⟩, rfl, rfl, wi, d4.wf, ni, ci, by simp only []; omega, by simp only []; omega⟩
  · have g1 := rk4_step1 { r with dt := h, init := i0, acc := a0, stage := .stage1 } s rfl
    simp only [odeRun, Ode.start, est, ok_bind, odeLoop, Ode.step, g1, q1, Ode.solve, z1, y2, q2, z2,
      y3, q3, z3, y4, q4, z4, pure, Except.pure, RkStage.next, Bool.false_eq_true, if_false, if_true,
      Ode.fin, Rk4.fin]
  · have hw1 : (RkStage.stage1.weight : ℝ) = 1 := by simp [RkStage.weight, fp_lit]
    have hw2 : (RkStage.stage2.weight : ℝ) = 2 := by simp [RkStage.weight, fp_lit]
    have hw3 : (RkStage.stage3.weight : ℝ) = 2 := by simp [RkStage.weight, fp_lit]
    have hw4 : (RkStage.stage4.weight : ℝ) = 1 := by simp [RkStage.weight, fp_lit]
    simp only [hw1] at d1
    simp only [hw2] at d2
    simp only [hw3] at d3
    simp only [hw4] at d4
    refine ⟨x1, x2, x3, e1, s2, e2, s3, e3, s4, e4, q1, k1, ?_, q2, k2, ?_, q3, k3, ?_, q4, k4, f4,
      w4, ?_, ?_⟩
    · refine t2.congr (fun j => by rw [m1]) fun j hj st f => ?_
      simp only [halfG, vi _ j hj]
    · refine t3.congr (fun j => by rw [m2]) fun j hj st f => ?_
      simp only [halfG, vi _ j hj]
    · refine t4.congr (fun j => by rw [m3]) fun j hj st f => ?_
      simp only [fullG, vi _ j hj]
    · intro f j
      rw [v4, m4]
      by_cases hj : j < s.n
      · simp only [hj, if_true]
        congr 1
        · funext c
          rw [d4.pos c j (by omega), d3.pos c j (by omega), d2.pos c j (by omega),
            d1.pos c j (by omega), va _ j hj]
        · funext c
          rw [d4.vel c j (by omega), d3.vel c j (by omega), d2.vel c j (by omega),
            d1.vel c j (by omega), va _ j hj]
      · simp only [hj, if_false]
    · intro h0 f j
      rw [r4, mc4]
      by_cases hj : j < s.nc
      · simp only [hj, if_true]
        rw [d4.rows f j (by omega), d3.rows f j (by omega), d2.rows f j (by omega),
            d1.rows f j (by omega), ra h0 _ j (by omega)]
      · simp only [hj, if_false]

end Scs
