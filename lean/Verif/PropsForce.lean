import Verif.ForceSpec

/-!
# C42 to C45: force generators
-/

namespace Scs

open SysState Finset

variable {bodies : Nat → Body ℝ} {s : SysState ℝ} {n c i j : Nat} {g : Fld → Nat → ℝ}
  {r : CFld → Nat → ℝ} {w1 w2 u1 u2 : ℝ × ℝ}

/-- A state after force writes, as seen from outside. -/
theorem shows_after {s' : SysState ℝ} {g' : Fld → Nat → ℝ} (hr : s.Reach) (hs : s.Shows n c g r)
    (hf : ForceWrites s s') (hv : ∀ f k, k < n → s'.val f k = g' f k) : s'.Shows n c g' r := by
  have hw := hr.wf
  have h := (hf.wf hw).shows
  have hn : s'.n = n := by rw [hf.n, hs.bodies]
  have hc : s'.nc = c := by rw [hf.nc, hs.rows]
  rw [hn, hc] at h
  exact h.congr hv fun f k hk => by rw [hf.rval, hs.rval_eq hw f hk]

theorem forced_congr {g g' : Fld → Nat → ℝ} (hg : ∀ f k, k < n → g f k = g' f k) (hi : i < n)
    (w : ℝ × ℝ) (fx fy : ℝ) : ∀ f k, k < n → forced g i w fx fy f k = forced g' i w fx fy f k := by
  intro f k hk
  by_cases h : k = i
  · subst h; cases f <;> simp [forced, hg _ _ hk]
  · simp [forced, h, hg _ _ hk]

theorem torqued_congr {g g' : Fld → Nat → ℝ} (hg : ∀ f k, k < n → g f k = g' f k) (hi : i < n)
    (τ : ℝ) : ∀ f k, k < n → torqued g i τ f k = torqued g' i τ f k := by
  intro f k hk
  simp only [torqued, hg _ _ hk, hg _ _ hi]

theorem spring_shows {p : Spring ℝ} (hr : s.Reach) (hs : s.Shows n c g r)
    (h : SpringAt p bodies s i j w1 w2 u1 u2) {F : ℝ × ℝ}
    (hF : springForce p w1 w2 u1 u2 = F) :
    ∃ s', (Gen.spring p).apply bodies s = .ok s' ∧
      s'.Shows n c (forced (forced g i w1 F.1 F.2) j w2 (-F.1) (-F.2)) r ∧
      s'.dt = s.dt ∧ s'.indexMap = s.indexMap ∧ s'.Reach := by
  subst hF
  have hn := hs.bodies
  obtain ⟨s', e, o, f, v⟩ := spring_run (hr.wf.ok h.lt1) h
  have l1 := h.lt1; have l2 := h.lt2
  refine ⟨s', e, shows_after hr hs f fun q k hk => ?_, f.dt, f.indexMap, f.reach hr⟩
  rw [v]
  exact forced_congr (forced_congr (fun f k hk => hs.val_eq hr.wf f hk) (by omega) _ _ _)
    (by omega) _ _ _ q k hk

/-! ## C42 -/

/-- **C42**, for a spring that is at least 1e-2 long. `Spring::apply` adds to its first body, at its
attachment point, the force given by Hooke's law plus damping, to its second body the opposite
force, and changes nothing else. Missing: shorter springs, for which this fails
(`C42_short_spring`). The two bodies may be the same. -/
theorem C42_hooke_partial {p : Spring ℝ} (hr : s.Reach) (hs : s.Shows n c g r)
    (h : SpringAt p bodies s i j w1 w2 u1 u2) (hl : 1 / 100 ≤ distOf w1 w2) {F : ℝ × ℝ}
    (hF : F = hooke p.ks p.restLength p.kd w1 w2 u1 u2) :
    ∃ s', (Gen.spring p).apply bodies s = .ok s' ∧
      s'.Shows n c (forced (forced g i w1 F.1 F.2) j w2 (-F.1) (-F.2)) r ∧
      s'.dt = s.dt ∧ s'.indexMap = s.indexMap ∧ s'.Reach :=
  spring_shows hr hs h (by rw [springForce, if_pos hl, hF])

/-- **C42** fails for springs shorter than 1e-2: whatever the stiffness and rest length, the force
is the damping alone. -/
theorem C42_short_spring {p : Spring ℝ} (hr : s.Reach) (hs : s.Shows n c g r)
    (h : SpringAt p bodies s i j w1 w2 u1 u2) (hl : distOf w1 w2 < 1 / 100) {F : ℝ × ℝ}
    (hF : F = (p.kd * (u2.1 - u1.1), p.kd * (u2.2 - u1.2))) :
    ∃ s', (Gen.spring p).apply bodies s = .ok s' ∧
      s'.Shows n c (forced (forced g i w1 F.1 F.2) j w2 (-F.1) (-F.2)) r :=
  let ⟨s', e, h1, _⟩ := spring_shows hr hs h (F := F)
    (by rw [springForce, if_neg (not_le.2 hl), hF])
  ⟨s', e, h1⟩

/-- The size of the force Hooke's law asks for does not become small for short springs. -/
theorem C42_short_spring_wrong (k L : ℝ) (hd : 0 < distOf w1 w2) :
    (hooke k L 0 w1 w2 u1 u2).1 ^ 2 + (hooke k L 0 w1 w2 u1 u2).2 ^ 2
      = (k * (distOf w1 w2 - L)) ^ 2 := by
  have h2 : distOf w1 w2 ^ 2 = (w2.1 - w1.1) ^ 2 + (w2.2 - w1.2) ^ 2 := Real.sq_sqrt (by positivity)
  have e : ∀ a : ℝ, hooke k L 0 w1 w2 u1 u2 =
    (k * (distOf w1 w2 - L) * ((w2.1 - w1.1) / distOf w1 w2),
     k * (distOf w1 w2 - L) * ((w2.2 - w1.2) / distOf w1 w2)) := by
    intro _; simp [hooke, distOf]
  rw [e 0]
  have : (w2.1 - w1.1) ^ 2 / distOf w1 w2 ^ 2 + (w2.2 - w1.2) ^ 2 / distOf w1 w2 ^ 2 = 1 := by
    rw [← add_div, ← h2, div_self (by positivity)]
  calc _ = (k * (distOf w1 w2 - L)) ^ 2 *
        ((w2.1 - w1.1) ^ 2 / distOf w1 w2 ^ 2 + (w2.2 - w1.2) ^ 2 / distOf w1 w2 ^ 2) := by ring
    _ = _ := by rw [this, mul_one]

/-- **C42.** For every length the forces on the two bodies are opposite, and the total force
recorded in the state does not change. -/
theorem C42_action_reaction {p : Spring ℝ} (hr : s.Reach) (hs : s.Shows n c g r)
    (h : SpringAt p bodies s i j w1 w2 u1 u2) :
    ∃ s' fx fy g', (Gen.spring p).apply bodies s = .ok s' ∧ s'.Shows n c g' r ∧
      g' = forced (forced g i w1 fx fy) j w2 (-fx) (-fy) ∧
      netForceX n g' = netForceX n g ∧ netForceY n g' = netForceY n g := by
  have hn := hs.bodies; have l1 := h.lt1; have l2 := h.lt2
  obtain ⟨s', e, h1, _⟩ := spring_shows hr hs h rfl
  refine ⟨s', _, _, _, e, h1, rfl, ?_, ?_⟩
  · rw [(forced_net (by omega) _ _ _ _).1, (forced_net (by omega) _ _ _ _).1]; ring
  · rw [(forced_net (by omega) _ _ _ _).2.1, (forced_net (by omega) _ _ _ _).2.1]; ring

/-- **C42.** The exact change of the total torque about the origin, for every length: the damping
force acts along the relative velocity, not along the spring, and so has a moment. -/
theorem C42_net_torque {p : Spring ℝ} (hr : s.Reach) (hs : s.Shows n c g r)
    (h : SpringAt p bodies s i j w1 w2 u1 u2) :
    ∃ s' g', (Gen.spring p).apply bodies s = .ok s' ∧ s'.Shows n c g' r ∧
      netTorque n g' = netTorque n g -
        p.kd * ((w2.1 - w1.1) * (u2.2 - u1.2) - (w2.2 - w1.2) * (u2.1 - u1.1)) := by
  have hn := hs.bodies; have l1 := h.lt1; have l2 := h.lt2
  obtain ⟨s', e, h1, _⟩ := spring_shows hr hs h rfl
  refine ⟨s', _, e, h1, ?_⟩
  rw [(forced_net (by omega) _ _ _ _).2.2, (forced_net (by omega) _ _ _ _).2.2]
  simp only [springForce]
  split
  · simp only [hooke]; ring
  · simp only []; ring

/-- **C42**, no net torque, for springs without damping. Missing: springs with damping
(`C42_damping_torque`). -/
theorem C42_no_net_torque_partial {p : Spring ℝ} (hr : s.Reach) (hs : s.Shows n c g r)
    (h : SpringAt p bodies s i j w1 w2 u1 u2) (hd : p.kd = 0) :
    ∃ s' g', (Gen.spring p).apply bodies s = .ok s' ∧ s'.Shows n c g' r ∧
      netTorque n g' = netTorque n g := by
  obtain ⟨s', g', e, h1, h2⟩ := C42_net_torque hr hs h
  exact ⟨s', g', e, h1, by rw [h2, hd]; ring⟩

/-- A state of two bodies at `(0, 0)` and `(x, 0)`, the second moving with velocity `(0, v)`, and a
spring between their centres. -/
theorem demo_spring (x v k L d : ℝ) : ∃ (s : SysState ℝ) (bodies : Nat → Body ℝ) (p : Spring ℝ)
    (g : Fld → Nat → ℝ) (r : CFld → Nat → ℝ), s.Reach ∧ s.Shows 2 1 g r ∧
    p.ks = k ∧ p.restLength = L ∧ p.kd = d ∧
    SpringAt p bodies s 0 1 (0, 0) (x, 0) (0, 0) (0, v) := by
  obtain ⟨s, hr, hs⟩ := reach_shows (α := ℝ) 2 1 (by decide)
    (fun f i => match f with | .p_x => if i = 0 then 0 else x | .v_y => if i = 0 then 0 else v | _ => 0)
    (fun _ _ => 7)
  have f0 := fun f => hs.fld f 0 (by decide)
  have f1 := fun f => hs.fld f 1 (by decide)
  have hn := hs.bodies
  refine ⟨s, fun b => ⟨0, 0, 0, 0, 0, 0, 0, 0, b⟩, ⟨L, k, d, 0, 0, 0, 0, .obj 0, .obj 1⟩, _, _, hr, hs,
    rfl, rfl, rfl, ⟨0, rfl, rfl⟩, ⟨1, rfl, rfl⟩, by omega, by omega, ?_, ?_, ?_, ?_⟩
  · simp only [SysState.localToWorld, f0, ok_bind]; simp; rfl
  · simp only [SysState.localToWorld, f1, ok_bind]; simp; rfl
  · simp only [SysState.velocityAtPoint, SysState.localToWorld, f0, ok_bind, pure, Except.pure]
    simp [bind, Except.bind]
  · simp only [SysState.velocityAtPoint, SysState.localToWorld, f1, ok_bind, pure, Except.pure]
    simp [bind, Except.bind]

example : ∃ (s : SysState ℝ) (bodies : Nat → Body ℝ) (p : Spring ℝ)
    (g : Fld → Nat → ℝ) (r : CFld → Nat → ℝ), s.Reach ∧ s.Shows 2 1 g r ∧
    p.ks = 5 ∧ p.restLength = 1 ∧ p.kd = 3 ∧
    SpringAt p bodies s 0 1 (0, 0) (2, 0) (0, 0) (0, 4) ∧ 1 / 100 ≤ distOf (0, 0) (2, 0) := by
  obtain ⟨s, b, p, g, r, h1, h2, h3, h4, h5, h6⟩ := demo_spring 2 4 5 1 3
  refine ⟨s, b, p, g, r, h1, h2, h3, h4, h5, h6, ?_⟩
  rw [distOf, Real.le_sqrt' (by norm_num)]; norm_num

example : ∃ (s : SysState ℝ) (bodies : Nat → Body ℝ) (p : Spring ℝ)
    (g : Fld → Nat → ℝ) (r : CFld → Nat → ℝ), s.Reach ∧ s.Shows 2 1 g r ∧
    p.ks = 5 ∧ p.restLength = 1 ∧ p.kd = 0 ∧
    SpringAt p bodies s 0 1 (0, 0) (1 / 1000, 0) (0, 0) (0, 4) ∧
    distOf (0, 0) (1 / 1000, 0) < 1 / 100 := by
  obtain ⟨s, b, p, g, r, h1, h2, h3, h4, h5, h6⟩ := demo_spring (1 / 1000) 4 5 1 0
  refine ⟨s, b, p, g, r, h1, h2, h3, h4, h5, h6, ?_⟩
  rw [distOf, Real.sqrt_lt' (by norm_num)]; norm_num

/-- **C42** fails with damping: a spring at its rest length between two bodies of which one moves
sideways changes the total torque. -/
theorem C42_damping_torque : ∃ (s s' : SysState ℝ) (bodies : Nat → Body ℝ) (p : Spring ℝ)
    (g g' : Fld → Nat → ℝ) (r : CFld → Nat → ℝ), s.Reach ∧ s.Shows 2 1 g r ∧
    (Gen.spring p).apply bodies s = .ok s' ∧ s'.Shows 2 1 g' r ∧
    netTorque 2 g' = netTorque 2 g - 1 := by
  obtain ⟨s, b, p, g, r, h1, h2, h3, h4, h5, h6⟩ := demo_spring 1 1 1 1 1
  obtain ⟨s', g', e, hs', ht⟩ := C42_net_torque h1 h2 h6
  exact ⟨s, s', b, p, g, g', r, h1, h2, e, hs', by rw [ht, h5]; norm_num⟩

/-- **C42.** A spring that is not attached at both ends does nothing. -/
theorem C42_detached {α : Type} [Zero α] [Add α] [Mul α] [Sub α] [Neg α] [Fp α] {p : Spring α}
    {bodies : Nat → Body α} (h : p.body1 = .null ∨ (∃ b, p.body1 = .obj b) ∧ p.body2 = .null)
    (s : SysState α) : (Gen.spring p).apply bodies s = .ok s := by
  rcases h with h | ⟨⟨b, h1⟩, h2⟩
  · simp only [Gen.apply, Spring.apply, h, Ptr.isNull, ok_bind, if_true]; rfl
  · simp only [Gen.apply, Spring.apply, h1, h2, Ptr.isNull, ok_bind, if_true]; rfl

example : (Spring.default : Spring ℝ).body1 = .null := rfl

/-! ## C43 -/

/-- **C43** fails for springs: with an end attached to a body that is not part of the system
(index -1), `apply` is undefined behaviour, in every state, wherever the body is. -/
theorem C43_spring_undefined {p : Spring ℝ} (hr : s.Reach) {b1 b2 : Nat} (h1 : p.body1 = .obj b1)
    (h2 : p.body2 = .obj b2) (h : (bodies b1).index = -1 ∨ (bodies b2).index = -1) :
    ∃ e, e.IsUB ∧ (Gen.spring p).apply bodies s = .error e := by
  have key : ∀ (t : SysState ℝ), t.Reach → ∀ x y fx fy, ∃ e, e.IsUB ∧
      t.applyForce x y fx fy (-1) = .error e := fun t ht x y fx fy =>
    C28_applyForce_outside t ht (-1) (Or.inl (by decide)) x y fx fy
  have ends : ∀ b x y, (∃ q, springEnd bodies b x y s = .ok q ∧
      ((bodies b).index = -1 ∨ 0 ≤ (bodies b).index ∧ (bodies b).index < s.n)) ∨
      ∃ e, e.IsUB ∧ springEnd bodies b x y s = .error e := by
    intro b x y
    by_cases hb : (bodies b).index = -1
    · left; simp only [springEnd, hb]; exact ⟨_, if_neg (by decide), Or.inl trivial⟩
    · by_cases hin : 0 ≤ (bodies b).index ∧ (bodies b).index < s.n
      · left
        obtain ⟨k, hk⟩ := Int.eq_ofNat_of_zero_le hin.1
        have hk' : k < s.n := by omega
        have ho := hr.wf.ok hk'
        rw [hk]
        obtain ⟨w, hw⟩ : ∃ w, s.localToWorld x y k = .ok w := by
          simp only [SysState.localToWorld, ho.rd _ hk', ok_bind]; exact ⟨_, rfl⟩
        obtain ⟨u, hu⟩ : ∃ u, s.velocityAtPoint x y k = .ok u := by
          simp only [SysState.velocityAtPoint, hw, ho.rd _ hk', ok_bind]; exact ⟨_, rfl⟩
        exact ⟨(w, u), springEnd_in hk hw hu, Or.inr ⟨by omega, by omega⟩⟩
      · right
        obtain ⟨e, he, hk⟩ := hr.tight.rd_outside .p_x (bodies b).index (by omega)
        refine ⟨e, he, ?_⟩
        simp only [springEnd]
        rw [if_pos hb]
        simp only [SysState.localToWorld, hk, error_bind]
  have e0 : (Gen.spring p).apply bodies s = p.pull bodies b1 b2 s := by
    simp [Gen.apply, Spring.apply, h1, h2, Ptr.isNull, Ptr.get, ok_bind]
  rw [e0]
  simp only [Spring.pull]
  rcases ends b1 p.p1_x p.p1_y with ⟨q1, hq1, i1⟩ | ⟨e, he, hk⟩
  swap; · exact ⟨e, he, by rw [hk, error_bind]⟩
  rcases ends b2 p.p2_x p.p2_y with ⟨q2, hq2, i2⟩ | ⟨e, he, hk⟩
  swap; · exact ⟨e, he, by rw [hq1, ok_bind, hk, error_bind]⟩
  rw [hq1, ok_bind, hq2, ok_bind, springDir_real, ok_bind]
  rcases i1 with i1 | i1
  · rw [i1]
    obtain ⟨e, he, hk⟩ := key s hr p.p1_x p.p1_y _ _
    exact ⟨e, he, by rw [hk, error_bind]⟩
  · have i2' : (bodies b2).index = -1 := by rcases h with h | h <;> omega
    rw [i2']
    cases hx : s.applyForce p.p1_x p.p1_y _ _ (bodies b1).index with
    | error e =>
      exfalso
      obtain ⟨k, hk⟩ := Int.eq_ofNat_of_zero_le i1.1
      have hk' : k < s.n := by omega
      have ho := hr.wf.ok hk'
      obtain ⟨s', e', _⟩ := applyForce_spec ho hk' p.p1_x p.p1_y _ _
        (w := (Fp.cos (s.val .theta k) * p.p1_x - Fp.sin (s.val .theta k) * p.p1_y + s.val .p_x k,
          Fp.sin (s.val .theta k) * p.p1_x + Fp.cos (s.val .theta k) * p.p1_y + s.val .p_y k))
        (by simp only [SysState.localToWorld, ho.rd _ hk', ok_bind, pure, Except.pure])
      rw [hk, e'] at hx
      cases hx
    | ok s1 =>
      obtain ⟨e, he, hk⟩ := key s1 (((fw_applyForce ..).of_eq hx).reach hr) p.p2_x p.p2_y _ _
      exact ⟨e, he, by rw [ok_bind, hk]⟩

example : ∃ (s : SysState ℝ) (bodies : Nat → Body ℝ) (p : Spring ℝ), s.Reach ∧
    p.body1 = .obj 0 ∧ p.body2 = .obj 1 ∧ (bodies 0).index = -1 ∧ (bodies 1).index = 0 ∧ s.n = 1 := by
  obtain ⟨s, hr, hs⟩ := reach_shows (α := ℝ) 1 1 (by decide) (fun _ _ => 0) (fun _ _ => 7)
  exact ⟨s, fun b => ⟨0, 0, 0, 0, 0, 0, 0, 0, if b = 0 then -1 else 0⟩,
    ⟨1, 1, 1, 0, 0, 0, 0, .obj 0, .obj 1⟩, hr, rfl, rfl, rfl, rfl, hs.bodies⟩

/-- **C43** fails for static force generators. -/
theorem C43_static_undefined {p : StaticForce ℝ} (hr : s.Reach) {b : Nat} (h1 : p.body = .obj b)
    (h : (bodies b).index = -1) :
    ∃ e, e.IsUB ∧ (Gen.static p).apply bodies s = .error e := by
  obtain ⟨e, he, hk⟩ := C28_applyForce_outside s hr (-1) (Or.inl (by decide)) p.p_x p.p_y p.f_x p.f_y
  exact ⟨e, he, by simp only [Gen.apply, h1, Ptr.get, ok_bind, h, hk]⟩

example : ∃ (s : SysState ℝ) (bodies : Nat → Body ℝ) (p : StaticForce ℝ), s.Reach ∧
    p.body = .obj 0 ∧ (bodies 0).index = -1 ∧ s.n = 1 := by
  obtain ⟨s, hr, hs⟩ := reach_shows (α := ℝ) 1 1 (by decide) (fun _ _ => 0) (fun _ _ => 7)
  exact ⟨s, fun _ => ⟨0, 0, 0, 0, 0, 0, 0, 0, -1⟩, ⟨1, 2, 0, 0, .obj 0⟩, hr, rfl, rfl, hs.bodies⟩

/-- **C43** holds for the first body of a motor: with `m_body0` outside the system (whatever its
velocity) the motor treats it as standing still and turns only the other body. Missing: the second
body of a motor (`C43_motor_undefined`), springs, static forces. -/
theorem C43_motor_partial {p : Motor ℝ} (hr : s.Reach) (hs : s.Shows n c g r) {b0 b1 : Nat}
    (h0 : p.body0 = .obj b0) (h1 : p.body1 = .obj b1) (hi : (bodies b0).index = -1)
    (hj : (bodies b1).index = j) (hjn : j < n) (hm : 0 ≤ p.maxTorque) {τ0 : ℝ}
    (hτ : τ0 = p.ks * (p.speed - g .v_theta j) - p.kd * g .a_theta j) :
    ∃ s' τ, (Gen.motor p).apply bodies s = .ok s' ∧ s'.Shows n c (torqued g j τ) r ∧
      |τ| ≤ p.maxTorque ∧ (|τ0| ≤ p.maxTorque → τ = τ0) ∧
      (p.maxTorque < τ0 → τ = p.maxTorque) ∧ (τ0 < -p.maxTorque → τ = -p.maxTorque) ∧
      s'.dt = s.dt ∧ s'.indexMap = s.indexMap ∧ s'.Reach := by
  have hn := hs.bodies
  obtain ⟨s', τ, e, o, f, hτ', v⟩ := motor_fixed_run (hr.wf.ok (i := j) (by omega)) h0 h1 hi hj (by omega)
  obtain ⟨a1, a2, a3, a4⟩ := clamp_fp _ _ _ hτ' hm
  have e0 : motorTorque p 0 0 (s.val .v_theta j) (s.val .a_theta j) = τ0 := by
    rw [hτ, motorTorque, hs.val_eq hr.wf _ hjn, hs.val_eq hr.wf _ hjn]; ring
  rw [e0] at a2 a3 a4
  refine ⟨s', τ, e, shows_after hr hs f fun q k hk => ?_, a1, a2, a3, a4, f.dt, f.indexMap, f.reach hr⟩
  rw [v]
  exact torqued_congr (fun f k hk => hs.val_eq hr.wf f hk) hjn _ q k hk

/-- **C43** fails for the second body of a motor. -/
theorem C43_motor_undefined {p : Motor ℝ} (hr : s.Reach) {b0 b1 : Nat}
    (h0 : p.body0 = .obj b0) (h1 : p.body1 = .obj b1) (h : (bodies b1).index = -1) :
    ∃ e, e.IsUB ∧ (Gen.motor p).apply bodies s = .error e := by
  obtain ⟨e, he, hk⟩ := hr.tight.rd_outside .v_theta (-1) (Or.inl (by decide))
  have rdi : ∀ f, (∃ v, motorRead s f (bodies b0).index = .ok v) ∨
      ∃ e, e.IsUB ∧ motorRead s f (bodies b0).index = .error e := by
    intro f
    by_cases hb : (bodies b0).index = -1
    · left; exact ⟨_, if_pos hb⟩
    · simp only [motorRead, if_neg hb]
      by_cases hin : 0 ≤ (bodies b0).index ∧ (bodies b0).index < s.n
      · left
        obtain ⟨k, hk⟩ := Int.eq_ofNat_of_zero_le hin.1
        rw [hk]
        exact ⟨_, (hr.wf.ok (i := k) (by omega)).rd f (by omega)⟩
      · right
        exact hr.tight.rd_outside f _ (by omega)
  simp only [Gen.apply, Motor.apply, h0, h1, Ptr.get, ok_bind, h]
  rcases rdi .v_theta with ⟨v, hv⟩ | ⟨e', he', hk'⟩
  swap; · exact ⟨e', he', by rw [hk', error_bind]⟩
  rcases rdi .a_theta with ⟨a, ha⟩ | ⟨e', he', hk'⟩
  swap; · exact ⟨e', he', by rw [hv, ok_bind, hk', error_bind]⟩
  exact ⟨e, he, by rw [hv, ok_bind, ha, ok_bind, hk, error_bind]⟩

/-- A motor in a state of three bodies turning with angular velocity 2; body 0 is outside. -/
theorem demo_motor (b0 b1 : Nat) : ∃ (s : SysState ℝ) (bodies : Nat → Body ℝ) (p : Motor ℝ)
    (g : Fld → Nat → ℝ) (r : CFld → Nat → ℝ), s.Reach ∧ s.Shows 3 1 g r ∧ g .v_theta 1 = 2 ∧
    p.body0 = .obj b0 ∧ p.body1 = .obj b1 ∧ (bodies 0).index = -1 ∧ (bodies 0).v_theta = 9 ∧
    (bodies 1).index = (1 : Nat) ∧ (bodies 2).index = (2 : Nat) ∧ 0 ≤ p.maxTorque := by
  obtain ⟨s, hr, hs⟩ := reach_shows (α := ℝ) 3 1 (by decide) (fun _ _ => 2) (fun _ _ => 7)
  exact ⟨s, fun b => ⟨0, 0, 0, 0, 0, 9, 0, 0, if b = 0 then -1 else b⟩,
    ⟨1, 1, 500, 1, .obj b0, .obj b1⟩, _, _, hr, hs, rfl, rfl, rfl, rfl, rfl, rfl, rfl, by norm_num⟩

/-- `C43_motor_partial`: a motor from the world to body 1. -/
example := demo_motor 0 1
/-- `C43_motor_undefined`: a motor from body 1 to the world. -/
example := demo_motor 1 0

/-! ## C44 -/

/-- **C44.** A motor between bodies `i` and `j` of the state subtracts a torque from the one and
adds it to the other and changes nothing else. The torque does not exceed `m_maxTorque`, and inside
the limit it is `ks * (speed - relative speed) - kd * relative acceleration`; beyond the limit it
saturates. The total torque does not change. -/
theorem C44_motor {p : Motor ℝ} (hr : s.Reach) (hs : s.Shows n c g r) {b0 b1 : Nat}
    (h0 : p.body0 = .obj b0) (h1 : p.body1 = .obj b1) (hi : (bodies b0).index = i)
    (hj : (bodies b1).index = j) (hin : i < n) (hjn : j < n) (hm : 0 ≤ p.maxTorque) {τ0 : ℝ}
    (hτ : τ0 = p.ks * (p.speed - (g .v_theta j - g .v_theta i))
      - p.kd * (g .a_theta j - g .a_theta i)) :
    ∃ s' τ, (Gen.motor p).apply bodies s = .ok s' ∧
      s'.Shows n c (torqued (torqued g i (-τ)) j τ) r ∧
      |τ| ≤ p.maxTorque ∧ (|τ0| ≤ p.maxTorque → τ = τ0) ∧
      (p.maxTorque < τ0 → τ = p.maxTorque) ∧ (τ0 < -p.maxTorque → τ = -p.maxTorque) ∧
      netTorque n (torqued (torqued g i (-τ)) j τ) = netTorque n g ∧
      s'.dt = s.dt ∧ s'.indexMap = s.indexMap ∧ s'.Reach := by
  have hn := hs.bodies
  obtain ⟨s', τ, e, o, f, hτ', v⟩ := motor_run (hr.wf.ok (i := i) (by omega)) h0 h1 hi hj
    (by omega) (by omega)
  obtain ⟨a1, a2, a3, a4⟩ := clamp_fp _ _ _ hτ' hm
  have e0 : motorTorque p (s.val .v_theta i) (s.val .a_theta i) (s.val .v_theta j)
      (s.val .a_theta j) = τ0 := by
    rw [hτ, motorTorque, hs.val_eq hr.wf _ hjn, hs.val_eq hr.wf _ hjn, hs.val_eq hr.wf _ hin,
      hs.val_eq hr.wf _ hin]
  rw [e0] at a2 a3 a4
  refine ⟨s', τ, e, shows_after hr hs f fun q k hk => ?_, a1, a2, a3, a4, ?_, f.dt, f.indexMap,
    f.reach hr⟩
  · rw [v]
    exact torqued_congr (torqued_congr (fun f k hk => hs.val_eq hr.wf f hk) hin _) hjn _ q k hk
  · have bump : ∀ (g : Fld → Nat → ℝ) (i : Nat) (τ : ℝ), i < n →
        netTorque n (torqued g i τ) = netTorque n g + τ := by
      intro g i τ hi
      refine sum_bump hi ?_ ?_
      · simp [torqued]; ring
      · intro k hk; simp [torqued, hk]
    rw [bump _ _ _ hjn, bump _ _ _ hin]; ring

/-- A motor from body 1 to body 2. -/
example := demo_motor 1 2

/-! ## C45 -/

/-- **C45.** Gravity adds `-m*g` to the vertical force of every body of the state and changes
nothing else. -/
theorem C45_gravity (hr : s.Reach) (hs : s.Shows n c g r) (a : ℝ) :
    ∃ s', (Gen.gravity a).apply bodies s = .ok s' ∧
      s'.Shows n c (fun f k => if f = .f_y then g .f_y k - g .m k * a else g f k) r ∧
      s'.dt = s.dt ∧ s'.indexMap = s.indexMap ∧ s'.Reach := by
  have hn := hs.bodies
  obtain ⟨s', e, f, v⟩ := gravity_run (g := a) (bodies := bodies) hr.wf
  refine ⟨s', e, shows_after hr hs f fun q k hk => ?_, f.dt, f.indexMap, f.reach hr⟩
  rw [v, hn]
  by_cases hq : q = .f_y
  · simp [hq, hk, hs.val_eq hr.wf _ hk]; ring
  · simp [hq, hs.val_eq hr.wf _ hk]

example : ∃ (s : SysState ℝ) (g : Fld → Nat → ℝ) (r : CFld → Nat → ℝ), s.Reach ∧ s.Shows 5 3 g r ∧
    g .m 2 = 4 := by
  obtain ⟨s, hr, hs⟩ := reach_shows (α := ℝ) 5 3 (by decide) (fun _ i => i + 2) (fun _ _ => 7)
  exact ⟨s, _, _, hr, hs, by norm_num⟩

/-- **C45.** A static force generator adds its force, and the moment of its force at its point of
attack, to its body and changes nothing else. -/
theorem C45_static {p : StaticForce ℝ} (hr : s.Reach) (hs : s.Shows n c g r) {b : Nat}
    (hb : p.body = .obj b) (hi : (bodies b).index = i) (hin : i < n) {w : ℝ × ℝ}
    (hw : s.localToWorld p.p_x p.p_y i = .ok w) :
    ∃ s', (Gen.static p).apply bodies s = .ok s' ∧ s'.Shows n c (forced g i w p.f_x p.f_y) r ∧
      s'.dt = s.dt ∧ s'.indexMap = s.indexMap ∧ s'.Reach := by
  obtain ⟨s', e, h⟩ := C28_applyForce s hr hs i hin p.p_x p.p_y p.f_x p.f_y w hw
  exact ⟨s', by simp only [Gen.apply, hb, Ptr.get, ok_bind, hi, e], h⟩

example : ∃ (s : SysState ℝ) (bodies : Nat → Body ℝ) (p : StaticForce ℝ)
    (g : Fld → Nat → ℝ) (r : CFld → Nat → ℝ) (w : ℝ × ℝ), s.Reach ∧ s.Shows 2 1 g r ∧
    p.body = .obj 7 ∧ (bodies 7).index = (1 : Nat) ∧ p.f_x = 3 ∧
    s.localToWorld p.p_x p.p_y (1 : Nat) = .ok w := by
  obtain ⟨s, hr, hs⟩ := reach_shows (α := ℝ) 2 1 (by decide)
    (fun f _ => match f with | .p_x => 5 | .theta => 3 | _ => 1) (fun _ _ => 7)
  exact ⟨s, fun b => ⟨0, 0, 0, 0, 0, 0, 0, 0, if b = 7 then 1 else 0⟩, ⟨3, 4, 1, 2, .obj 7⟩, _, _, _,
    hr, hs, rfl, rfl, rfl, C26_state_agrees s _ ⟨5, 1, 0, 0, 3, 0, 0, 0, 1⟩
    (hs.fld .p_x 1 (by decide)) (hs.fld .p_y 1 (by decide)) (hs.fld .theta 1 (by decide)) 1 2⟩

/-! ## C64 -/

/-- The time derivative of the distance of two moving points. -/
theorem distOf_deriv {x1 y1 x2 y2 : ℝ → ℝ} {t : ℝ} (h1 : HasDerivAt x1 u1.1 t)
    (h2 : HasDerivAt y1 u1.2 t) (h3 : HasDerivAt x2 u2.1 t) (h4 : HasDerivAt y2 u2.2 t)
    (hd : distOf (x1 t, y1 t) (x2 t, y2 t) ≠ 0) :
    HasDerivAt (fun τ => distOf (x1 τ, y1 τ) (x2 τ, y2 τ))
      (((x2 t - x1 t) * (u2.1 - u1.1) + (y2 t - y1 t) * (u2.2 - u1.2)) /
        distOf (x1 t, y1 t) (x2 t, y2 t)) t := by
  have e : HasDerivAt (fun τ => (x2 τ - x1 τ) ^ 2 + (y2 τ - y1 τ) ^ 2)
      (2 * ((x2 t - x1 t) * (u2.1 - u1.1) + (y2 t - y1 t) * (u2.2 - u1.2))) t := by
    have := (((h3.sub h1).pow 2).add ((h4.sub h2).pow 2))
    refine this.congr_deriv ?_
    simp; ring
  have hne : (x2 t - x1 t) ^ 2 + (y2 t - y1 t) ^ 2 ≠ 0 := by
    intro h; apply hd; simp [distOf, h]
  refine (e.sqrt hne).congr_deriv ?_
  simp only [distOf]
  rw [mul_div_mul_left _ _ (by norm_num)]

/-- **C64.** `Spring::energy` is the potential energy of the elastic force: while its two bodies
move in any way, it changes at minus the power of the forces Hooke's law gives for its ends.
`u1`, `u2` are the velocities of the attachment points. -/
theorem C64_energy_is_potential {p : Spring ℝ} {bodies : ℝ → Nat → Body ℝ} {b1 b2 : Nat} {t : ℝ}
    (h1 : p.body1 = .obj b1) (h2 : p.body2 = .obj b2)
    (hw1 : ((bodies t) b1).localToWorld p.p1_x p.p1_y = w1)
    (hw2 : ((bodies t) b2).localToWorld p.p2_x p.p2_y = w2)
    (dx1 : HasDerivAt (fun τ => ((bodies τ b1).localToWorld p.p1_x p.p1_y).1) u1.1 t)
    (dy1 : HasDerivAt (fun τ => ((bodies τ b1).localToWorld p.p1_x p.p1_y).2) u1.2 t)
    (dx2 : HasDerivAt (fun τ => ((bodies τ b2).localToWorld p.p2_x p.p2_y).1) u2.1 t)
    (dy2 : HasDerivAt (fun τ => ((bodies τ b2).localToWorld p.p2_x p.p2_y).2) u2.2 t)
    (hl : w1 ≠ w2) {F : ℝ × ℝ} (hF : F = hooke p.ks p.restLength 0 w1 w2 u1 u2) :
    ∃ E : ℝ → ℝ, (∀ τ, p.energy (bodies τ) = .ok (E τ)) ∧ (∀ τ, 0 ≤ p.ks → 0 ≤ E τ) ∧
      HasDerivAt E (-((F.1 * u1.1 + F.2 * u1.2) + (-F.1 * u2.1 + -F.2 * u2.2))) t := by
  subst hw1 hw2
  set l := fun τ => distOf ((bodies τ b1).localToWorld p.p1_x p.p1_y)
    ((bodies τ b2).localToWorld p.p2_x p.p2_y) with hldef
  refine ⟨fun τ => 1 / 2 * p.ks * (l τ - p.restLength) * (l τ - p.restLength), fun τ => ?_,
    fun τ hk => ?_, ?_⟩
  · simp only [Spring.energy, h1, h2, Ptr.isNull, Ptr.get, ok_bind]
    rw [if_neg (by decide), if_neg (by decide), fp_lit]
    have : Fp.sqrt ((((bodies τ b2).localToWorld p.p2_x p.p2_y).1 -
        ((bodies τ b1).localToWorld p.p1_x p.p1_y).1) *
      (((bodies τ b2).localToWorld p.p2_x p.p2_y).1 -
        ((bodies τ b1).localToWorld p.p1_x p.p1_y).1) +
      (((bodies τ b2).localToWorld p.p2_x p.p2_y).2 -
        ((bodies τ b1).localToWorld p.p1_x p.p1_y).2) *
      (((bodies τ b2).localToWorld p.p2_x p.p2_y).2 -
        ((bodies τ b1).localToWorld p.p1_x p.p1_y).2)) = l τ := by
      simp only [hldef, distOf, sq]; rfl
    rw [this]
    push_cast
    rfl
  · have : 0 ≤ (l τ - p.restLength) ^ 2 := sq_nonneg _
    nlinarith [mul_nonneg hk this]
  · have hd : l t ≠ 0 := by
      intro h0
      apply hl
      have := (Real.sqrt_eq_zero (by positivity)).1 h0
      have a1 : (((bodies t b2).localToWorld p.p2_x p.p2_y).1 -
        ((bodies t b1).localToWorld p.p1_x p.p1_y).1) = 0 := by nlinarith [sq_nonneg (((bodies t b2).localToWorld p.p2_x p.p2_y).2 -
        ((bodies t b1).localToWorld p.p1_x p.p1_y).2)]
      have a2 : (((bodies t b2).localToWorld p.p2_x p.p2_y).2 -
        ((bodies t b1).localToWorld p.p1_x p.p1_y).2) = 0 := by nlinarith [sq_nonneg (((bodies t b2).localToWorld p.p2_x p.p2_y).1 -
        ((bodies t b1).localToWorld p.p1_x p.p1_y).1)]
      exact Prod.ext (by linarith) (by linarith)
    have dl : HasDerivAt l ((((((bodies t b2).localToWorld p.p2_x p.p2_y).1 -
        ((bodies t b1).localToWorld p.p1_x p.p1_y).1) * (u2.1 - u1.1) +
        (((bodies t b2).localToWorld p.p2_x p.p2_y).2 -
        ((bodies t b1).localToWorld p.p1_x p.p1_y).2) * (u2.2 - u1.2)) / l t)) t := distOf_deriv (u1 := u1) (u2 := u2) dx1 dy1 dx2 dy2 hd
    have := (((dl.sub_const p.restLength).mul (dl.sub_const p.restLength)).const_mul (1 / 2 * p.ks))
    refine (this.congr_of_eventuallyEq (Filter.Eventually.of_forall fun τ => ?_)).congr_deriv ?_
    · simp; ring
    · have el : distOf ((bodies t b1).localToWorld p.p1_x p.p1_y)
        ((bodies t b2).localToWorld p.p2_x p.p2_y) = l t := rfl
      have hk : ∀ u1 u2, hooke p.ks p.restLength 0 ((bodies t b1).localToWorld p.p1_x p.p1_y)
        ((bodies t b2).localToWorld p.p2_x p.p2_y) u1 u2 =
        (p.ks * (l t - p.restLength) * ((((bodies t b2).localToWorld p.p2_x p.p2_y).1 -
          ((bodies t b1).localToWorld p.p1_x p.p1_y).1) / l t),
        p.ks * (l t - p.restLength) * ((((bodies t b2).localToWorld p.p2_x p.p2_y).2 -
          ((bodies t b1).localToWorld p.p1_x p.p1_y).2) / l t)) := by
        intro u1 u2; simp [hooke, hldef, distOf]
      subst hF
      rw [hk]
      simp only [Prod.mk.eta, el]
      field_simp
      ring

/-- Two bodies moving apart. -/
example : ∃ (p : Spring ℝ) (bodies : ℝ → Nat → Body ℝ),
    p.body1 = .obj 0 ∧ p.body2 = .obj 1 ∧ p.ks = 3 ∧
    (bodies 2 0).localToWorld p.p1_x p.p1_y = (0, 0) ∧
    (bodies 2 1).localToWorld p.p2_x p.p2_y = (4, 0) ∧
    HasDerivAt (fun τ => ((bodies τ 1).localToWorld p.p2_x p.p2_y).1) 2 2 := by
  refine ⟨⟨1, 3, 0, 0, 0, 0, 0, .obj 0, .obj 1⟩,
    fun τ b => ⟨if b = 0 then 0 else 2 * τ, 0, 0, 0, 0, 0, 0, 0, b⟩, rfl, rfl, rfl, ?_, ?_, ?_⟩
  · simp [Body.localToWorld]
  · simp [Body.localToWorld]; norm_num
  · have := (hasDerivAt_id (2 : ℝ)).const_mul 2
    simpa [Body.localToWorld] using this

/-- **C64.** `getEnds` reports the world positions of the attachment points. -/
theorem C64_getEnds {p : Spring ℝ} {b1 b2 : Nat} (h1 : p.body1 = .obj b1) (h2 : p.body2 = .obj b2) :
    p.getEnds bodies = .ok (some ((bodies b1).localToWorld p.p1_x p.p1_y,
      (bodies b2).localToWorld p.p2_x p.p2_y)) := by
  simp only [Spring.getEnds, h1, h2, Ptr.isNull, Ptr.get, ok_bind]
  rw [if_neg (by decide), if_neg (by decide)]; rfl

end Scs
