import Verif.PropsConstraint
import Verif.PropsForce
import Verif.PropsConfig

/-!
# Constraints and force generators as constructed

C102: what the constructors and the setters of constraints and force generators provide.
-/

namespace Scs

/-! ## Specification -/

/-- The constraint as its constructor leaves it, one for each class. -/
inductive CKind.New : CKind ℝ → Prop
  | fixedPosition : CKind.New (.fixedPosition .default)
  | fixedRotation : CKind.New (.fixedRotation .default)
  | line : CKind.New (.line .default)
  | link : CKind.New (.link .default)
  | rolling : CKind.New (.rolling .default)
  | constantRotation : CKind.New (.constantRotation .default)
  | clutch : CKind.New (.clutch .default)
  | rotationFriction : CKind.New (.rotationFriction .default)
  | simpleGear : CKind.New (.simpleGear .default)

/-- The first row of a rolling constraint. -/
def CKind.IsRollRow : CKind ℝ → Nat → Prop
  | .rolling _, 0 => True
  | _, _ => False

section
variable {idx : Nat → Exec Int} {s : SysState ℝ} {q v : Nat → ℝ}

theorem world_point {s : SysState ℝ} {i : Int} {px py th : ℝ} (h1 : s.rd .p_x i = .ok px)
    (h2 : s.rd .p_y i = .ok py) (h3 : s.rd .theta i = .ok th) (x y : ℝ) :
    s.localToWorld x y i = .ok (px + rx th x y, py + ry th x y) := by
  simp only [SysState.localToWorld, h1, h2, h3, ok_bind, Fp.cos, Fp.sin, rx, ry]
  exact congrArg Except.ok (Prod.ext (by ring) (by ring))

/-! ## C102: constraints -/

/-- **C102.** A constraint object as constructed has the given numbers of rows and bodies, reports no
reaction, is in no system (index -1) and has no first body, whatever was in its memory. The
constructor refuses more than three rows or two bodies. -/
theorem C102_construct {α : Type} [Zero α] (raw : Con α) (kind : CKind α) (rows count : Nat) :
    (rows ≤ 3 ∧ count ≤ 2 → ∃ c, Con.construct raw kind rows count = .ok c ∧ c.kind = kind ∧
      c.rows = rows ∧ c.bodyCount = count ∧ c.index = -1 ∧ c.bodies 0 = .null ∧
      (∀ r k, c.F_x r k = 0 ∧ c.F_y r k = 0 ∧ c.F_t r k = 0)) ∧
    (¬ (rows ≤ 3 ∧ count ≤ 2) → ∃ l, Con.construct raw kind rows count = .error (.assert l)) := by
  have e : Con.construct raw kind rows count = if rows ≤ 3 then if count ≤ 2 then
      .ok { raw with
        kind := kind
        rows := rows
        bodyCount := count
        index := -1
        bodies := fun k => if k = 0 then .null else .uninit
        F_x := fun _ _ => 0
        F_y := fun _ _ => 0
        F_t := fun _ _ => 0 } else .error (.assert "constraint.cpp:8")
      else .error (.assert "constraint.cpp:7") := by
    by_cases h1 : rows ≤ 3 <;> by_cases h2 : count ≤ 2 <;>
      simp only [Con.construct, chk, maxRows, maxBodies, h1, h2, if_true, if_false] <;> rfl
  rw [e]
  refine ⟨fun h => ?_, fun h => ?_⟩
  · rw [if_pos h.1, if_pos h.2]
    exact ⟨_, rfl, rfl, rfl, rfl, rfl, rfl, fun r k => ⟨rfl, rfl, rfl⟩⟩
  · by_cases h1 : rows ≤ 3
    · exact ⟨_, by rw [if_pos h1, if_neg fun h2 => h ⟨h1, h2⟩]⟩
    · exact ⟨_, by rw [if_neg h1]⟩

/-- **C102.** A constraint as constructed has no force limit, prescribes no speed and has stiffness
10 and damping 1 in every row but the first one of a rolling constraint. -/
theorem C102_parameters {k : CKind ℝ} (hk : k.New) {rows nb : Nat}
    (hc : k.counts = some (rows, nb)) (hs : Carries s idx nb q v) (o : Output ℝ) :
    ∃ out, k.calculate idx o s = .ok out ∧ ∀ r < rows,
      out.limits r 0 = -Fp.dblMax ∧ out.limits r 1 = Fp.dblMax ∧ out.v_bias r = 0 ∧
      (¬ k.IsRollRow r → out.ks r = 10 ∧ out.kd r = 1) := by
  obtain ⟨out, e, h⟩ := k.calculate_has hc hs o
  have l0 : ((0 : Rat) : ℝ) = 0 := by norm_num
  have l1 : ((1 : Rat) : ℝ) = 1 := by norm_num
  have l10 : ((10 : Rat) : ℝ) = 10 := by norm_num
  refine ⟨out, e, fun r hr => ?_⟩
  rw [h.lo r hr, h.hi r hr, h.bias r hr, h.ks r hr, h.kd r hr]
  cases hk with
  | rolling =>
    refine ⟨rfl, rfl, rfl, fun hn => ?_⟩
    cases hc
    interval_cases r
    · exact absurd trivial hn
    · exact ⟨l10, l1⟩
  | constantRotation => exact ⟨rfl, rfl, l0, fun _ => ⟨l10, l1⟩⟩
  | simpleGear => exact ⟨rfl, rfl, rfl, fun _ => ⟨l10, l1⟩⟩
  | _ => exact ⟨rfl, rfl, rfl, fun _ => ⟨l10, l1⟩⟩

/-- The hypotheses are met by each class in a state with two bodies. -/
example {k : CKind ℝ} (hk : k.New) : ∃ (s : SysState ℝ) (q v : Nat → ℝ) (rows nb : Nat), s.Reach ∧
    k.counts = some (rows, nb) ∧ 0 < rows ∧ Carries s (fun b => .ok b) nb q v := by
  obtain ⟨s, hr, hs⟩ := demo_carries (fun _ => 2) (fun _ => 3)
  cases hk <;> exact ⟨s, _, _, _, _, hr, rfl, by decide, hs _ (by decide)⟩

/-- **C102.** A fixed position constraint whose local and world positions are set, in either order,
reports the distance of that point of the body from that point of the world. -/
theorem C102_fixed_position (lx ly wx wy : ℝ) {p : FixedPosition ℝ}
    (hp : p = ((FixedPosition.default : FixedPosition ℝ).setLocalPosition lx ly).setWorldPosition wx wy ∨
      p = ((FixedPosition.default : FixedPosition ℝ).setWorldPosition wx wy).setLocalPosition lx ly)
    (hs : Carries s idx 1 q v) (o : Output ℝ) :
    ∃ out i P, (CKind.fixedPosition p).calculate idx o s = .ok out ∧ idx 0 = .ok i ∧
      s.localToWorld lx ly i = .ok P ∧ out.C 0 = P.1 - wx ∧ out.C 1 = P.2 - wy := by
  have hp : p = ⟨lx, ly, wx, wy, Fp.lit 10, Fp.lit 1⟩ := by rcases hp with rfl | rfl <;> rfl
  subst hp
  obtain ⟨out, e, h⟩ := (CKind.fixedPosition ⟨lx, ly, wx, wy, _, _⟩).calculate_has rfl hs o
  obtain ⟨i, hi, h1, h2, h3, _⟩ := hs 0 (by decide)
  exact ⟨out, i, _, e, hi, world_point h1 h2 h3 lx ly, h.C 0 (by decide), h.C 1 (by decide)⟩

/-- **C102.** As constructed, a fixed position constraint holds the centre of its body at the origin
of the world. -/
theorem C102_fixed_position_new (hs : Carries s idx 1 q v) (o : Output ℝ) :
    ∃ out i, (CKind.fixedPosition .default).calculate idx o s = .ok out ∧ idx 0 = .ok i ∧
      s.rd .p_x i = .ok (out.C 0) ∧ s.rd .p_y i = .ok (out.C 1) := by
  obtain ⟨out, e, h⟩ := (CKind.fixedPosition .default).calculate_has rfl hs o
  obtain ⟨i, hi, h1, h2, h3, _⟩ := hs 0 (by decide)
  refine ⟨out, i, e, hi, ?_, ?_⟩
  · rw [h1, h.C 0 (by decide)]; simp [CKind.cT, FixedPosition.default, rx, Fp.lit]
  · rw [h2, h.C 1 (by decide)]; simp [CKind.cT, FixedPosition.default, ry, Fp.lit]

/-- **C102.** As constructed, a fixed rotation constraint holds its body at the angle 0. -/
theorem C102_fixed_rotation_new (hs : Carries s idx 1 q v) (o : Output ℝ) :
    ∃ out i, (CKind.fixedRotation .default).calculate idx o s = .ok out ∧ idx 0 = .ok i ∧
      s.rd .theta i = .ok (out.C 0) := by
  obtain ⟨out, e, h⟩ := (CKind.fixedRotation .default).calculate_has rfl hs o
  obtain ⟨i, hi, h1, h2, h3, _⟩ := hs 0 (by decide)
  exact ⟨out, i, e, hi, by rw [h3, h.C 0 (by decide)]; simp [CKind.cT, FixedRotation.default, Fp.lit]⟩

/-- **C102.** A link whose local positions are set, in either order, reports the distance between
the first point on the first body and the second point on the second body. -/
theorem C102_link (x1 y1 x2 y2 : ℝ) {p : Link ℝ}
    (hp : p = ((Link.default : Link ℝ).setLocalPosition1 x1 y1).setLocalPosition2 x2 y2 ∨
      p = ((Link.default : Link ℝ).setLocalPosition2 x2 y2).setLocalPosition1 x1 y1)
    (hs : Carries s idx 2 q v) (o : Output ℝ) :
    ∃ out i j P Q, (CKind.link p).calculate idx o s = .ok out ∧ idx 0 = .ok i ∧ idx 1 = .ok j ∧
      s.localToWorld x1 y1 i = .ok P ∧ s.localToWorld x2 y2 j = .ok Q ∧
      out.C 0 = P.1 - Q.1 ∧ out.C 1 = P.2 - Q.2 := by
  have hp : p = ⟨x1, y1, x2, y2, Fp.dblMax, Fp.lit 10, Fp.lit 1⟩ := by rcases hp with rfl | rfl <;> rfl
  subst hp
  obtain ⟨out, e, h⟩ := (CKind.link ⟨x1, y1, x2, y2, _, _, _⟩).calculate_has rfl hs o
  obtain ⟨i, hi, h1, h2, h3, _⟩ := hs 0 (by decide)
  obtain ⟨j, hj, g1, g2, g3, _⟩ := hs 1 (by decide)
  exact ⟨out, i, j, _, _, e, hi, hj, world_point h1 h2 h3 x1 y1, world_point g1 g2 g3 x2 y2,
    h.C 0 (by decide), h.C 1 (by decide)⟩

/-- **C102.** As constructed, a link holds the centres of its bodies together. -/
theorem C102_link_new (hs : Carries s idx 2 q v) (o : Output ℝ) :
    ∃ out, (CKind.link .default).calculate idx o s = .ok out ∧
      out.C 0 = q 0 - q 3 ∧ out.C 1 = q 1 - q 4 := by
  obtain ⟨out, e, h⟩ := (CKind.link .default).calculate_has rfl hs o
  refine ⟨out, e, ?_, ?_⟩
  · rw [h.C 0 (by decide)]; simp [CKind.cT, Link.default, rx, Fp.lit]
  · rw [h.C 1 (by decide)]; simp [CKind.cT, Link.default, ry, Fp.lit]

/-- **C102.** As constructed, constant rotation and rotation friction constraints stop the rotation
of their body, and clutches and gears let their bodies turn with the same speed. -/
theorem C102_rotation_new (o out : Output ℝ) :
    (Carries s idx 1 q v → (CKind.constantRotation .default).calculate idx o s = .ok out →
      (VelocityCondition out 1 1 v ↔ v 2 = 0)) ∧
    (Carries s idx 1 q v → (CKind.rotationFriction .default).calculate idx o s = .ok out →
      (VelocityCondition out 1 1 v ↔ v 2 = 0)) ∧
    (Carries s idx 2 q v → (CKind.clutch .default).calculate idx o s = .ok out →
      (VelocityCondition out 1 2 v ↔ v 2 = v 5)) ∧
    (Carries s idx 2 q v → (CKind.simpleGear .default).calculate idx o s = .ok out →
      (VelocityCondition out 1 2 v ↔ v 2 = v 5)) := by
  obtain ⟨h1, h2, h3⟩ := C39_velocity_conditions_partial idx s q v o out
  refine ⟨fun hs e => ?_, fun hs e => h3 _ hs e, fun hs e => h1 _ hs e, fun hs e => ?_⟩
  · rw [C39_constant_rotation _ idx s q v hs o out e]
    simp [ConstantRotation.default, Fp.lit]
  · rw [h2 _ hs e]
    simp [SimpleGear.default, Fp.lit]

/-- **C102.** As constructed, line and rolling constraints have no direction: the row of a line
constraint and the second row of a rolling constraint are satisfied in every state and their
Jacobian is zero, so that the constraint does nothing. -/
theorem C102_no_direction (o : Output ℝ) :
    (Carries s idx 1 q v → ∃ out, (CKind.line .default).calculate idx o s = .ok out ∧
      out.C 0 = 0 ∧ ∀ c < 3, out.J 0 c = 0) ∧
    (Carries s idx 2 q v → ∃ out, (CKind.rolling .default).calculate idx o s = .ok out ∧
      out.C 1 = 0 ∧ ∀ c < 6, out.J 1 c = 0) := by
  refine ⟨fun hs => ?_, fun hs => ?_⟩
  · obtain ⟨out, e, h⟩ := (CKind.line .default).calculate_has rfl hs o
    refine ⟨out, e, by rw [h.C 0 (by decide)]; simp [CKind.cT, Line.default, Fp.lit], fun c hc => ?_⟩
    rw [h.J 0 c (by decide) hc]
    interval_cases c <;> simp [CKind.jT, Line.default, Fp.lit]
  · obtain ⟨out, e, h⟩ := (CKind.rolling .default).calculate_has rfl hs o
    refine ⟨out, e, by rw [h.C 1 (by decide)]; simp [CKind.cT, Rolling.default, Fp.lit, rx, ry],
      fun c hc => ?_⟩
    rw [h.J 1 c (by decide) hc]
    interval_cases c <;> simp [CKind.jT, Rolling.default, Fp.lit, rx, ry]

/-- The hypotheses of the theorems above are met by two bodies at arbitrary places, moving. -/
example (q v : Nat → ℝ) : ∃ s : SysState ℝ, s.Reach ∧ Carries s (fun b => .ok b) 1 q v ∧
    Carries s (fun b => .ok b) 2 q v := by
  obtain ⟨s, hr, hs⟩ := demo_carries q v
  exact ⟨s, hr, hs 1 (by decide), hs 2 (by decide)⟩

end

/-! ## C102: force generators -/

theorem forced_zero (g : Fld → Nat → ℝ) (i : Nat) (w : ℝ × ℝ) : forced g i w 0 0 = g := by
  funext f j
  by_cases h : j = i
  · subst h; cases f <;> simp [forced]
  · simp [forced, h]

section
variable {s : SysState ℝ} {n c : Nat} {g : Fld → Nat → ℝ} {r : CFld → Nat → ℝ}
  {bodies : Nat → Body ℝ} {i j : Nat}

/-- **C102.** A spring as constructed does nothing, and it exerts no force either when it is attached
to two bodies, since its stiffness and damping are zero. -/
theorem C102_spring_new (hr : s.Reach) (hs : s.Shows n c g r) :
    (Gen.spring .default).apply bodies s = .ok s ∧
    ∀ {p : Spring ℝ} {b1 b2 : Nat}, p = { Spring.default with body1 := .obj b1, body2 := .obj b2 } →
      (bodies b1).index = i → (bodies b2).index = j → i < n → j < n →
      ∃ s', (Gen.spring p).apply bodies s = .ok s' ∧ s'.Shows n c g r := by
  refine ⟨C42_detached (.inl rfl) s, fun {p b1 b2} hp hi hj hin hjn => ?_⟩
  have hn := hs.bodies
  obtain ⟨w1, h1⟩ : ∃ w, s.localToWorld p.p1_x p.p1_y i = .ok w :=
    ⟨_, world_point (hs.fld .p_x i hin) (hs.fld .p_y i hin) (hs.fld .theta i hin) _ _⟩
  obtain ⟨w2, h2⟩ : ∃ w, s.localToWorld p.p2_x p.p2_y j = .ok w :=
    ⟨_, world_point (hs.fld .p_x j hjn) (hs.fld .p_y j hjn) (hs.fld .theta j hjn) _ _⟩
  obtain ⟨u1, h3⟩ : ∃ w, s.velocityAtPoint p.p1_x p.p1_y i = .ok w := by
    simp only [SysState.velocityAtPoint, h1, hs.fld _ i hin, ok_bind]
    exact ⟨_, rfl⟩
  obtain ⟨u2, h4⟩ : ∃ w, s.velocityAtPoint p.p2_x p.p2_y j = .ok w := by
    simp only [SysState.velocityAtPoint, h2, hs.fld _ j hjn, ok_bind]
    exact ⟨_, rfl⟩
  have hF : springForce p w1 w2 u1 u2 = (0, 0) := by
    subst hp
    simp [springForce, hooke, Spring.default, Fp.lit]
  obtain ⟨s', e, hs', -⟩ := spring_shows (p := p) hr hs
    ⟨⟨b1, by rw [hp], hi⟩, ⟨b2, by rw [hp], hj⟩, by omega, by omega, h1, h2, h3, h4⟩ hF
  refine ⟨s', e, ?_⟩
  simpa only [neg_zero, forced_zero] using hs'

/-- **C102.** A static force generator with force and position set, in either order, and a body
applies that force at that point of the body; as constructed the force is zero. -/
theorem C102_static (hr : s.Reach) (hs : s.Shows n c g r) {b : Nat} (hi : (bodies b).index = i)
    (hin : i < n) (fx fy x y : ℝ) {p : StaticForce ℝ}
    (hp : p = { ((StaticForce.default : StaticForce ℝ).setForce fx fy).setPosition x y with body := .obj b } ∨
      p = { ((StaticForce.default : StaticForce ℝ).setPosition x y).setForce fx fy with body := .obj b }) :
    (∃ s' w, (Gen.static p).apply bodies s = .ok s' ∧ s.localToWorld x y i = .ok w ∧
      s'.Shows n c (forced g i w fx fy) r) ∧
    ∃ s', (Gen.static { StaticForce.default with body := .obj b }).apply bodies s = .ok s' ∧
      s'.Shows n c g r := by
  have hw := world_point (hs.fld .p_x i hin) (hs.fld .p_y i hin) (hs.fld .theta i hin)
  have hp : p = ⟨fx, fy, x, y, .obj b⟩ := by rcases hp with rfl | rfl <;> rfl
  subst hp
  refine ⟨?_, ?_⟩
  · obtain ⟨s', e, h, -⟩ := C45_static (p := ⟨fx, fy, x, y, .obj b⟩) hr hs rfl hi hin (hw x y)
    exact ⟨s', _, e, hw x y, h⟩
  · obtain ⟨s', e, h, -⟩ := C45_static (p := { StaticForce.default with body := .obj b }) hr hs rfl
      hi hin (hw _ _)
    refine ⟨s', e, ?_⟩
    have l0 : (Fp.lit 0 : ℝ) = 0 := by simp [Fp.lit]
    simpa only [StaticForce.default, l0, forced_zero] using h

/-- **C102.** Gravity as constructed pulls every body down with 9.81 times its mass. -/
theorem C102_gravity_new (hr : s.Reach) (hs : s.Shows n c g r) :
    ∃ s', (Gen.gravity gravityDefault).apply bodies s = .ok s' ∧
      s'.Shows n c (fun f k => if f = .f_y then g .f_y k - g .m k * 9.81 else g f k) r := by
  obtain ⟨s', e, h, -⟩ := C45_gravity (bodies := bodies) hr hs gravityDefault
  refine ⟨s', e, ?_⟩
  have : (gravityDefault : ℝ) = 9.81 := by norm_num [gravityDefault, Fp.lit]
  rwa [this] at h

/-- **C102.** A motor as constructed and attached to two bodies drives the second one, relative to
the first, towards the speed 1 with a torque of at most 500. -/
theorem C102_motor_new (hr : s.Reach) (hs : s.Shows n c g r) {b0 b1 : Nat}
    (hi : (bodies b0).index = i) (hj : (bodies b1).index = j) (hin : i < n) (hjn : j < n) {τ0 : ℝ}
    (hτ : τ0 = 1 - (g .v_theta j - g .v_theta i) - (g .a_theta j - g .a_theta i)) :
    ∃ s' τ, (Gen.motor { Motor.default with body0 := .obj b0, body1 := .obj b1 }).apply bodies s =
        .ok s' ∧ s'.Shows n c (torqued (torqued g i (-τ)) j τ) r ∧ |τ| ≤ 500 ∧
      (|τ0| ≤ 500 → τ = τ0) ∧ (500 < τ0 → τ = 500) ∧ (τ0 < -500 → τ = -500) := by
  have l1 : (Fp.lit 1 : ℝ) = 1 := by simp [Fp.lit]
  have l5 : (Fp.lit 500 : ℝ) = 500 := by norm_num [Fp.lit]
  obtain ⟨s', τ, e, h, h1, h2, h3, h4, -⟩ := C44_motor (p := { Motor.default with body0 := .obj b0, body1 := .obj b1 })
    (τ0 := τ0) hr hs rfl rfl hi hj hin hjn (by simp only [Motor.default, l5]; norm_num)
    (by simp only [Motor.default, l1, hτ]; ring)
  simp only [Motor.default, l5] at h1 h2 h3 h4
  exact ⟨s', τ, e, h, h1, h2, h3, h4⟩

/-- The hypotheses of the four theorems are met by a state of three bodies. -/
example : ∃ (s : SysState ℝ) (bodies : Nat → Body ℝ) (g : Fld → Nat → ℝ) (r : CFld → Nat → ℝ),
    s.Reach ∧ s.Shows 3 1 g r ∧ (bodies 5).index = (2 : Nat) ∧ (bodies 6).index = (0 : Nat) ∧
    g .m 2 = 4 := by
  obtain ⟨s, hr, hs⟩ := reach_shows (α := ℝ) 3 1 (by decide) (fun _ i => i + 2) (fun _ _ => 7)
  exact ⟨s, fun b => ⟨0, 0, 0, 0, 0, 0, 0, 0, if b = 5 then 2 else 0⟩, _, _, hr, hs, rfl, rfl,
    by norm_num⟩

end

end Scs
