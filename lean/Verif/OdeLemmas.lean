import Verif.StateLemmas
import Verif.Real

/-!
# Lemmas about the ODE solvers
-/

namespace Scs

/-- The three coordinates of a body. -/
inductive Coord where
  | x | y | th
  deriving DecidableEq, Repr

/-- Position array of a coordinate. -/
def Coord.p : Coord → Fld
  | .x => .p_x
  | .y => .p_y
  | .th => .theta

/-- Velocity array of a coordinate. -/
def Coord.v : Coord → Fld
  | .x => .v_x
  | .y => .v_y
  | .th => .v_theta

/-- Acceleration array of a coordinate. -/
def Coord.a : Coord → Fld
  | .x => .a_x
  | .y => .a_y
  | .th => .a_theta

/-- Force array of a coordinate. -/
def Coord.f : Coord → Fld
  | .x => .f_x
  | .y => .f_y
  | .th => .t

/-- Reaction array of a coordinate. -/
def Coord.r : Coord → CFld
  | .x => .r_x
  | .y => .r_y
  | .th => .r_t

/-- Replace positions and velocities of one body. -/
def motion {α : Type} (p v : Coord → α) (old : Fld → α) : Fld → α
  | .p_x => p .x
  | .p_y => p .y
  | .theta => p .th
  | .v_x => v .x
  | .v_y => v .y
  | .v_theta => v .th
  | f => old f

@[simp] theorem motion_p {α : Type} (p v : Coord → α) (old : Fld → α) (c : Coord) :
    motion p v old c.p = p c := by cases c <;> rfl
@[simp] theorem motion_v {α : Type} (p v : Coord → α) (old : Fld → α) (c : Coord) :
    motion p v old c.v = v c := by cases c <;> rfl
@[simp] theorem motion_a {α : Type} (p v : Coord → α) (old : Fld → α) (c : Coord) :
    motion p v old c.a = old c.a := by cases c <;> rfl
@[simp] theorem motion_f {α : Type} (p v : Coord → α) (old : Fld → α) (c : Coord) :
    motion p v old c.f = old c.f := by cases c <;> rfl

section
variable {α : Type} [Zero α] [Add α] [Mul α] [Sub α] [Neg α] [Fp α]

open SysState

theorem eulerBody_to {s : SysState α} (h : s.Ok) {i : Nat} (hi : i < s.n) (dt : α) :
    ∃ s2, eulerBody dt i s = .ok s2 ∧ BodyTo s s2 (· = i) (fun _ st =>
      motion (fun c => st c.p + st c.v * dt) (fun c => st c.v + st c.a * dt) st) := by
  refine ⟨_, by
    simp (maxDischargeDepth := 30) [eulerBody, SysState.Ok.rd, SysState.Ok.addTo, SysState.Ok.put, h, hi, ok_bind,
      SysState.Ok.val_put]; rfl, rfl, ?_, fun f j => ?_⟩
  · exact SysState.Ok.wf (by simp (maxDischargeDepth := 30) [SysState.Ok.put, h])
  · by_cases hj : j = i
    · subst hj
      cases f <;> simp (maxDischargeDepth := 30) [SysState.Ok.put, h, SysState.Ok.val_put, motion] <;> rfl
    · cases f <;> simp (maxDischargeDepth := 30) [SysState.Ok.put, h, SysState.Ok.val_put, hj]

theorem nsvBody_to {s : SysState α} (h : s.Ok) {i : Nat} (hi : i < s.n) (dt : α) :
    ∃ s2, nsvBody dt i s = .ok s2 ∧ BodyTo s s2 (· = i) (fun _ st =>
      motion (fun c => st c.p + (st c.v + st c.a * dt) * dt) (fun c => st c.v + st c.a * dt)
        st) := by
  refine ⟨_, by
    simp (maxDischargeDepth := 30) [nsvBody, SysState.Ok.rd, SysState.Ok.addTo, SysState.Ok.put, h, hi, ok_bind,
      SysState.Ok.val_put]; rfl, rfl, ?_, fun f j => ?_⟩
  · exact SysState.Ok.wf (by simp (maxDischargeDepth := 30) [SysState.Ok.put, h])
  · by_cases hj : j = i
    · subst hj
      cases f <;> simp (maxDischargeDepth := 30) [SysState.Ok.put, h, SysState.Ok.val_put, motion] <;> rfl
    · cases f <;> simp (maxDischargeDepth := 30) [SysState.Ok.put, h, SysState.Ok.val_put, hj]

theorem rkGetBody_to {s acc : SysState α} (h : s.Ok) (ha : acc.Ok) {i : Nat} (hi : i < s.n)
    (hi' : i < acc.n) :
    ∃ s2, rkGetBody acc i s = .ok s2 ∧ BodyTo s s2 (· = i) (fun j st =>
      motion (fun c => acc.val c.p j) (fun c => acc.val c.v j) st) := by
  refine ⟨_, by
    simp (maxDischargeDepth := 30) [rkGetBody, rkGet, SysState.Ok.rd, SysState.Ok.wr, SysState.Ok.put, h, ha, hi, hi',
      ok_bind]; rfl, rfl, ?_, fun f j => ?_⟩
  · exact SysState.Ok.wf (by simp (maxDischargeDepth := 30) [SysState.Ok.put, h])
  · by_cases hj : j = i
    · subst hj
      cases f <;> simp (maxDischargeDepth := 30) [SysState.Ok.put, h, SysState.Ok.val_put, motion] <;> rfl
    · cases f <;> simp (maxDischargeDepth := 30) [SysState.Ok.put, h, SysState.Ok.val_put, hj]

/-- Replace the reactions of one row. -/
def rowOf {α : Type} (r : Coord → α) : CFld → α
  | .r_x => r .x
  | .r_y => r .y
  | .r_t => r .th

theorem rkGetRBody_to {s acc : SysState α} (h : s.Ok) (ha : acc.Ok) {i : Nat} (hi : i < s.nc)
    (hi' : i < acc.nc) :
    ∃ s2, rkGetRBody acc i s = .ok s2 ∧ RowTo s s2 (· = i) (fun j _ f => acc.rval f j) := by
  have h2 : i < s.nc * 2 := by omega
  have h2' : i < acc.nc * 2 := by omega
  refine ⟨_, by
    simp (maxDischargeDepth := 30) [rkGetRBody, rkGetR, SysState.Ok.rrd, SysState.Ok.rwr, SysState.Ok.rput, h, ha, h2, h2',
      ok_bind]; rfl, rfl, ?_, fun f j => ?_⟩
  · exact SysState.Ok.wf (by simp (maxDischargeDepth := 30) [SysState.Ok.rput, h])
  · by_cases hj : j = i
    · subst hj
      cases f <;> simp (maxDischargeDepth := 30) [SysState.Ok.rput, h, SysState.Ok.rval_rput]
    · cases f <;> simp (maxDischargeDepth := 30) [SysState.Ok.rput, h, SysState.Ok.rval_rput, hj]

end

section
open SysState

theorem rkHalfBody_to {s ini : SysState ℝ} (h : s.Ok) (ha : ini.Ok) {i : Nat} (hi : i < s.n)
    (hi' : i < ini.n) (dt : ℝ) :
    ∃ s2, rkHalfBody dt ini i s = .ok s2 ∧ BodyTo s s2 (· = i) (fun j st =>
      motion (fun c => ini.val c.p j + dt * (ini.val c.v j + dt * st c.a / 2) / 2)
        (fun c => ini.val c.v j + dt * st c.a / 2) st) := by
  have d2 : ∀ x : ℝ, Fp.div x (Fp.lit 2) = .ok (x / 2) := fun x => by
    rw [fp_div (by rw [fp_lit]; norm_num)]; norm_num [fp_lit]
  refine ⟨_, by
    simp (maxDischargeDepth := 30) [rkHalfBody, rkHalf, SysState.Ok.rd, SysState.Ok.wr, SysState.Ok.put, h, ha, hi, hi',
      ok_bind, d2, SysState.Ok.val_put]; rfl, rfl, ?_, fun f j => ?_⟩
  · exact SysState.Ok.wf (by simp (maxDischargeDepth := 30) [SysState.Ok.put, h])
  · by_cases hj : j = i
    · subst hj
      cases f <;> simp (maxDischargeDepth := 30) [SysState.Ok.put, h, SysState.Ok.val_put, motion, Coord.p, Coord.v, Coord.a]
    · cases f <;> simp (maxDischargeDepth := 30) [SysState.Ok.put, h, SysState.Ok.val_put, hj]

theorem rkFullBody_to {s ini : SysState ℝ} (h : s.Ok) (ha : ini.Ok) {i : Nat} (hi : i < s.n)
    (hi' : i < ini.n) (dt : ℝ) :
    ∃ s2, rkFullBody dt ini i s = .ok s2 ∧ BodyTo s s2 (· = i) (fun j st =>
      motion (fun c => ini.val c.p j + dt * (ini.val c.v j + dt * st c.a))
        (fun c => ini.val c.v j + dt * st c.a) st) := by
  refine ⟨_, by
    simp (maxDischargeDepth := 30) [rkFullBody, rkFull, SysState.Ok.rd, SysState.Ok.wr, SysState.Ok.put, h, ha, hi, hi',
      ok_bind, SysState.Ok.val_put]; rfl, rfl, ?_, fun f j => ?_⟩
  · exact SysState.Ok.wf (by simp (maxDischargeDepth := 30) [SysState.Ok.put, h])
  · by_cases hj : j = i
    · subst hj
      cases f <;> simp (maxDischargeDepth := 30) [SysState.Ok.put, h, SysState.Ok.val_put, motion, Coord.p, Coord.v, Coord.a]
    · cases f <;> simp (maxDischargeDepth := 30) [SysState.Ok.put, h, SysState.Ok.val_put, hj]

theorem rkAccBody_to {acc s : SysState ℝ} (h : acc.Ok) (hs : s.Ok) {i : Nat} (hi : i < acc.n)
    (hi' : i < s.n) (dt w : ℝ) :
    ∃ s2, rkAccBody dt w s i acc = .ok s2 ∧ BodyTo acc s2 (· = i) (fun j st =>
      motion (fun c => st c.p + dt / 6 * s.val c.v j * w)
        (fun c => st c.v + dt / 6 * s.val c.a j * w) st) := by
  have d2 : ∀ x : ℝ, Fp.div x (Fp.lit 6) = .ok (x / 6) := fun x => by
    rw [fp_div (by rw [fp_lit]; norm_num)]; norm_num [fp_lit]
  refine ⟨_, by
    simp (maxDischargeDepth := 30) [rkAccBody, rkAcc, SysState.Ok.rd, SysState.Ok.addTo, SysState.Ok.put, h, hs, hi, hi',
      ok_bind, d2, SysState.Ok.val_put]; rfl, rfl, ?_, fun f j => ?_⟩
  · exact SysState.Ok.wf (by simp (maxDischargeDepth := 30) [SysState.Ok.put, h])
  · by_cases hj : j = i
    · subst hj
      cases f <;> simp (maxDischargeDepth := 30) [SysState.Ok.put, h, SysState.Ok.val_put, motion, Coord.p, Coord.v, Coord.a]
    · cases f <;> simp (maxDischargeDepth := 30) [SysState.Ok.put, h, SysState.Ok.val_put, hj]

theorem rkAccRBody_to {acc s : SysState ℝ} (h : acc.Ok) (hs : s.Ok) {i : Nat} (hi : i < acc.nc)
    (hi' : i < s.nc) (dt w : ℝ) :
    ∃ s2, rkAccRBody dt w s i acc = .ok s2 ∧ RowTo acc s2 (· = i) (fun j st f =>
      st f + dt / 6 * s.rval f j * w) := by
  have d2 : ∀ x : ℝ, Fp.div x (Fp.lit 6) = .ok (x / 6) := fun x => by
    rw [fp_div (by rw [fp_lit]; norm_num)]; norm_num [fp_lit]
  have h2 : i < s.nc * 2 := by omega
  have h2' : i < acc.nc * 2 := by omega
  refine ⟨_, by
    simp (maxDischargeDepth := 30) [rkAccRBody, rkAccR, SysState.Ok.rrd, SysState.Ok.rwr, SysState.Ok.rput, h, hs, h2, h2',
      ok_bind, d2, SysState.Ok.rval_rput]; rfl, rfl, ?_, fun f j => ?_⟩
  · exact SysState.Ok.wf (by simp (maxDischargeDepth := 30) [SysState.Ok.rput, h])
  · by_cases hj : j = i
    · subst hj
      cases f <;> simp (maxDischargeDepth := 30) [SysState.Ok.rput, h, SysState.Ok.rval_rput]
    · cases f <;> simp (maxDischargeDepth := 30) [SysState.Ok.rput, h, SysState.Ok.rval_rput, hj]

end

end Scs
