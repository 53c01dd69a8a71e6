import Verif.WorldAsm
import Verif.OdeLemmas
import Verif.SparseReal

/-!
# Loops over the state in `process`
-/

namespace Scs

/-- Position of a coordinate among the three rows of a body. -/
def Coord.d : Coord → Nat
  | .x => 0
  | .y => 1
  | .th => 2

theorem Coord.d_lt (c : Coord) : c.d < 3 := by cases c <;> decide

theorem Coord.r_inj {c c' : Coord} (h : c.r = c'.r) : c = c' := by
  cases c <;> cases c' <;> first | rfl | cases h

/-- Position of the inverse mass used for a coordinate: the first row of the body for `x` and `y`,
the last for the angle. -/
def Coord.dm : Coord → Nat
  | .th => 2
  | _ => 0

/-- Replace the accelerations of one body. -/
def withAcc {α : Type} (a : Coord → α) (old : Fld → α) : Fld → α
  | .a_x => a .x
  | .a_y => a .y
  | .a_theta => a .th
  | f => old f

@[simp] theorem withAcc_a {α : Type} (a : Coord → α) (old : Fld → α) (c : Coord) :
    withAcc a old c.a = a c := by cases c <;> rfl

/-- One of the three accelerations. -/
def Fld.IsAcc (f : Fld) : Prop := ∃ c : Coord, f = c.a

theorem withAcc_not {α : Type} (a : Coord → α) (old : Fld → α) {f : Fld} (h : ¬ f.IsAcc) :
    withAcc a old f = old f := by
  cases f <;> first | rfl | exact absurd ⟨.x, rfl⟩ h | exact absurd ⟨.y, rfl⟩ h |
    exact absurd ⟨.th, rfl⟩ h

theorem isAcc_a (c : Coord) : c.a.IsAcc := ⟨c, rfl⟩

section
variable {α : Type} [Zero α] [Add α] [Mul α] [Sub α] [Neg α] [Fp α]

open SysState

/-! ## Columns of body data -/

/-- The first, second or third of three things. -/
def pick3 {β : Type} (x y z : β) (d : Nat) : β := if d = 0 then x else if d = 1 then y else z

theorem set3_spec {t : MId} {mem : Store α} (wf : (mem.mat t).WF) {n i : Nat} (hi : i < n)
    (hw : (mem.mat t).width = 1) (hh : (mem.mat t).height = n * 3) (x y z : α) :
    ∃ m1 m2 m3, mem.set t 0 (i * 3 + 0) x = .ok m1 ∧ m1.set t 0 (i * 3 + 1) y = .ok m2 ∧
      m2.set t 0 (i * 3 + 2) z = .ok m3 ∧ Only t mem m3 ∧ (mem.mat t).SameShape (m3.mat t) ∧
      ∀ r, r < n * 3 → (m3.mat t).ent r 0 =
        if r / 3 = i then pick3 x y z (r % 3) else (mem.mat t).ent r 0 := by
  obtain ⟨m1, e1, o1, _, s1, v1⟩ := Store.set_spec mem t wf (c := 0) (r := i * 3 + 0)
    (by rw [hw]; decide) (by rw [hh]; omega) x
  obtain ⟨m2, e2, o2, _, s2, v2⟩ := Store.set_spec m1 t (s1.wf wf) (c := 0) (r := i * 3 + 1)
    (by rw [s1.width, hw]; decide) (by rw [s1.height, hh]; omega) y
  obtain ⟨m3, e3, o3, _, s3, v3⟩ := Store.set_spec m2 t (s2.wf (s1.wf wf)) (c := 0)
    (r := i * 3 + 2) (by rw [s2.width, s1.width, hw]; decide)
    (by rw [s2.height, s1.height, hh]; omega) z
  refine ⟨m1, m2, m3, e1, e2, e3, (o1.trans o2).trans o3, (s1.trans s2).trans s3, ?_⟩
  intro r hr
  rw [v3 r 0 (by rw [s2.height, s1.height, hh]; exact hr) (by rw [s2.width, s1.width, hw]; decide),
    v2 r 0 (by rw [s1.height, hh]; exact hr) (by rw [s1.width, hw]; decide),
    v1 r 0 (by rw [hh]; exact hr) (by rw [hw]; decide)]
  have hm := Nat.div_add_mod r 3
  have hm' := Nat.mod_lt r (by decide : 0 < 3)
  by_cases h : r / 3 = i
  · rw [if_pos h]
    unfold pick3
    rcases (by omega : r % 3 = 0 ∨ r % 3 = 1 ∨ r % 3 = 2) with h3 | h3 | h3
    · rw [if_neg (by omega), if_neg (by omega), if_pos ⟨by omega, rfl⟩, if_pos h3]
    · rw [if_neg (by omega), if_pos ⟨by omega, rfl⟩, if_neg (by omega), if_pos h3]
    · rw [if_pos ⟨by omega, rfl⟩, if_neg (by omega), if_neg (by omega)]
  · rw [if_neg h, if_neg (by omega), if_neg (by omega), if_neg (by omega)]

theorem loadVec_spec {t : MId} {fx fy ft : Fld} {n : Nat} {s : SysState α} (hs : s.Wf)
    (hn : n ≤ s.n) {mem : Store α} (hi : Inv 3 2 sysRestr mem) (hw : (mem.mat t).width = 1)
    (hh : (mem.mat t).height = n * 3) :
    ∃ mem', loadVec t fx fy ft n s mem = .ok mem' ∧ Inv 3 2 sysRestr mem' ∧ Only t mem mem' ∧
      (mem'.mat t).width = 1 ∧ (mem'.mat t).height = n * 3 ∧
      ∀ r, r < n * 3 → (mem'.mat t).ent r 0 = s.val (pick3 fx fy ft (r % 3)) (r / 3) := by
  apply wp_noErr_iff.1
  refine wp_forN' (fun i (m : Store α) => Inv 3 2 sysRestr m ∧ Only t mem m ∧
    (mem.mat t).SameShape (m.mat t) ∧
    ∀ r, r < i * 3 → (m.mat t).ent r 0 = s.val (pick3 fx fy ft (r % 3)) (r / 3))
    ⟨hi, Only.refl _ _, Mat.SameShape.refl _, fun r hr => by omega⟩ ?_ ?_
  · rintro i hin m ⟨hinv, o, sh, v⟩
    have hlt : i < s.n := by omega
    have ok := hs.ok hlt
    obtain ⟨m1, m2, m3, e1, e2, e3, o3, sh3, v3⟩ := set3_spec (hinv.mat t) hin
      (by rw [sh.width, hw]) (by rw [sh.height, hh]) (s.val fx i) (s.val fy i) (s.val ft i)
    rw [ok.rd fx hlt, ok_bind, e1, ok_bind, ok.rd fy hlt, ok_bind, e2, ok_bind, ok.rd ft hlt,
      ok_bind, e3]
    refine (wp_ok _).2 ⟨hinv.shaped o3 sh3, o.trans o3, sh.trans sh3, fun r hr => ?_⟩
    rw [v3 r (by omega)]
    by_cases h : r / 3 = i
    · rw [if_pos h, h]
      unfold pick3
      split
      · rfl
      · split <;> rfl
    · rw [if_neg h, v r (by omega)]
  · rintro m ⟨hinv, o, sh, v⟩
    exact ⟨hinv, o, by rw [sh.width, hw], by rw [sh.height, hh], v⟩

theorem pick3_v (r : Nat) : ∀ c : Coord, r % 3 = c.d → pick3 Fld.v_x .v_y .v_theta (r % 3) = c.v := by
  intro c h; rw [h]; cases c <;> rfl

/-- Row of coordinate `c` of body `i`. -/
def Coord.row (c : Coord) (i : Nat) : Nat := i * 3 + c.d

theorem Coord.row_mod (c : Coord) (i : Nat) : c.row i % 3 = c.d := by
  have := c.d_lt; simp only [Coord.row]; omega

theorem Coord.row_div (c : Coord) (i : Nat) : c.row i / 3 = i := by
  have := c.d_lt; simp only [Coord.row]; omega

theorem Coord.row_lt (c : Coord) {i n : Nat} (h : i < n) : c.row i < n * 3 := by
  have := c.d_lt; simp only [Coord.row]; omega

theorem Coord.row_ex {r n : Nat} (h : r < n * 3) : ∃ (c : Coord) (i : Nat), i < n ∧ r = c.row i := by
  rcases (by omega : r % 3 = 0 ∨ r % 3 = 1 ∨ r % 3 = 2) with h3 | h3 | h3
  · exact ⟨.x, r / 3, by omega, by simp only [Coord.row, Coord.d]; omega⟩
  · exact ⟨.y, r / 3, by omega, by simp only [Coord.row, Coord.d]; omega⟩
  · exact ⟨.th, r / 3, by omega, by simp only [Coord.row, Coord.d]; omega⟩

theorem loadQdot_spec {n : Nat} {s : SysState α} (hs : s.Wf) (hn : n ≤ s.n) {mem : Store α}
    (hi : Inv 3 2 sysRestr mem) :
    ∃ mem', loadQdot n s mem = .ok mem' ∧ Inv 3 2 sysRestr mem' ∧ Only .ivQdot mem mem' ∧
      (mem'.mat .ivQdot).width = 1 ∧ (mem'.mat .ivQdot).height = n * 3 ∧
      ∀ (c : Coord) i, i < n → (mem'.mat .ivQdot).ent (c.row i) 0 = s.val c.v i := by
  obtain ⟨m1, e1, o1, wf1, w1, h1, p1, _⟩ := Store.resize_spec2 mem .ivQdot 1 (n * 3) (hi.mat _)
  have i1 : Inv 3 2 sysRestr m1 := hi.of_only o1 wf1 (fun p => p1 (hi.plain _ p))
  obtain ⟨m2, e2, i2, o2, w2, h2, v2⟩ := loadVec_spec (fx := .v_x) (fy := .v_y) (ft := .v_theta)
    hs hn i1 w1 h1
  refine ⟨m2, by rw [loadQdot, e1, ok_bind, e2], i2, o1.trans o2, w2, h2, fun c i hc => ?_⟩
  rw [v2 _ (c.row_lt hc), c.row_mod, c.row_div]
  cases c <;> rfl

theorem loadFext_spec {n : Nat} {s : SysState α} (hs : s.Wf) (hn : n ≤ s.n) {mem : Store α}
    (hi : Inv 3 2 sysRestr mem) :
    ∃ mem', loadFext n s mem = .ok mem' ∧ Inv 3 2 sysRestr mem' ∧ Only .ivFExt mem mem' ∧
      (mem'.mat .ivFExt).width = 1 ∧ (mem'.mat .ivFExt).height = n * 3 ∧
      ∀ (c : Coord) i, i < n → (mem'.mat .ivFExt).ent (c.row i) 0 = s.val c.f i := by
  obtain ⟨m1, e1, h1⟩ := Store.init_spec mem .ivFExt 1 (3 * n) (Fp.lit 0) (hi.mat _)
  have i1 := hi.wrote h1
  obtain ⟨m2, e2, i2, o2, w2, h2, v2⟩ := loadVec_spec (fx := .f_x) (fy := .f_y) (ft := .t)
    hs hn i1 h1.width (by rw [h1.height]; omega)
  refine ⟨m2, by rw [loadFext, e1, ok_bind, e2], i2, h1.only.trans o2, w2, h2, fun c i hc => ?_⟩
  rw [v2 _ (c.row_lt hc), c.row_mod, c.row_div]
  cases c <;> rfl

/-! ## Reactions and accelerations -/

theorem writeReactions_spec {mf : Nat} {mem : Store α} (wf : (mem.smat .ivSreg0).WF 3 2)
    (hh : (mem.smat .ivSreg0).height = mf) {s : SysState α} (hs : s.Wf) (hc : mf ≤ s.nc) :
    ∃ s', writeReactions mf mem s = .ok s' ∧ s' = { s with rf := s'.rf } ∧ s'.Wf ∧
      (∀ (c : Coord) f j, f < mf → j < 2 →
        s'.rval c.r (f * 2 + j) = (mem.smat .ivSreg0).ent f (j * 3 + c.d)) := by
  apply wp_noErr_iff.1
  refine wp_forN' (fun i (s1 : SysState α) => s1 = { s with rf := s1.rf } ∧ s1.Wf ∧
      (∀ (c : Coord) f j, f < i → j < 2 →
        s1.rval c.r (f * 2 + j) = (mem.smat .ivSreg0).ent f (j * 3 + c.d)))
    ⟨rfl, hs, fun c f j hf => by omega⟩ ?_ (fun s1 h => h)
  rintro i hi s1 ⟨e1, w1, v1⟩
  refine wp_forN' (fun k (s2 : SysState α) => s2 = { s with rf := s2.rf } ∧ s2.Wf ∧
      (∀ (c : Coord) f j, f * 2 + j < i * 2 + k → j < 2 →
        s2.rval c.r (f * 2 + j) = (mem.smat .ivSreg0).ent f (j * 3 + c.d)))
    ⟨e1, w1, fun c f j hf hj => v1 c f j (by omega) hj⟩ ?_
    (fun s2 h => ⟨h.1, h.2.1, fun c f j hf hj => h.2.2 c f j (by omega) hj⟩)
  rintro k hk s2 ⟨e2, w2, v2⟩
  have hnc : s2.nc = s.nc := by rw [e2]
  have hlt : i * 2 + k < s2.nc * 2 := by omega
  have ok := w2.okc hlt
  have g : ∀ d, d < 3 → mem.sget 3 2 .ivSreg0 i k d = .ok ((mem.smat .ivSreg0).ent i (k * 3 + d)) :=
    fun d hd => Store.sget_ok 3 2 mem .ivSreg0 wf (by omega) hk hd
  have ok1 := ok.rput .r_x (i * 2 + k) ((mem.smat .ivSreg0).ent i (k * 3 + 0))
  have ok2 := ok1.rput .r_y (i * 2 + k) ((mem.smat .ivSreg0).ent i (k * 3 + 1))
  have ok3 := ok2.rput .r_t (i * 2 + k) ((mem.smat .ivSreg0).ent i (k * 3 + 2))
  rw [g 0 (by decide), ok_bind, ok.rwr .r_x hlt, ok_bind, g 1 (by decide), ok_bind,
    ok1.rwr .r_y hlt, ok_bind, g 2 (by decide), ok_bind, ok2.rwr .r_t hlt]
  refine (wp_ok _).2 ⟨?_, ok3.wf, fun c f j hf hj => ?_⟩
  · rw [e2]; rfl
  · rw [ok2.rval_rput, ok1.rval_rput, ok.rval_rput]
    by_cases h : f * 2 + j = i * 2 + k
    · have hf' : f = i := by omega
      have hj' : j = k := by omega
      subst hf' hj'
      cases c <;> simp [Coord.r, Coord.d]
    · simp only [h, and_false, if_false]
      exact v2 c f j (by omega) hj

theorem startAccel_spec {n : Nat} {mem : Store α} (wf : (mem.mat .ivFExt).WF)
    (hw : (mem.mat .ivFExt).width = 1) (hh : (mem.mat .ivFExt).height = n * 3) {s : SysState α}
    (hs : s.Wf) (hn : n ≤ s.n) :
    ∃ s', startAccel n mem s = .ok s' ∧ BodyTo s s' (· < n)
      (fun i => withAcc (fun c => (mem.mat .ivFExt).ent (c.row i) 0)) := by
  refine forN_bodies hs n hn ?_
  intro i hi s1 ok hlt _
  have g : ∀ c : Coord, mem.get .ivFExt 0 (c.row i) = .ok ((mem.mat .ivFExt).ent (c.row i) 0) :=
    fun c => Store.get_ok mem .ivFExt wf (by rw [hw]; decide) (by rw [hh]; exact c.row_lt hi)
  have ok1 := ok.put .a_x i ((mem.mat .ivFExt).ent (Coord.x.row i) 0)
  have ok2 := ok1.put .a_y i ((mem.mat .ivFExt).ent (Coord.y.row i) 0)
  have ok3 := ok2.put .a_theta i ((mem.mat .ivFExt).ent (Coord.th.row i) 0)
  have gx : mem.get .ivFExt 0 (i * 3 + 0) = .ok ((mem.mat .ivFExt).ent (Coord.x.row i) 0) := g .x
  have gy : mem.get .ivFExt 0 (i * 3 + 1) = .ok ((mem.mat .ivFExt).ent (Coord.y.row i) 0) := g .y
  have gt : mem.get .ivFExt 0 (i * 3 + 2) = .ok ((mem.mat .ivFExt).ent (Coord.th.row i) 0) := g .th
  refine ⟨_, ?_, rfl, ok3.wf, fun f j => ?_⟩
  · rw [gx, ok_bind, ok.wr .a_x hlt, ok_bind, gy, ok_bind, ok1.wr .a_y hlt, ok_bind, gt, ok_bind,
      ok2.wr .a_theta hlt]
  · rw [ok2.val_put, ok1.val_put, ok.val_put]
    by_cases h : j = i
    · subst h
      cases f <;> simp [withAcc]
    · simp [h]

theorem scaleAccel_spec {n : Nat} {mem : Store α} (wf : (mem.mat .ivMinv).WF)
    (hw : (mem.mat .ivMinv).width = 1) (hh : (mem.mat .ivMinv).height = n * 3) {s : SysState α}
    (hs : s.Wf) (hn : n ≤ s.n) :
    ∃ s', scaleAccel n mem s = .ok s' ∧ BodyTo s s' (· < n)
      (fun i old => withAcc (fun c => old c.a * (mem.mat .ivMinv).ent (i * 3 + c.dm) 0) old) := by
  refine forN_bodies hs n hn ?_
  intro i hi s1 ok hlt _
  have g : ∀ d, d < 3 → mem.get .ivMinv 0 (i * 3 + d) = .ok ((mem.mat .ivMinv).ent (i * 3 + d) 0) :=
    fun d hd => Store.get_ok mem .ivMinv wf (by rw [hw]; decide) (by rw [hh]; omega)
  have ok1 := ok.put .a_x i (s1.val .a_x i * (mem.mat .ivMinv).ent (i * 3 + 0) 0)
  have ok2 := ok1.put .a_y i (s1.val .a_y i * (mem.mat .ivMinv).ent (i * 3 + 0) 0)
  have ok3 := ok2.put .a_theta i (s1.val .a_theta i * (mem.mat .ivMinv).ent (i * 3 + 2) 0)
  refine ⟨_, ?_, rfl, ok3.wf, fun f j => ?_⟩
  · rw [g 0 (by decide), ok_bind, g 2 (by decide), ok_bind, mulBy, ok.rd .a_x hlt, ok_bind,
      ok.wr .a_x hlt, ok_bind, mulBy, ok1.rd .a_y hlt, ok_bind, ok.val_put,
      if_neg (by simp), ok1.wr .a_y hlt, ok_bind, mulBy, ok2.rd .a_theta hlt, ok_bind,
      ok1.val_put, if_neg (by simp), ok.val_put, if_neg (by simp), ok2.wr .a_theta hlt]
  · rw [ok2.val_put, ok1.val_put, ok.val_put]
    by_cases h : j = i
    · subst h
      cases f <;> simp [withAcc, Coord.a, Coord.dm]
    · simp [h]

end

section
open SysState Finset

/-- The state has the same arrays as `s` except for the accelerations, which are those of `s` plus
`d`. -/
def AccPlus (s s' : SysState ℝ) (d : Coord → Nat → ℝ) : Prop :=
  s' = { s with fld := s'.fld } ∧ s'.Wf ∧ (∀ (c : Coord) i, s'.val c.a i = s.val c.a i + d c i) ∧
    ∀ f i, ¬ f.IsAcc → s'.val f i = s.val f i

theorem AccPlus.congr {s s' : SysState ℝ} {d d' : Coord → Nat → ℝ} (h : AccPlus s s' d)
    (he : ∀ c i, d c i = d' c i) : AccPlus s s' d' :=
  ⟨h.1, h.2.1, fun c i => by rw [h.2.2.1, he], h.2.2.2⟩

theorem AccPlus.zero {s : SysState ℝ} (h : s.Wf) {d : Coord → Nat → ℝ} (hd : ∀ c i, d c i = 0) :
    AccPlus s s d := ⟨rfl, h, fun c i => by rw [hd, add_zero], fun _ _ _ => rfl⟩

theorem AccPlus.n {s s' : SysState ℝ} {d : Coord → Nat → ℝ} (h : AccPlus s s' d) : s'.n = s.n := by
  rw [h.1]

theorem AccPlus.nc {s s' : SysState ℝ} {d : Coord → Nat → ℝ} (h : AccPlus s s' d) :
    s'.nc = s.nc := by rw [h.1]

theorem AccPlus.rval {s s' : SysState ℝ} {d : Coord → Nat → ℝ} (h : AccPlus s s' d) (f : CFld)
    (i : Nat) : s'.rval f i = s.rval f i := by rw [h.1]; rfl

theorem addReaction_step {s s1 : SysState ℝ} {d : Coord → Nat → ℝ} (h : AccPlus s s1 d) {b p : Nat}
    (hb : b < s.n) (hp : p < s.nc * 2) :
    ∃ s2, (do
      let x ← s1.rrd .r_x (p : Nat)
      let s ← s1.addTo .a_x (b : Nat) x
      let y ← s.rrd .r_y (p : Nat)
      let s ← s.addTo .a_y (b : Nat) y
      let z ← s.rrd .r_t (p : Nat)
      s.addTo .a_theta (b : Nat) z) = .ok s2 ∧
      AccPlus s s2 (fun c i => d c i + if b = i then s.rval c.r p else 0) := by
  have hb1 : b < s1.n := by rw [h.n]; exact hb
  have hp1 : p < s1.nc * 2 := by rw [h.nc]; exact hp
  have ok := h.2.1.ok hb1
  have ok1 := ok.put .a_x b (s1.val .a_x b + s1.rval .r_x p)
  have ok2 := ok1.put .a_y b (s1.val .a_y b + s1.rval .r_y p)
  have ok3 := ok2.put .a_theta b (s1.val .a_theta b + s1.rval .r_t p)
  refine ⟨_, ?_, ?_, ok3.wf, ?_, ?_⟩
  · rw [ok.rrd .r_x hp1, ok_bind, ok.addTo .a_x hb1, ok_bind, ok1.rrd .r_y hp1, ok_bind,
      rval_put, ok1.addTo .a_y hb1, ok_bind, ok.val_put, if_neg (by simp), ok2.rrd .r_t hp1,
      ok_bind, rval_put, rval_put, ok2.addTo .a_theta hb1, ok1.val_put, if_neg (by simp),
      ok.val_put, if_neg (by simp)]
  · rw [h.1]; rfl
  · intro c i
    rw [ok2.val_put, ok1.val_put, ok.val_put]
    have key : ∀ c : Coord, s1.val c.a i + (if b = i then s1.rval c.r p else 0) =
        s.val c.a i + (d c i + if b = i then s.rval c.r p else 0) := by
      intro c
      rw [h.2.2.1, h.rval]; ring
    rw [← key c]
    by_cases hi : i = b
    · subst hi
      cases c <;> simp [Coord.a, Coord.r]
    · have : ¬ b = i := fun e => hi e.symm
      simp [hi, this]
  · intro f i hf
    rw [ok2.val_put, ok1.val_put, ok.val_put, h.2.2.2 f i hf]
    have h1 : f ≠ .a_x := fun e => hf ⟨.x, e⟩
    have h2 : f ≠ .a_y := fun e => hf ⟨.y, e⟩
    have h3 : f ≠ .a_theta := fun e => hf ⟨.th, e⟩
    simp [h1, h2, h3]

theorem addReaction_spec {c : Con ℝ} {bodies : Nat → Body ℝ} {B : Nat → Nat} {s s1 : SysState ℝ}
    {d : Coord → Nat → ℝ} (h : AccPlus s s1 d) {jf : Nat} (hn : c.bodyCount ≤ 2)
    (hidx : ∀ k, k < c.bodyCount → c.idx bodies k = .ok (B k : Int))
    (hB : ∀ k, k < c.bodyCount → B k < s.n) (hjf : jf < s.nc) :
    ∃ s2, addReaction c bodies jf s1 = .ok s2 ∧
      AccPlus s s2 (fun q i => d q i +
        ∑ k ∈ range c.bodyCount, if B k = i then s.rval q.r (jf * 2 + k) else 0) := by
  apply wp_noErr_iff.1
  refine wp_forN' (fun k (s2 : SysState ℝ) => AccPlus s s2 (fun q i => d q i +
        ∑ k ∈ range k, if B k = i then s.rval q.r (jf * 2 + k) else 0))
    (h.congr fun c i => by simp) ?_ (fun s2 h => h)
  intro k hk s2 h2
  rw [hidx k hk, ok_bind]
  obtain ⟨s3, e, h3⟩ := addReaction_step h2 (hB k hk) (p := jf * 2 + k) (by omega)
  refine Wp.of_ok e (h3.congr fun q i => ?_)
  rw [sum_range_succ]; ring

/-- The sum of the reactions of the rows `0 .. m-1` on body `i`. -/
noncomputable def World.reactSum (w : World ℝ) (B : Nat → Nat → Nat) (r : CFld → Nat → ℝ) (m : Nat)
    (q : Coord) (i : Nat) : ℝ :=
  ∑ f ∈ range m, ∑ k ∈ range (w.rowN f),
    if B (w.rowC f) k = i then r q.r (f * 2 + k) else 0

theorem addReactions_spec {w : World ℝ} {B : Nat → Nat → Nat} (hfit : w.Fit B) {s : SysState ℝ}
    (hs : s.Wf) (hn : w.bodyCount ≤ s.n) (hc : w.fullCount ≤ s.nc) :
    ∃ z, w.addReactions s = .ok z ∧ AccPlus s z.1 (w.reactSum B s.rval w.fullCount) := by
  apply wp_noErr_iff.1
  refine wp_forN' (fun i (z : SysState ℝ × Nat) => z.2 = w.off i ∧
      AccPlus s z.1 (w.reactSum B s.rval (w.off i)))
    ⟨(off_zero w).symm, AccPlus.zero hs (fun c i => by simp [World.reactSum, off_zero])⟩ ?_ ?_
  · rintro i hi z ⟨hz, ha⟩
    have hi' : i < w.cs.length := hi
    have hmem : w.cs[i] ∈ w.cs := List.getElem_mem hi'
    rw [vecAt_ok hi', ok_bind]
    refine wp_forN' (fun k (z : SysState ℝ × Nat) => z.2 = w.off i + k ∧
      AccPlus s z.1 (w.reactSum B s.rval (w.off i + k))) ⟨hz, ha⟩ ?_ ?_
    · rintro k hk z' ⟨hz', ha'⟩
      have hlt := off_lt w hi' hk
      obtain ⟨-, -, r3⟩ := row_off w hi' hk
      obtain ⟨s2, e, h2⟩ := addReaction_spec (c := w.cons w.cs[i]) (bodies := w.bodies)
        (B := B w.cs[i]) ha' (jf := w.off i + k) (hfit.two _ hmem) (hfit.idx _ hmem)
        (fun k hk => Nat.lt_of_lt_of_le (hfit.lt _ hmem k hk) hn) (by omega)
      rw [hz', e, ok_bind]
      refine (wp_ok _).2 ⟨rfl, h2.congr fun q b => ?_⟩
      rw [World.reactSum, World.reactSum, ← Nat.add_assoc, sum_range_succ, World.rowN, r3]
    · rintro z' ⟨hz', ha'⟩
      rw [off_succ w hi']
      exact ⟨hz', ha'⟩
  · rintro z ⟨-, ha⟩
    rw [off_full] at ha
    exact ha

/-- The result of `applyReactions`: `R f j` are the reactions of row `f` on its body `j`. -/
theorem applyReactions_spec {w : World ℝ} {B : Nat → Nat → Nat} (hfit : w.Fit B) {mem : Store ℝ}
    (hinv : Inv 3 2 sysRestr mem) (hS : (mem.smat .ivSreg0).height = w.fullCount)
    (hwF : (mem.mat .ivFExt).width = 1) (hhF : (mem.mat .ivFExt).height = w.bodyCount * 3)
    (hwM : (mem.mat .ivMinv).width = 1) (hhM : (mem.mat .ivMinv).height = w.bodyCount * 3)
    {s : SysState ℝ} (hs : s.Wf) (hn : w.bodyCount ≤ s.n) (hc : w.fullCount ≤ s.nc) :
    ∃ s', w.applyReactions mem s = .ok s' ∧ s'.Wf ∧ s'.n = s.n ∧ s'.nc = s.nc ∧
      (∀ (q : Coord) f j, f < w.fullCount → j < 2 →
        s'.rval q.r (f * 2 + j) = (mem.smat .ivSreg0).ent f (j * 3 + q.d)) ∧
      (∀ (q : Coord) i, i < w.bodyCount → s'.val q.a i =
        ((mem.mat .ivFExt).ent (q.row i) 0 + w.reactSum B s'.rval w.fullCount q i) *
          (mem.mat .ivMinv).ent (i * 3 + q.dm) 0) ∧
      (∀ f i, ¬ f.IsAcc → s'.val f i = s.val f i) := by
  obtain ⟨s1, e1, q1, w1, r1⟩ := writeReactions_spec (hinv.smat _) hS hs hc
  have n1 : s1.n = s.n := by rw [q1]
  have c1 : s1.nc = s.nc := by rw [q1]
  have f1 : ∀ f i, s1.val f i = s.val f i := fun f i => by rw [q1]; rfl
  obtain ⟨s2, e2, q2, w2, v2⟩ := startAccel_spec (hinv.mat _) hwF hhF w1 (by rw [n1]; exact hn)
  have n2 : s2.n = s.n := by rw [q2]; exact n1
  have c2 : s2.nc = s.nc := by rw [q2]; exact c1
  have r2 : ∀ f i, s2.rval f i = s1.rval f i := fun f i => by rw [q2]; rfl
  obtain ⟨z, e3, h3⟩ := addReactions_spec hfit w2 (by rw [n2]; exact hn) (by rw [c2]; exact hc)
  have n3 : z.1.n = s.n := h3.n.trans n2
  have c3 : z.1.nc = s.nc := h3.nc.trans c2
  obtain ⟨s4, e4, q4, w4, v4⟩ := scaleAccel_spec (hinv.mat _) hwM hhM h3.2.1
    (by rw [n3]; exact hn)
  have r4 : ∀ f i, s4.rval f i = z.1.rval f i := fun f i => by rw [q4]; rfl
  have rr : ∀ f i, s4.rval f i = s1.rval f i := fun f i => by rw [r4, h3.rval, r2]
  refine ⟨s4, ?_, w4, by rw [q4]; exact n3, by rw [q4]; exact c3, ?_, ?_, ?_⟩
  · rw [World.applyReactions, e1, ok_bind, e2, ok_bind, e3, ok_bind, e4]
  · intro q f j hf hj
    rw [rr, r1 q f j hf hj]
  · intro q i hi
    have hr : s4.rval = s2.rval := by funext f i; rw [rr, r2]
    rw [v4, if_pos hi]
    beta_reduce
    rw [withAcc_a, h3.2.2.1, v2, if_pos hi]
    beta_reduce
    rw [withAcc_a, hr]
  · intro f i hf
    rw [v4]
    have hz : z.1.val f i = s.val f i := by
      rw [h3.2.2.2 f i hf, v2]
      split
      · beta_reduce
        rw [withAcc_not _ _ hf, f1]
      · exact f1 f i
    split
    · beta_reduce
      rw [withAcc_not _ _ hf, hz]
    · exact hz

end

end Scs
