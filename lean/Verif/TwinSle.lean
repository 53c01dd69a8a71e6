import Verif.Twin

/-!
# The solvers do not see what their storage contained before
-/

namespace Scs

section
variable {α : Type} [Zero α] [Add α] [Mul α] [Sub α] [Neg α] [Fp α]
  {ks : List MId} {ls : List SId} {s s' : Store α}

theorem Twin.prodAt (h : Twin ks ls s s') {a b : MId} (ha : a ∈ ks) (hb : b ∈ ks) (i j : Nat) :
    s'.prodAt a b i j = s.prodAt a b i j := by
  unfold Store.prodAt
  rw [h.get ha, h.get hb]

theorem Twin.set_keep (h : Twin ks ls s s') {t : MId} (ht : t ∈ ks) (c r : Nat) (v : α) :
    Rel (fun u u' => Twin ks ls u u' ∧ Same s u) (s.set t c r v) (s'.set t c r v) :=
  ((h.set ht c r v).wp (h.ok.set_safe t c r v).any (wp_any _)).mono (fun _ _ q => ⟨q.1, q.2.1⟩)

theorem Twin.formM (h : Twin ks ls s s') {J reg : SId} {W : MId} (hJ : J ∈ ls) (hW : W ∈ ks)
    (hne : J ≠ reg) (M : MId) :
    Rel (Twin (M :: ks) (reg :: ls)) (s.formM 3 2 J W reg M) (s'.formM 3 2 J W reg M) := by
  unfold Store.formM
  refine rel_bind (h.srightScale hJ hW hne) (fun u u' H => ?_)
  exact H.multiplyTranspose (List.mem_cons_self ..) (List.mem_cons_of_mem _ hJ) M

/-! ## Gauss-Seidel -/

theorem Twin.gsRowL (h : Twin ks ls s s') {left right limits kn k : MId} (h1 : left ∈ ks)
    (h2 : right ∈ ks) (h3 : limits ∈ ks) (h4 : kn ∈ ks) (h5 : k ∈ ks) (n i : Nat) (d : α) :
    Rel (fun q q' => Twin ks ls q.1 q'.1 ∧ q'.2 = q.2) (Store.gsRowL left right limits kn k n i s d)
      (Store.gsRowL left right limits kn k n i s' d) := by
  unfold Store.gsRowL
  refine rel_eq (by simp only [h.prodAt h1 h4]) (fun _ _ => ?_)
  refine rel_eq (by simp only [h.prodAt h1 h5]) (fun _ _ => ?_)
  refine rel_eq (h.get h1 i i) (fun _ _ => rel_same _ (fun _ _ => ?_))
  refine rel_eq (h.get h2 0 i) (fun _ _ => rel_eq (h.get h3 0 i) (fun _ _ => ?_))
  refine rel_eq (h.get h3 1 i) (fun _ _ => rel_eq (h.get h5 0 i) (fun _ _ => ?_))
  refine rel_same _ (fun _ _ => ?_)
  exact rel_bind (h.set h4 0 i _) (fun u u' H => ⟨H, rfl⟩)

theorem Twin.gsIterationL (h : Twin ks ls s s') {left right limits kn k : MId} (h1 : left ∈ ks)
    (h2 : right ∈ ks) (h3 : limits ∈ ks) (h4 : kn ∈ ks) (h5 : k ∈ ks) :
    Rel (fun q q' => Twin ks ls q.1 q'.1 ∧ q'.2 = q.2) (s.gsIterationL left right limits kn k)
      (s'.gsIterationL left right limits kn k) := by
  unfold Store.gsIterationL
  rw [h.height k h5]
  refine rel_for (R := fun (q q' : Store α × α) => Twin ks ls q.1 q'.1 ∧ q'.2 = q.2) ⟨h, rfl⟩
    (fun i _ q q' H => ?_)
  rw [H.2]
  exact H.1.gsRowL h1 h2 h3 h4 h5 _ i q.2

theorem Twin.gsLoop {sweep : Store α → Exec (Store α × α)} (d : α)
    (hs : ∀ s s', Twin ks ls s s' →
      Rel (fun q q' => Twin ks ls q.1 q'.1 ∧ q'.2 = q.2) (sweep s) (sweep s')) (n : Nat)
    (h : Twin ks ls s s') : Rel (fun q q' => Twin ks ls q.1 q'.1 ∧ q'.2 = q.2)
      (gsLoop sweep d n s) (gsLoop sweep d n s') := by
  induction n generalizing s s' with
  | zero => exact ⟨h, rfl⟩
  | succ n ih =>
    refine rel_bind (hs s s' h) (fun q q' H => ?_)
    rw [H.2]
    exact rel_ite Iff.rfl (fun _ => ⟨H.1, rfl⟩) (fun _ => ih H.1)

theorem Twin.warmStart (h : Twin ks ls s s') {p r : MId} (hp : p ∈ ks) (hr : r ∈ ks) (n : Nat) :
    Rel (Twin ks ls) (s.warmStart (some p) r n) (s'.warmStart (some p) r n) := by
  refine rel_ite (by rw [h.height p hp]) (fun _ => ?_) (fun _ => h)
  refine (h.setMatFrom hp r).mono (fun _ _ H => H.subk (fun a m => List.mem_cons_of_mem _ m))

theorem Twin.gsSolveL (h : Twin ks ls s s') {J : SId} {W right limits r : MId} (hJ : J ∈ ls)
    (hW : W ∈ ks) (h2 : right ∈ ks) (h3 : limits ∈ ks) (h4 : r ∈ ks) (hne : J ≠ .gsReg)
    (n : Nat) (d : α) : Rel (fun q q' => Twin ks ls q.1 q'.1 ∧ q'.2 = q.2)
      (s.gsSolveL 3 2 n d J W right limits (some r) (some r))
      (s'.gsSolveL 3 2 n d J W right limits (some r) (some r)) := by
  unfold Store.gsSolveL
  simp only []
  rw [h.height right h2]
  refine rel_same _ (fun t ht => ?_)
  cases ht
  have tail : ∀ u u', Twin ks ls u u' → Rel (fun q q' => Twin ks ls q.1 q'.1 ∧ q'.2 = q.2)
      (do
        let s ← u.warmStart (some r) r (s.mat right).height
        let s ← s.formM 3 2 J W .gsReg .gsM
        Scs.gsLoop (fun s => s.gsIterationL .gsM right limits r r) d n s)
      (do
        let s ← u'.warmStart (some r) r (s.mat right).height
        let s ← s.formM 3 2 J W .gsReg .gsM
        Scs.gsLoop (fun s => s.gsIterationL .gsM right limits r r) d n s) := by
    intro u u' H
    refine rel_bind (H.warmStart h4 h4 _) (fun v v' V => ?_)
    refine rel_bind (V.formM hJ hW hne .gsM) (fun z z' Z => ?_)
    refine (Twin.gsLoop d (fun a b A => A.gsIterationL (List.mem_cons_self ..)
      (List.mem_cons_of_mem _ h2) (List.mem_cons_of_mem _ h3) (List.mem_cons_of_mem _ h4)
      (List.mem_cons_of_mem _ h4)) n Z).mono (fun q q' Q => ⟨Q.1.sub ?_ ?_, Q.2⟩)
    · exact fun a m => List.mem_cons_of_mem _ m
    · exact fun a m => List.mem_cons_of_mem _ m
  refine rel_ite (by rw [h.height r h4]) (fun _ => ?_) (fun _ => tail s s' h)
  exact rel_bind (h.init0 r _ _) (fun u u' H =>
    tail u u' (H.subk (fun a m => List.mem_cons_of_mem _ m)))

/-! ## Gaussian elimination -/

theorem Twin.geLoad (h : Twin ks ls s s') {right : MId} (h1 : .geM ∈ ks) (h2 : right ∈ ks)
    (h3 : .geA ∉ ks) {w m : Nat} {P : Nat → Nat → Prop} (hp : Part .geA (w + 1) m P s s') :
    Rel (Twin (.geA :: ks) ls) (s.geLoad right (w + 1) m) (s'.geLoad right (w + 1) m) := by
  unfold Store.geLoad
  refine (rel_forN (fun i u u' => Twin ks ls u u' ∧ Part .geA (w + 1) m (fun r _ => r < i) u u')
    ⟨h, hp.mono (fun _ _ _ _ h => (Nat.not_lt_zero _ h).elim)⟩ (fun i hi u u' H => ?_)).mono
    (fun u u' H => H.2.full H.1 (fun r c hr _ => hr))
  refine rel_bind (rel_forN (n := w + 1 - 1) (fun j u u' => Twin ks ls u u' ∧
    Part .geA (w + 1) m (fun r c => r < i ∨ (r = i ∧ c < j)) u u')
    ⟨H.1, H.2.mono (fun r c _ _ h => by omega)⟩ (fun j hj v v' V => ?_)) (fun v v' V => ?_)
  · refine rel_eq (V.1.get h1 j i) (fun x _ => ?_)
    exact (V.2.set V.1 h3 j i x).mono (fun _ _ Z => ⟨Z.1, Z.2.mono (fun r c _ _ h => by omega)⟩)
  · refine rel_eq (V.1.get h2 0 i) (fun x _ => ?_)
    exact (V.2.set V.1 h3 _ i x).mono (fun _ _ Z => ⟨Z.1, Z.2.mono (fun r c _ _ h => by omega)⟩)

theorem Twin.gePivot (h : Twin ks ls s s') (h1 : .geA ∈ ks) (m q k : Nat) :
    s'.gePivot m q k = s.gePivot m q k := by
  unfold Store.gePivot
  simp only [h.get h1]

theorem Twin.geElim (h : Twin ks ls s s') (h1 : .geA ∈ ks) (n m q k : Nat) :
    Rel (fun u u' => Twin ks ls u u' ∧ Same s u) (s.geElim n m q k) (s'.geElim n m q k) := by
  unfold Store.geElim
  refine rel_for (R := fun u u' => Twin ks ls u u' ∧ Same s u) ⟨h, Same.refl s⟩
    (fun i _ u u' H => ?_)
  refine rel_eq (H.1.get h1 _ _) (fun _ _ => rel_eq (H.1.get h1 _ _) (fun _ _ => ?_))
  refine rel_same _ (fun f _ => ?_)
  refine rel_bind (H.1.set_keep h1 _ _ _) (fun v v' V => ?_)
  refine rel_for ⟨V.1, H.2.trans V.2⟩ (fun p _ z z' Z => ?_)
  refine rel_eq (Z.1.get h1 _ _) (fun _ _ => rel_eq (Z.1.get h1 _ _) (fun _ _ => ?_))
  exact (Z.1.set_keep h1 _ _ _).mono (fun _ _ Y => ⟨Y.1, Z.2.trans Y.2⟩)

theorem Twin.geLoop (h1 : .geA ∈ ks) (n m fuel q k : Nat) (h : Twin ks ls s s')
    (hm : (s.mat .geA).height = m) :
    Rel (Twin ks ls) (geLoop n m fuel q k s) (geLoop n m fuel q k s') := by
  induction fuel generalizing q k s s' with
  | zero => exact rel_ite Iff.rfl (fun _ => rel_err) (fun _ => h)
  | succ fuel ih =>
    refine rel_ite Iff.rfl (fun hc => ?_) (fun _ => h)
    refine rel_eq (h.gePivot h1 m q k) (fun p hp => ?_)
    have hb : p.1 < m := (h.ok.gePivot_safe hc.1 k).of_eq hp
    refine rel_ite Iff.rfl (fun _ => ih q (k + 1) h hm) (fun _ => ?_)
    refine rel_bind' (h.rowSwap h1 rfl (by omega) (by omega)) (fun u u' e _ H => ?_)
    refine rel_bind (H.geElim h1 n m q k) (fun v v' V => ih _ _ V.1 ?_)
    obtain ⟨u1, e1, -, -, -, -, hh, -⟩ := s.rowSwap_spec .geA (h.ok.mat _)
      (a := q) (b := p.1) (by omega) (by omega)
    rw [e1] at e
    cases e
    rw [(V.2.mat .geA).height, hh, hm]

theorem Twin.geBack (h : Twin ks ls s s') {r : MId} (h1 : .geA ∈ ks) (h2 : r ∉ ks) {n m : Nat}
    {P : Nat → Nat → Prop} (hp : Part r 1 m P s s') (hm : 0 < m) :
    Rel (Twin (r :: ks) ls) (s.geBack r n m) (s'.geBack r n m) := by
  unfold Store.geBack
  refine rel_eq (h.get h1 _ _) (fun d _ => rel_chk Iff.rfl (fun _ => ?_))
  refine rel_eq (h.get h1 _ _) (fun b _ => rel_eq (h.get h1 _ _) (fun d _ => ?_))
  refine rel_same _ (fun x _ => ?_)
  refine rel_bind (hp.set h h2 0 (m - 1) x) (fun u u' H => ?_)
  refine (rel_forN (fun q u u' => Twin ks ls u u' ∧ Part r 1 m (fun p _ => m - 1 - q ≤ p) u u')
    ⟨H.1, H.2.mono (fun p c hr hc h => by omega)⟩ (fun q hq v v' V => ?_)).mono
    (fun u u' H => H.2.full H.1 (fun r c hr _ => by omega))
  refine rel_eq (V.1.get h1 _ _) (fun b _ => ?_)
  refine rel_eq ?_ (fun sum _ => ?_)
  · refine forN_congr (fun p hp' a => ?_) 0
    unfold Store.prodAt
    rw [V.1.get h1, V.2.get V.1 (show m - 1 - q ≤ m - 1 - p by omega)]
  refine rel_eq (V.1.get h1 _ _) (fun d _ => ?_)
  refine rel_ite Iff.rfl (fun _ => ?_) (fun _ => ?_)
  · exact (V.2.set V.1 h2 0 _ _).mono
      (fun _ _ Z => ⟨Z.1, Z.2.mono (fun r c _ _ h => by omega)⟩)
  · refine rel_eq (V.1.get h1 _ _) (fun d _ => rel_same _ (fun y _ => ?_))
    exact (V.2.set V.1 h2 0 _ _).mono
      (fun _ _ Z => ⟨Z.1, Z.2.mono (fun r c _ _ h => by omega)⟩)

theorem Twin.geCheck (h : Twin ks ls s s') {r : MId} (h1 : r ∈ ks) (m : Nat) :
    s'.geCheck r m = s.geCheck r m := by
  unfold Store.geCheck
  simp only [h.get h1]

/-- Resizing forgets the contents of a matrix. -/
theorem Twin.resize_drop (h : Twin ks ls s s') (t : MId) (w n : Nat) :
    Rel (fun u u' => Twin (ks.filter (· ≠ t)) ls u u' ∧ Part t w n (fun _ _ => False) u u')
      (s.resize t w n) (s'.resize t w n) :=
  (h.subk (fun _ m => (List.mem_filter.1 m).1)).resize
    (fun m => by simpa using (List.mem_filter.1 m).2) w n

theorem mem_drop {a t : MId} (m : a ∈ ks) (e : a ≠ t) : a ∈ ks.filter (· ≠ t) :=
  List.mem_filter.2 ⟨m, by simpa using e⟩

/-- Equal sizes of all dense matrices. -/
def SameDims (s u : Store α) : Prop :=
  ∀ a, (u.mat a).width = (s.mat a).width ∧ (u.mat a).height = (s.mat a).height

theorem Same.dims {u : Store α} (h : Same s u) : SameDims s u :=
  fun a => ⟨(h.mat a).width, (h.mat a).height⟩

theorem SameDims.trans {u v : Store α} (h : SameDims s u) (h' : SameDims u v) : SameDims s v :=
  fun a => ⟨(h' a).1.trans (h a).1, (h' a).2.trans (h a).2⟩

theorem Only.dims {u : Store α} {t : MId} (o : Only t s u)
    (hw : (u.mat t).width = (s.mat t).width) (hh : (u.mat t).height = (s.mat t).height) :
    SameDims s u := by
  intro a
  by_cases e : a = t
  · subst e; exact ⟨hw, hh⟩
  · rw [o.mat a e]; exact ⟨rfl, rfl⟩

theorem Part.dims {t : MId} {w n : Nat} {P : Nat → Nat → Prop} {u u' : Store α}
    (h : Part t w n P s s') (e : SameDims s u) (e' : SameDims s' u') :
    Part t w n (fun _ _ => False) u u' :=
  ⟨by rw [(e t).1, h.width], by rw [(e t).2, h.height], by rw [(e' t).1, h.width'],
    by rw [(e' t).2, h.height'], fun _ _ _ _ h => h.elim⟩

theorem geElim_any (hs : MemOk s) (n m q k : Nat) :
    Wp (s.geElim n m q k) (Same s) anyErr :=
  wp_forN_same hs (fun _ _ _ hi _ => by
    refine (wp_bind _ _).2 ((wp_any _).imp (fun _ _ => (wp_bind _ _).2 ((wp_any _).imp
      (fun _ _ => (wp_bind _ _).2 ((wp_any _).imp (fun _ _ => (wp_bind _ _).2
        ((hi.set_safe _ _ _ _).any.imp (fun _ h => ?_))))))))
    exact (wp_forN_same (h.inv hi) (fun _ _ _ hi _ => (wp_bind _ _).2 ((wp_any _).imp
      (fun _ _ => (wp_bind _ _).2 ((wp_any _).imp (fun _ _ => (hi.set_safe _ _ _ _).any)))))).imp
        (fun _ h' => h.trans h'))

theorem geLoop_any (n m fuel q k : Nat) (hs : MemOk s) (hm : (s.mat .geA).height = m) :
    Wp (geLoop n m fuel q k s) (SameDims s) anyErr := by
  induction fuel generalizing q k s with
  | zero =>
    rw [geLoop, wp_ite]
    exact ⟨fun _ => trivial, fun _ => fun a => ⟨rfl, rfl⟩⟩
  | succ fuel ih =>
    rw [geLoop, wp_ite]
    refine ⟨fun hc => ?_, fun _ => fun a => ⟨rfl, rfl⟩⟩
    rw [wp_bind]
    refine (hs.gePivot_safe hc.1 k).any.imp (fun p hp => ?_)
    rw [wp_ite]
    refine ⟨fun _ => ih q (k + 1) hs hm, fun _ => ?_⟩
    obtain ⟨u, e, o, -, wf, hw, hh, -⟩ := s.rowSwap_spec .geA (hs.mat _)
      (a := q) (b := p.1) (by omega) (by omega)
    have iu : MemOk u := hs.of_only o wf (fun p => (p rfl).elim)
    rw [e, ok_bind, wp_bind]
    refine (geElim_any iu n m q k).imp (fun v hv => ?_)
    exact (ih _ _ (hv.inv iu) (by rw [(hv.mat _).height, hh, hm])).imp
      (fun z hz => ((o.dims hw hh).trans hv.dims).trans hz)

theorem Twin.geSolve (h : Twin ks ls s s') {J : SId} {W right r : MId} (hJ : J ∈ ls)
    (hW : W ∈ ks) (h2 : right ∈ ks) (h4 : r ∈ ks) (hne : J ≠ .geReg) (h5 : right ≠ r)
    (h6 : .geA ∉ ks) (h7 : r ≠ .geM) : Rel (fun q q' => Twin ks ls q.1 q'.1 ∧ q'.2 = q.2)
      (s.geSolve 3 2 J W right (some r) (some r))
      (s'.geSolve 3 2 J W right (some r) (some r)) := by
  unfold Store.geSolve
  refine rel_bind (h.formM hJ hW hne .geM) (fun u u' H => ?_)
  have hM : MId.geM ∈ MId.geM :: ks := List.mem_cons_self ..
  simp only []
  rw [H.width _ hM, H.height _ hM]
  refine rel_chk (by rw [H.height right (List.mem_cons_of_mem _ h2)]) (fun _ => ?_)
  refine rel_ite Iff.rfl (fun _ => ⟨H.sub (fun a m => List.mem_cons_of_mem _ m)
    (fun a m => List.mem_cons_of_mem _ m), rfl⟩) (fun hm => ?_)
  refine rel_same _ (fun t ht => ?_)
  cases ht
  refine rel_bind' (H.resize_drop r 1 _) (fun v v' _ _ V => ?_)
  have hA : MId.geA ∉ (MId.geM :: ks).filter (· ≠ r) := fun m =>
    (List.mem_cons.1 (List.mem_filter.1 m).1).elim (fun e => by cases e) h6
  have hM1 : MId.geM ∈ (MId.geM :: ks).filter (· ≠ r) := mem_drop hM h7.symm
  have hR1 : right ∈ (MId.geM :: ks).filter (· ≠ r) := mem_drop (List.mem_cons_of_mem _ h2) h5
  have hr : r ≠ .geA := fun e => h6 (e ▸ h4)
  refine rel_bind' (V.1.resize hA _ _) (fun z z' ez ez' Z => ?_)
  have pz : Part r 1 (u.mat .geM).height (fun _ _ => False) z z' := by
    obtain ⟨x, e, -, o, -⟩ := V.1.ok.resize .geA ((u.mat .geM).width + 1) (u.mat .geM).height
    obtain ⟨x', e', -, o', -⟩ := V.1.ok'.resize .geA ((u.mat .geM).width + 1) (u.mat .geM).height
    rw [e] at ez
    rw [e'] at ez'
    cases ez
    cases ez'
    exact ⟨by rw [o.mat r hr]; exact V.2.width, by rw [o.mat r hr]; exact V.2.height,
      by rw [o'.mat r hr]; exact V.2.width', by rw [o'.mat r hr]; exact V.2.height',
      fun _ _ _ _ h => h.elim⟩
  refine rel_bind ((Z.1.geLoad hM1 hR1 hA Z.2).wp (Z.1.ok.geLoad_safe _ _ _).any
    (Z.1.ok'.geLoad_safe _ _ _).any) (fun a a' A => ?_)
  have hA1 : (a.mat .geA).height = (u.mat .geM).height := by
    rw [(A.2.1.mat .geA).height]; exact Z.2.height
  have hA1' : (a'.mat .geA).height = (u.mat .geM).height := by
    rw [(A.2.2.mat .geA).height]; exact Z.2.height'
  refine rel_bind ((Twin.geLoop (List.mem_cons_self ..) _ _ _ 0 0 A.1 hA1).wp
    (geLoop_any _ _ _ 0 0 A.1.ok hA1) (geLoop_any _ _ _ 0 0 A.1.ok' hA1')) (fun b b' B => ?_)
  have hrn : r ∉ MId.geA :: (MId.geM :: ks).filter (· ≠ r) := fun m =>
    (List.mem_cons.1 m).elim hr (fun m => by simpa using (List.mem_filter.1 m).2)
  refine rel_bind (B.1.geBack (List.mem_cons_self ..) hrn
    (pz.dims (A.2.1.dims.trans B.2.1) (A.2.2.dims.trans B.2.2)) (by omega)) (fun c c' C => ?_)
  refine rel_eq (C.geCheck (List.mem_cons_self ..) _) (fun _ _ => ⟨C.sub ?_ ?_, rfl⟩)
  · intro a m
    by_cases e : a = r
    · subst e; exact List.mem_cons_self ..
    · exact List.mem_cons_of_mem _ (List.mem_cons_of_mem _ (mem_drop (List.mem_cons_of_mem _ m) e))
  · exact fun a m => List.mem_cons_of_mem _ m

/-! ## Conjugate gradient -/

theorem Twin.cgMultiply (h : Twin ks ls s s') {J : SId} {W x t : MId} (hJ : J ∈ ls) (hW : W ∈ ks)
    (hx : x ∈ ks) (hWt : W ≠ t) (hxt : x ≠ t) :
    Rel (Twin (t :: ks) ls) (s.cgMultiply 3 2 J W x t) (s'.cgMultiply 3 2 J W x t) := by
  unfold Store.cgMultiply
  rw [h.height x hx]
  refine rel_bind (h.resize_drop t 1 _) (fun u u' H => ?_)
  refine rel_bind (H.1.transposeMultiplyVector hJ (mem_drop hx hxt) .cgReg0) (fun v v' V => ?_)
  refine rel_bind (V.componentMultiply (List.mem_cons_of_mem _ (mem_drop hW hWt))
    (List.mem_cons_self ..) .cgReg1) (fun z z' Z => ?_)
  refine (Z.smultiply hJ (List.mem_cons_self ..) t).mono (fun a a' A => A.subk (fun b m => ?_))
  by_cases e : b = t
  · subst e; exact List.mem_cons_self ..
  · exact List.mem_cons_of_mem _ (List.mem_cons_of_mem _ (List.mem_cons_of_mem _
      (mem_drop ((List.mem_cons.1 m).resolve_left e) e)))

theorem Twin.cgSmall (h : Twin ks ls s s') {x t : MId} (hx : x ∈ ks) (ht : t ∈ ks) (e1 e2 : α) :
    s'.cgSmall e1 e2 x t = s.cgSmall e1 e2 x t := by
  unfold Store.cgSmall
  simp only [h.get hx, h.get ht, h.height x hx]

theorem Twin.cgLoop {J : SId} {W right : MId} (hJ : J ∈ ls) (hW : W ∈ ks) (hr : right ∈ ks)
    (hx : .cgX ∈ ks) (hR : .cgR ∈ ks) (hP : .cgP ∈ ks) (hWp : W ≠ .cgAp) (e1 e2 : α) (n : Nat)
    (h : Twin ks ls s s') : Rel (fun q q' => Twin ks ls q.1 q'.1 ∧ q'.2 = q.2)
      (cgLoop 3 2 e1 e2 J W right n s) (cgLoop 3 2 e1 e2 J W right n s') := by
  induction n generalizing s s' with
  | zero => exact ⟨h, rfl⟩
  | succ n ih =>
    refine rel_bind (h.cgMultiply hJ hW hP hWp (by decide)) (fun a a' A => ?_)
    refine rel_eq (A.vms (List.mem_cons_of_mem _ hR) (by decide)) (fun rk _ => ?_)
    refine rel_eq (A.dot (List.mem_cons_of_mem _ hP) (List.mem_cons_self ..) (by decide)
      (by decide)) (fun pAp _ => rel_same _ (fun al _ => ?_))
    refine rel_bind (A.madd (List.mem_cons_of_mem _ hx) (List.mem_cons_of_mem _ hP) al)
      (fun b b' B => ?_)
    refine rel_bind (B.madd (a := .cgR) (b := .cgAp)
      (List.mem_cons_of_mem _ (List.mem_cons_of_mem _ hR))
      (List.mem_cons_of_mem _ (List.mem_cons_self ..)) (-al)) (fun c c' C => ?_)
    have C1 : Twin ks ls c c' := C.subk (fun a m =>
      List.mem_cons_of_mem _ (List.mem_cons_of_mem _ (List.mem_cons_of_mem _ m)))
    refine rel_eq (C1.cgSmall hR hr e1 e2) (fun small _ => ?_)
    refine rel_ite Iff.rfl (fun _ => ⟨C1, rfl⟩) (fun _ => ?_)
    refine rel_eq (C1.vms hR (by decide)) (fun rk1 _ => rel_same _ (fun beta _ => ?_))
    refine rel_bind (C1.pmadd hP hR beta) (fun d d' D => ?_)
    exact ih (D.subk (fun a m => List.mem_cons_of_mem _ m))

theorem Twin.drop (h : Twin ks ls s s') {t : MId} {w n : Nat} (ht : t ∉ ks) :
    Rel (Twin ks ls) (s.resize t w n) (s'.resize t w n) :=
  (h.resize ht w n).mono (fun _ _ H => H.1)

theorem Twin.cgSolve (h : Twin ks ls s s') {J : SId} {W right r : MId} (hJ : J ∈ ls)
    (hW : W ∈ ks) (h2 : right ∈ ks) (h4 : r ∈ ks) (hWr : W ≠ r) (h5 : right ≠ r)
    (n1 : .cgR ∉ ks) (n2 : .cgP ∉ ks) (n3 : .cgAp ∉ ks)
    (n4 : r ≠ .cgX) (n : Nat) (e1 e2 : α) :
    Rel (fun q q' => (q.2 = true → Twin ks ls q.1 q'.1) ∧ q'.2 = q.2)
      (s.cgSolve 3 2 n e1 e2 J W right (some r) (some r))
      (s'.cgSolve 3 2 n e1 e2 J W right (some r) (some r)) := by
  unfold Store.cgSolve
  simp only []
  rw [h.height right h2]
  refine rel_bind (h.drop n1) (fun a a' A => ?_)
  refine rel_bind (A.drop n2) (fun a a' A => ?_)
  refine rel_bind (A.drop n3) (fun a a' A => ?_)
  refine rel_bind (A.init0 .cgX 1 _) (fun b b' B => ?_)
  refine rel_bind (B.warmStart (List.mem_cons_of_mem _ h4) (List.mem_cons_self ..) _)
    (fun c c' C => ?_)
  refine rel_same _ (fun t ht => ?_)
  cases ht
  refine rel_bind (C.resize_drop r 1 _) (fun d d' D => ?_)
  have mW : W ∈ (MId.cgX :: ks).filter (· ≠ r) := mem_drop (List.mem_cons_of_mem _ hW) hWr
  have mR : right ∈ (MId.cgX :: ks).filter (· ≠ r) := mem_drop (List.mem_cons_of_mem _ h2) h5
  have mX : MId.cgX ∈ (MId.cgX :: ks).filter (· ≠ r) := mem_drop (List.mem_cons_self ..) n4.symm
  have hWp : W ≠ .cgAp := fun e => n3 (e ▸ hW)
  refine rel_bind (D.1.setMatFrom mR .cgR) (fun f f' F => ?_)
  refine rel_bind (F.cgMultiply hJ (List.mem_cons_of_mem _ mW) (List.mem_cons_of_mem _ mX) hWp
    (by decide)) (fun g g' G => ?_)
  refine rel_bind (G.madd (a := .cgR) (b := .cgAp)
    (List.mem_cons_of_mem _ (List.mem_cons_self ..)) (List.mem_cons_self ..) _) (fun k k' K => ?_)
  refine rel_eq (K.cgSmall (List.mem_cons_self ..) (List.mem_cons_of_mem _ (List.mem_cons_of_mem _
    (List.mem_cons_of_mem _ mR))) e1 e2) (fun small _ => ?_)
  have last : ∀ {L : List MId} {z z' : Store α}, Twin L ls z z' →
      (∀ a ∈ (MId.cgX :: ks).filter (· ≠ r), a ∈ L) →
      Rel (fun q q' => (q.2 = true → Twin ks ls q.1 q'.1) ∧ q'.2 = q.2)
        (do let s ← z.setMatFrom r .cgX; pure (s, true) : Exec (Store α × Bool))
        (do let s ← z'.setMatFrom r .cgX; pure (s, true) : Exec (Store α × Bool)) := by
    intro L z z' Z hL
    refine rel_bind (Z.setMatFrom (hL _ mX) r) (fun y y' Y => ⟨fun _ => Y.subk (fun a m => ?_), rfl⟩)
    by_cases e : a = r
    · subst e; exact List.mem_cons_self ..
    · exact List.mem_cons_of_mem _ (hL _ (mem_drop (List.mem_cons_of_mem _ m) e))
  refine rel_ite Iff.rfl (fun _ => ?_) (fun _ => ?_)
  · simp only [pure_bind, if_true]
    exact last K (fun a m => List.mem_cons_of_mem _ (List.mem_cons_of_mem _
      (List.mem_cons_of_mem _ m)))
  · refine rel_bind (K.setMatFrom (a := .cgR) (List.mem_cons_self ..) .cgP) (fun y y' Y => ?_)
    have up : ∀ a ∈ (MId.cgX :: ks).filter (· ≠ r),
        a ∈ (MId.cgP :: MId.cgR :: MId.cgAp :: MId.cgR :: (MId.cgX :: ks).filter (· ≠ r)) :=
      fun a m => List.mem_cons_of_mem _ (List.mem_cons_of_mem _ (List.mem_cons_of_mem _
        (List.mem_cons_of_mem _ m)))
    refine rel_bind (Twin.cgLoop hJ (up _ mW) (up _ mR) (up _ mX)
      (List.mem_cons_of_mem _ (List.mem_cons_self ..)) (List.mem_cons_self ..) hWp e1 e2 n Y)
      (fun q q' Q => ?_)
    rw [Q.2]
    refine rel_ite Iff.rfl (fun _ => last Q.1 up) (fun hq => ⟨fun h => ?_, rfl⟩)
    cases h

/-! ## The calls made by the systems -/

/-- Not Gauss-Seidel. -/
def Solver.Direct : Solver α → Prop
  | .gs .. => False
  | _ => True

theorem Twin.solve (h : Twin ks ls s s') {J : SId} {W right r : MId} (hJ : J ∈ ls)
    (hW : W ∈ ks) (h2 : right ∈ ks) (h4 : r ∈ ks) (hWr : W ≠ r) (h5 : right ≠ r)
    (hne : J ≠ .geReg) (n0 : .geA ∉ ks) (n1 : .cgR ∉ ks) (n2 : .cgP ∉ ks) (n3 : .cgAp ∉ ks)
    (n4 : r ≠ .cgX) (n5 : r ≠ .geM) {sv : Solver α} (hd : sv.Direct) :
    Rel (fun q q' => (q.2 = true → Twin ks ls q.1 q'.1) ∧ q'.2 = q.2)
      (sv.solve 3 2 s J W right (some r) (some r))
      (sv.solve 3 2 s' J W right (some r) (some r)) := by
  cases sv with
  | gs n d => exact hd.elim
  | ge => exact (h.geSolve hJ hW h2 h4 hne h5 n0 n5).mono (fun _ _ H => ⟨fun _ => H.1, H.2⟩)
  | cg n e1 e2 => exact h.cgSolve hJ hW h2 h4 hWr h5 n1 n2 n3 n4 n e1 e2

theorem Twin.optCall (h : Twin ks ls s s') (hJ : .ivJ ∈ ls) (hW : .ivMinv ∈ ks)
    (h2 : .ivRight ∈ ks) (h3 : .ivLimits ∈ ks) (h4 : .ivLambda ∈ ks)
    (n0 : .geA ∉ ks) (n1 : .cgR ∉ ks) (n2 : .cgP ∉ ks) (n3 : .cgAp ∉ ks) (sv : Solver α) :
    Rel (fun q q' => (q.2 = true → Twin ks ls q.1 q'.1) ∧ q'.2 = q.2)
      (optCall sv s) (optCall sv s') := by
  cases sv with
  | gs n d =>
    exact (h.gsSolveL hJ hW h2 h3 h4 (by decide) n d).mono (fun _ _ H => ⟨fun _ => H.1, H.2⟩)
  | ge =>
    exact h.solve (sv := .ge) hJ hW h2 h4 (by decide) (by decide) (by decide) n0 n1 n2 n3
      (by decide) (by decide) trivial
  | cg n e1 e2 =>
    exact h.solve (sv := .cg n e1 e2) hJ hW h2 h4 (by decide) (by decide) (by decide) n0 n1 n2 n3
      (by decide) (by decide) trivial

theorem Twin.optRight (h : Twin ks ls s s') (hJ : .ivJ ∈ ls) (h1 : .ivFExt ∈ ks)
    (h2 : .ivMinv ∈ ks) (h3 : .ivQdot ∈ ks) (h4 : .ivC ∈ ks) (h5 : .ivVBias ∈ ks) (bias dt : α) :
    Rel (Twin (.ivRight :: ks) ls) (optRight bias dt s) (optRight bias dt s') := by
  unfold Scs.optRight
  refine rel_bind (h.scale h1 dt .ivReg0) (fun a a' A => ?_)
  refine rel_bind (A.leftScale (a := .ivReg0) (sc := .ivMinv) (t := .ivReg1) (by simp)
    (by simp [h2]) (by decide)) (fun b b' B => ?_)
  refine rel_bind (B.addM (a := .ivReg1) (b := .ivQdot) (by simp) (by simp [h3]) .ivQdotPrime)
    (fun c c' C => rel_same _ (fun e _ => ?_))
  refine rel_bind (C.scale (a := .ivC) (by simp [h4]) e .ivBErr) (fun d d' D => ?_)
  refine rel_bind (D.smultiply (b := .ivQdotPrime) hJ (by simp) .ivReg0) (fun f f' F => ?_)
  refine rel_bind (F.addM (a := .ivReg0) (b := .ivVBias) (by simp) (by simp [h5]) .ivReg1)
    (fun g g' G => ?_)
  refine rel_bind (G.addM (a := .ivReg1) (b := .ivBErr) (by simp) (by simp) .ivReg0)
    (fun k k' K => ?_)
  refine (K.negate (a := .ivReg0) (by simp) .ivRight).mono (fun z z' Z => Z.subk (fun a m => ?_))
  rcases List.mem_cons.1 m with rfl | m
  · simp
  · simp [m]

theorem Twin.optSolve (w : World α) (dt : α) (h : Twin ks ls s s') (hJ : .ivJ ∈ ls)
    (hW : .ivMinv ∈ ks)
    (h2 : .ivRight ∈ ks) (h3 : .ivLimits ∈ ks) (h4 : .ivLambda ∈ ks)
    (n0 : .geA ∉ ks) (n1 : .cgR ∉ ks) (n2 : .cgP ∉ ks) (n3 : .cgAp ∉ ks) :
    Rel (Twin ks (.ivSreg0 :: ls)) (w.optSolve dt s) (w.optSolve dt s') := by
  unfold World.optSolve
  refine rel_same _ (fun sv _ => rel_bind (h.optCall hJ hW h2 h3 h4 n0 n1 n2 n3 sv)
    (fun q q' Q => rel_chk (by rw [Q.2]) (fun hq => rel_same _ (fun r _ => ?_))))
  refine rel_bind ((Q.1 hq).scale h4 r .ivReg0) (fun a a' A => ?_)
  exact (A.sleftScale hJ (List.mem_cons_self ..) (by decide)).mono
    (fun _ _ Z => Z.subk (fun a m => List.mem_cons_of_mem _ m))

theorem Twin.genGains (h : Twin ks ls s s') (hJ : .ivJ ∈ ls) (h1 : .ivQdot ∈ ks) (h2 : .ivKd ∈ ks)
    (h3 : .ivKs ∈ ks) (h4 : .ivC ∈ ks) (mf : Nat) :
    Rel (Twin ks ls) (genGains mf s) (genGains mf s') := by
  unfold Scs.genGains
  refine rel_bind (h.smultiply hJ h1 .ivReg0) (fun a a' A => ?_)
  refine (rel_for (R := fun (u u' : Store α) => Twin (.ivReg0 :: ks) ls u u') A
    (fun i _ b b' B => ?_)).mono (fun _ _ Z => Z.subk (fun a m => List.mem_cons_of_mem _ m))
  refine rel_eq (B.get (List.mem_cons_of_mem _ h2) 0 i) (fun _ _ => ?_)
  refine rel_eq (B.get (List.mem_cons_self ..) 0 i) (fun _ _ => ?_)
  refine rel_bind (B.set (List.mem_cons_of_mem _ h2) 0 i _) (fun c c' C => ?_)
  refine rel_eq (C.get (List.mem_cons_of_mem _ h3) 0 i) (fun _ _ => ?_)
  refine rel_eq (C.get (List.mem_cons_of_mem _ h4) 0 i) (fun _ _ => ?_)
  exact C.set (List.mem_cons_of_mem _ h3) 0 i _

theorem Twin.genRight (h : Twin ks ls s s') (hJ : .ivJ ∈ ls) (hJ' : .ivJdot ∈ ls)
    (h1 : .ivFExt ∈ ks) (h2 : .ivMinv ∈ ks) (h3 : .ivQdot ∈ ks) (h4 : .ivKs ∈ ks)
    (h5 : .ivKd ∈ ks) : Rel (Twin (.ivRight :: ks) ls) (genRight s) (genRight s') := by
  unfold Scs.genRight
  refine rel_bind (h.leftScale (t := .ivReg2) h1 h2 (by decide)) (fun a a' A => ?_)
  refine rel_bind (A.smultiply (b := .ivReg2) hJ (by simp) .ivReg0) (fun b b' B => ?_)
  refine rel_bind (B.smultiply (b := .ivQdot) hJ' (by simp [h3]) .ivReg2) (fun c c' C => ?_)
  refine rel_bind (C.negate (a := .ivReg2) (by simp) .ivReg1) (fun d d' D => ?_)
  refine rel_bind (D.subtract (a := .ivReg1) (b := .ivReg0) (by simp) (by simp) .ivReg2)
    (fun e e' E => ?_)
  refine rel_bind (E.subtract (a := .ivReg2) (b := .ivKs) (by simp) (by simp [h4]) .ivReg0)
    (fun f f' F => ?_)
  refine (F.subtract (a := .ivReg0) (b := .ivKd) (by simp) (by simp [h5]) .ivRight).mono
    (fun z z' Z => Z.subk (fun a m => ?_))
  rcases List.mem_cons.1 m with rfl | m
  · simp
  · simp [m]

theorem Twin.genSolve (w : World α) (h : Twin ks ls s s') (hJ : .ivJ ∈ ls) (hW : .ivMinv ∈ ks)
    (h2 : .ivRight ∈ ks) (h4 : .ivLambda ∈ ks)
    (n0 : .geA ∉ ks) (n1 : .cgR ∉ ks) (n2 : .cgP ∉ ks) (n3 : .cgAp ∉ ks)
    (hd : ∀ sv, w.sle = some sv → sv.Direct) :
    Rel (Twin ks (.ivSreg0 :: ls)) (w.genSolve s) (w.genSolve s') := by
  unfold World.genSolve
  refine rel_same _ (fun sv hs => rel_bind (h.solve hJ hW h2 h4 (by decide) (by decide) (by decide)
    n0 n1 n2 n3 (by decide) (by decide) (hd sv ?_)) (fun q q' Q => rel_chk (by rw [Q.2])
      (fun hq => (Q.1 hq).sleftScale hJ h4 (by decide))))
  revert hs
  cases w.sle with
  | none => intro h; cases h
  | some x => intro h; cases h; rfl

end

end Scs
