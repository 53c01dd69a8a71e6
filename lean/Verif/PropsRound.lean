import Verif.RoundClose
import Verif.RoundFormat
import Verif.RoundTies
import Verif.PropsGsWorld
import Verif.PropsTwin
import Mathlib.Order.Filter.Ultrafilter.Defs
import Mathlib.Order.Filter.Ultrafilter.Basic

/-!
# Rounding errors vanish

C104. The other theorems about motion are about exact arithmetic. Here the same program of API calls
runs twice: with scalars that round every result, and exactly. `Rounded` (beginning of `Round.lean`)
says what is assumed of the scalars: operations whose exact result is in range return it up to the
relative and absolute error `prec`. `Close` (beginning of `RoundClose.lean`) says when two objects or
programs agree up to `δ`, and `Sharp` (beginning of `RoundHist.lean`) says which programs are meant:
with elimination, with conjugate gradients, or for the optimized system with Gauss-Seidel, unless a
number such a solver compares with its tolerances equals them exactly. `NearlySharp` (beginning of `RoundTies.lean`) is `Sharp` without this exception.
-/

namespace Scs

open Filter Topology

theorem runAll_append {α : Type} [Zero α] [Add α] [Mul α] [Sub α] [Neg α] [Fp α] (cls : Cls) :
    ∀ (a b : List (Op α)) (w : World α), runAll cls (a ++ b) w = runAll cls a w >>= runAll cls b
  | [], b, w => rfl
  | op :: a, b, w => by
    show (op.run cls w >>= runAll cls (a ++ b)) = (op.run cls w >>= runAll cls a) >>= runAll cls b
    cases op.run cls w with
    | error e => rfl
    | ok v => exact runAll_append cls a b v

theorem Legal.left {α : Type} [Zero α] [Add α] [Mul α] [Sub α] [Neg α] [Fp α] {cls : Cls}
    {b : List (Op α)} : ∀ {a h : List (Op α)} {w : World α}, Legal cls h w (a ++ b) →
    Legal cls h w a ∧ ∀ v, runAll cls a w = .ok v → Legal cls (a.reverse ++ h) v b
  | [], h, w, hl => ⟨trivial, fun v e => by cases e; exact hl⟩
  | op :: a, h, w, hl => by
    refine ⟨⟨hl.1, hl.2.1, fun v e => (Legal.left (hl.2.2 v e)).1⟩, fun v e => ?_⟩
    obtain ⟨u, e1, e2⟩ := bind_ok_of e
    have := (Legal.left (hl.2.2 u e1)).2 v e2
    simpa using this

section
variable {ι : Type} {U : Ultrafilter ι} {F : ι → Type} [∀ i, Rounded (F i)]
  [Shrinks (U : Filter ι) F] [Nonempty ι]

/-- Closeness from nearness. -/
theorem Near.close {a : ∀ i, F i} {r : ℝ} (h : Near (U : Filter ι) a r) {ε : ℝ} (he : 0 < ε) :
    ∀ᶠ i in (U : Filter ι), Close ε (a i) r := by
  filter_upwards [h.fin, h.lim.eventually (Metric.ball_mem_nhds r he)] with i h1 h2
  exact ⟨h1, (by simpa [Real.dist_eq] using h2 : |Rounded.val (a i) - r| < ε).le⟩

theorem NBody.close {b : ∀ i, Body (F i)} {B : Body ℝ} (h : NBody (U : Filter ι) b B) {ε : ℝ}
    (he : 0 < ε) : ∀ᶠ i in (U : Filter ι), (b i).Close ε B := by
  filter_upwards [h.p_x.close he, h.p_y.close he, h.v_x.close he, h.v_y.close he, h.theta.close he,
    h.v_theta.close he, h.m.close he, h.I.close he, h.index] with i a1 a2 a3 a4 a5 a6 a7 a8 a9
  exact ⟨a1, a2, a3, a4, a5, a6, a7, a8, a9⟩

/-- The results agree up to `ε`: the lists of registered objects, the bodies in `s`, the time. -/
structure World.Agrees {F : Type} [Rounded F] (ε : ℝ) (s : Finset Nat) (v : World F) (V : World ℝ) :
    Prop where
  rb : v.rb = V.rb
  cs : v.cs = V.cs
  fg : v.fg = V.fg
  bodies : ∀ b ∈ s, (v.bodies b).Close ε (V.bodies b)
  t : Close ε v.t V.t

theorem NWorld.agrees {v : ∀ i, World (F i)} {V : World ℝ} (h : NWorld (U : Filter ι) v V) {ε : ℝ}
    (he : 0 < ε) (s : Finset Nat) : ∀ᶠ i in (U : Filter ι), (v i).Agrees ε s V := by
  filter_upwards [h.rb, h.cs, h.fg, (Filter.eventually_all_finset s).2 fun b _ =>
    (h.bodies b).close he, h.t.close he] with i a1 a2 a3 a4 a5
  exact ⟨a1, a2, a3, a4, a5⟩

variable {cls : Cls} {bodies : Nat → Body ℝ} {cons : Nat → Con ℝ} {gens : Nat → Gen ℝ}
  {genIndex : Nat → Option Int} {j j' : Nat → Nat → ℝ} {k k' : Nat → Nat → Nat}
  {OPS : List (Op ℝ)} {V : World ℝ} {δ : ι → ℝ} {b : ∀ i, Nat → Body (F i)}
  {c : ∀ i, Nat → Con (F i)} {g : ∀ i, Nat → Gen (F i)} {ops : ∀ i, List (Op (F i))}

/-- The rounded runs from memory like that of the exact run. -/
theorem round_like (hg : ∀ g, (gens g).Shipped)
    (hs : Sharp cls [] (World.construct bodies cons gens genIndex (Store.fresh j k) j' k') OPS)
    (hrun : runAll cls OPS (World.construct bodies cons gens genIndex (Store.fresh j k) j' k') = .ok V)
    (hδ : Tendsto δ (U : Filter ι) (𝓝 0)) (h0 : ∀ i, 0 < δ i)
    (hb : ∀ i k, (b i k).Close (δ i) (bodies k)) (hc : ∀ i k, (c i k).Close (δ i) (cons k))
    (hgc : ∀ i k, (g i k).Close (δ i) (gens k))
    (ho : ∀ i, List.Forall₂ (Op.Close (δ i)) (ops i) OPS) :
    ∃ v, (∀ᶠ i in (U : Filter ι), runAll cls (likeAll (δ i) (ops i) OPS)
        (World.like (δ i) (b i) (c i) (g i) genIndex cons j j' k k') = .ok (v i)) ∧
      NWorld (U : Filter ι) v V ∧ ∀ᶠ i in (U : Filter ι), Legal cls []
        (World.like (δ i) (b i) (c i) (g i) genIndex cons j j' k k') (likeAll (δ i) (ops i) OPS) :=
  rel_runAll OPS (NProg.of_close hδ hδ h0 OPS ho) (NWorld.fresh hδ hδ h0 hb hc hgc genIndex j j' k k')
    (h := fun _ => []) (H := []) (.of_forall fun _ => ⟨rfl, rfl, rfl⟩)
    (.start bodies cons gens genIndex hg j j' k k') hs hrun

end

/-- The formats and programs of a family, one for each number. -/
theorem shrinks_of {F : Nat → Type} [∀ n, Rounded (F n)] (h : ∀ n, Rounded.prec (F n) ≤ 1 / (n + 1)) :
    Shrinks (hyperfilter ℕ : Filter ℕ) F where
  lim := by
    have h1 : Tendsto (fun n : ℕ => 1 / ((n : ℝ) + 1)) (hyperfilter ℕ : Filter ℕ) (𝓝 0) :=
      tendsto_one_div_add_atTop_nhds_zero_nat.mono_left (by
        rw [← Nat.cofinite_eq_atTop]; exact hyperfilter_le_cofinite)
    exact squeeze_zero (fun n => Rounded.prec_nonneg) h h1

theorem hyper_zero : Tendsto (fun n : ℕ => 1 / ((n : ℝ) + 1)) (hyperfilter ℕ : Filter ℕ) (𝓝 0) :=
  tendsto_one_div_add_atTop_nhds_zero_nat.mono_left (by
    rw [← Nat.cofinite_eq_atTop]; exact hyperfilter_le_cofinite)

section
variable {cls : Cls} {bodies : Nat → Body ℝ} {cons : Nat → Con ℝ} {gens : Nat → Gen ℝ}
  {genIndex : Nat → Option Int} {j j' : Nat → Nat → ℝ} {k k' : Nat → Nat → Nat}
  {OPS : List (Op ℝ)} {V : World ℝ}

/-- **C104**: if a program of API calls runs through in exact arithmetic, then for every tolerance `ε`
there is `δ` such that, in every arithmetic of precision `δ` and with all parameters given up to `δ`,
whatever uninitialised memory and clocks contain, the program runs through without an error and ends
with the same registrations, bodies and time up to `ε`. -/
theorem C104_rounding_vanishes (hg : ∀ g, (gens g).Shipped)
    (hs : Sharp cls [] (World.construct bodies cons gens genIndex (Store.fresh j k) j' k') OPS)
    (hrun : runAll cls OPS (World.construct bodies cons gens genIndex (Store.fresh j k) j' k') = .ok V)
    (s : Finset Nat) {ε : ℝ} (hε : 0 < ε) :
    ∃ δ > 0, ∀ (F : Type) [Rounded F], Rounded.prec F ≤ δ →
      ∀ (b : Nat → Body F) (c : Nat → Con F) (g : Nat → Gen F) (ops : List (Op F))
        (i i' : Nat → Nat → F) (l l' : Nat → Nat → Nat),
      (∀ n, (b n).Close δ (bodies n)) → (∀ n, (c n).Close δ (cons n)) →
      (∀ n, (g n).Close δ (gens n)) → List.Forall₂ (Op.Close δ) ops OPS →
      ∃ v, runAll cls ops (World.construct b c g genIndex (Store.fresh i l) i' l') = .ok v ∧
        v.Agrees ε s V := by
  by_contra hno
  have hno : ∀ n : ℕ, ∃ (F : Type) (_ : Rounded F) (b : Nat → Body F) (c : Nat → Con F)
      (g : Nat → Gen F) (ops : List (Op F)) (i i' : Nat → Nat → F) (l l' : Nat → Nat → Nat),
      Rounded.prec F ≤ 1 / (n + 1) ∧ (∀ m, (b m).Close (1 / ((n : ℝ) + 1)) (bodies m)) ∧
      (∀ m, (c m).Close (1 / ((n : ℝ) + 1)) (cons m)) ∧ (∀ m, (g m).Close (1 / ((n : ℝ) + 1)) (gens m)) ∧
      List.Forall₂ (Op.Close (1 / ((n : ℝ) + 1))) ops OPS ∧
      ¬ ∃ v, runAll cls ops (World.construct b c g genIndex (Store.fresh i l) i' l') = .ok v ∧
        v.Agrees ε s V := by
    intro n
    by_contra h
    refine hno ⟨1 / ((n : ℝ) + 1), by positivity, fun F _ h1 b c g ops i i' l l' h2 h3 h4 h5 => ?_⟩
    by_contra h6
    exact h ⟨F, _, b, c, g, ops, i, i', l, l', h1, h2, h3, h4, h5, h6⟩
  choose F inst b c g ops i i' l l' h1 h2 h3 h4 h5 h6 using hno
  haveI := shrinks_of h1
  obtain ⟨v, e, hn, hl⟩ := round_like (U := hyperfilter ℕ) (δ := fun n => 1 / ((n : ℝ) + 1)) hg hs hrun
    hyper_zero (fun n => by positivity) h2 h3 h4 h5
  obtain ⟨n, e1, e2, e3⟩ := (e.and (hl.and (hn.agrees hε s))).exists
  refine h6 n ?_
  rcases C71_same_results_partial
    (show ∀ m, ((c n m).like (1 / ((n : ℝ) + 1)) (cons m)).SameBut (c n m) from fun _ => rfl) _ (i n) _ (i' n) _ (l n) _ (l' n)
    (likeAll_same (h5 n)) e2 with ⟨r, q, _⟩ | ⟨u, u', q, q', hu⟩
  · exact absurd (q.symm.trans e1) (by simp)
  · have : u = v n := Except.ok.inj (q.symm.trans e1)
    subst this
    exact ⟨u', q', hu.rb.trans e3.rb, hu.cs.trans e3.cs, hu.fg.trans e3.fg,
      fun m hm => by rw [hu.bodies]; exact e3.bodies m hm, by rw [hu.t]; exact e3.t⟩

theorem likeAll_last {F : Type} [Rounded F] (η : ℝ) {e : Env F} {d : F} {n : Int} {E : Env ℝ} {D : ℝ}
    {N : Int} : ∀ {os : List (Op F)} {OS : List (Op ℝ)}, os.length = OS.length →
    likeAll η (os ++ [.process e d n]) (OS ++ [.process E D N]) =
      likeAll η os OS ++ [.process (E.like η) d n]
  | [], [], _ => rfl
  | o :: os, O :: OS, h => by
    show o.like η O :: likeAll η (os ++ _) (OS ++ _) = _
    rw [likeAll_last η (Nat.succ.inj h)]
    rfl

theorem close_last {F : Type} [Rounded F] {δ : ℝ} {E : Env ℝ} {D : ℝ} {N : Int} :
    ∀ {OS : List (Op ℝ)} {os : List (Op F)},
    List.Forall₂ (Op.Close δ) os (OS ++ [.process E D N]) →
    ∃ os' e d, os = os' ++ [.process e d N] ∧ List.Forall₂ (Op.Close δ) os' OS
  | [], os, h => by
    cases h with
    | @cons a _ as _ h1 h2 =>
      cases h2
      cases a with
      | process e d n => obtain ⟨_, rfl⟩ := h1; exact ⟨[], e, d, rfl, .nil⟩
      | _ => exact h1.elim
  | O :: OS, os, h => by
    cases h with
    | @cons a _ as _ h1 h2 =>
      obtain ⟨os', e, d, rfl, h3⟩ := close_last h2
      exact ⟨a :: os', e, d, rfl, .cons h1 h3⟩

/-- **C104**, the forces reported by the optimized system: if the program ends with a call of `process`
with at least one step, the forces reported for the registered constraints agree up to `ε` as well. -/
theorem C104_reported_forces {E : Env ℝ} {D : ℝ} {steps : Int} (hg : ∀ g, (gens g).Shipped)
    (hpos : 0 < steps)
    (hs : Sharp .opt [] (World.construct bodies cons gens genIndex (Store.fresh j k) j' k')
      (OPS ++ [.process E D steps]))
    (hrun : runAll .opt (OPS ++ [.process E D steps])
      (World.construct bodies cons gens genIndex (Store.fresh j k) j' k') = .ok V)
    (s : Finset Nat) {ε : ℝ} (hε : 0 < ε) :
    ∃ δ > 0, ∀ (F : Type) [Rounded F], Rounded.prec F ≤ δ →
      ∀ (b : Nat → Body F) (c : Nat → Con F) (g : Nat → Gen F) (ops : List (Op F))
        (i i' : Nat → Nat → F) (l l' : Nat → Nat → Nat),
      (∀ n, (b n).Close δ (bodies n)) → (∀ n, (c n).Close δ (cons n)) →
      (∀ n, (g n).Close δ (gens n)) → List.Forall₂ (Op.Close δ) ops (OPS ++ [.process E D steps]) →
      ∃ v, runAll .opt ops (World.construct b c g genIndex (Store.fresh i l) i' l') = .ok v ∧
        v.Agrees ε s V ∧ ∀ c ∈ V.cs, ∀ (q : Coord) r m, r < (V.cons c).rows →
          m < (V.cons c).bodyCount → Close ε ((v.cons c).F q r m) ((V.cons c).F q r m) := by
  by_contra hno
  have hno : ∀ n : ℕ, ∃ (F : Type) (_ : Rounded F) (b : Nat → Body F) (c : Nat → Con F)
      (g : Nat → Gen F) (ops : List (Op F)) (i i' : Nat → Nat → F) (l l' : Nat → Nat → Nat),
      Rounded.prec F ≤ 1 / (n + 1) ∧ (∀ m, (b m).Close (1 / ((n : ℝ) + 1)) (bodies m)) ∧
      (∀ m, (c m).Close (1 / ((n : ℝ) + 1)) (cons m)) ∧ (∀ m, (g m).Close (1 / ((n : ℝ) + 1)) (gens m)) ∧
      List.Forall₂ (Op.Close (1 / ((n : ℝ) + 1))) ops (OPS ++ [.process E D steps]) ∧
      ¬ ∃ v, runAll .opt ops (World.construct b c g genIndex (Store.fresh i l) i' l') = .ok v ∧
        v.Agrees ε s V ∧ ∀ c ∈ V.cs, ∀ (q : Coord) r m, r < (V.cons c).rows →
          m < (V.cons c).bodyCount → Close ε ((v.cons c).F q r m) ((V.cons c).F q r m) := by
    intro n
    by_contra h
    refine hno ⟨1 / ((n : ℝ) + 1), by positivity, fun F _ h1 b c g ops i i' l l' h2 h3 h4 h5 => ?_⟩
    by_contra h6
    exact h ⟨F, _, b, c, g, ops, i, i', l, l', h1, h2, h3, h4, h5, h6⟩
  choose F inst b c g ops i i' l l' h1 h2 h3 h4 h5 h6 using hno
  haveI := shrinks_of h1
  obtain ⟨v, e, hn, hl⟩ := round_like (U := hyperfilter ℕ) (δ := fun n => 1 / ((n : ℝ) + 1)) hg hs hrun
    hyper_zero (fun n => by positivity) h2 h3 h4 h5
  have hF : ∀ᶠ n in (hyperfilter ℕ : Filter ℕ), ∀ c ∈ V.cs.toFinset, ∀ r ∈ Finset.range (V.cons c).rows,
      ∀ m ∈ Finset.range (V.cons c).bodyCount, ∀ q : Coord,
        Close ε (((v n).cons c).F q r m) ((V.cons c).F q r m) := by
    refine (Filter.eventually_all_finset _).2 fun c _ => (Filter.eventually_all_finset _).2 fun r _ =>
      (Filter.eventually_all_finset _).2 fun m _ => ?_
    filter_upwards [((hn.cons c).F_x r m).close hε, ((hn.cons c).F_y r m).close hε,
      ((hn.cons c).F_t r m).close hε] with n a1 a2 a3 q
    cases q
    · exact a1
    · exact a2
    · exact a3
  have hsh : ∀ᶠ n in (hyperfilter ℕ : Filter ℕ), ∀ c ∈ V.cs.toFinset,
      ((v n).cons c).rows = (V.cons c).rows ∧ ((v n).cons c).bodyCount = (V.cons c).bodyCount :=
    (Filter.eventually_all_finset _).2 fun c _ => (hn.cons c).rows.and (hn.cons c).bodyCount
  obtain ⟨n, e1, e2, e3, e4, e5⟩ := (e.and (hl.and ((hn.agrees hε s).and (hF.and hsh)))).exists
  refine h6 n ?_
  obtain ⟨os, en, d, eo, hos⟩ := close_last (h5 n)
  have el := likeAll_last (1 / ((n : ℝ) + 1)) (e := en) (d := d) (n := steps) (E := E) (D := D)
    (N := steps) hos.length_eq
  simp only [eo, el] at e1 e2
  obtain ⟨l1, l2⟩ := e2.left
  rw [runAll_append] at e1
  obtain ⟨u, eu, ep⟩ := bind_ok_of e1
  have ep : (u.process .opt (E.like (1 / ((n : ℝ) + 1))) d steps) = .ok (v n) := by
    obtain ⟨x, ex, ey⟩ := bind_ok_of ep
    cases ey
    exact ex
  have hc : ∀ m, ((c n m).like (1 / ((n : ℝ) + 1)) (cons m)).SameBut (c n m) := fun _ => rfl
  have lu := l2 u eu
  rw [List.append_nil] at lu
  rcases C71_same_results_partial hc _ (i n) _ (i' n) _ (l n) _ (l' n) (likeAll_same hos) l1 with
    ⟨r, q, _⟩ | ⟨u1, u', q, q', -⟩
  · exact absurd (q.symm.trans eu) (by simp)
  obtain rfl : u1 = u := Except.ok.inj (q.symm.trans eu)
  rcases C71_same_forces hc _ (i n) _ (i' n) _ (l n) _ (l' n) (likeAll_same hos) l1 eu q' lu.2.1.1
    (env := E.like (1 / ((n : ℝ) + 1))) (env' := en) (dt := d) hpos with ⟨r, q, _⟩ | ⟨x, x', q, q2, hu, hf⟩
  · exact absurd (q.symm.trans ep) (by simp)
  obtain rfl : x = v n := Except.ok.inj (q.symm.trans ep)
  refine ⟨x', ?_, ⟨hu.rb.trans e3.rb, hu.cs.trans e3.cs, hu.fg.trans e3.fg,
    fun m hm => by rw [hu.bodies]; exact e3.bodies m hm, by rw [hu.t]; exact e3.t⟩,
    fun m hm q r a hr ha => ?_⟩
  · rw [eo, runAll_append, q', ok_bind]
    show (u'.process .opt en d steps >>= runAll .opt []) = _
    rw [q2]
    rfl
  · obtain ⟨s1, s2⟩ := e5 m (List.mem_toFinset.2 hm)
    have hmem : m ∈ regCons (likeAll (1 / ((n : ℝ) + 1)) os OPS).reverse := by
      have h0 := runAll_hist (.start _ _ _ _ (fun _ => trivial) _ _ _ _) l1 eu
      rw [List.append_nil] at h0
      have h7 := World.Hist.step (G := fun _ => True) (.process _ d steps) h0 trivial ep
      exact (h7.regs.cons.mem m).mp (e3.cs ▸ hm)
    rw [hf m hmem q r a (s1 ▸ hr) (s2 ▸ ha)]
    exact e4 m (List.mem_toFinset.2 hm) r (Finset.mem_range.2 hr) a (Finset.mem_range.2 ha) q

end

/-- **C104**, the Gauss-Seidel solver: in a program that hands a Gauss-Seidel solver to the optimized
system and then never calls `initialize` again, the exception in `Sharp` is rare. Only countably many
tolerances of the solver are excluded. -/
theorem C104_gauss_seidel (W : World ℝ) (A B : List (Op ℝ)) (n : Nat)
    (hA : ∀ op ∈ A, ∀ E D steps, op ≠ .process E D steps) (hB : ∀ op ∈ B, ∀ v o, op ≠ .init v o) :
    {δ | ¬ (NearlySharp [] W (A ++ .init (some (.gs n δ)) none :: B) →
      Sharp .opt [] W (A ++ .init (some (.gs n δ)) none :: B))}.Countable :=
  almost_sharp _ (tuned_gs n) hB A [] W hA

/-- **C104**, the conjugate gradient solver: in a program that hands a conjugate gradient solver with
the tolerances `δ * a` and `δ * b` to the optimized system and then never calls `initialize` again, only
countably many `δ` are excluded. -/
theorem C104_conjugate_gradient (W : World ℝ) (A B : List (Op ℝ)) (n : Nat) (a : ℝ) {b : ℝ} (hb : 0 < b)
    (hA : ∀ op ∈ A, ∀ E D steps, op ≠ .process E D steps) (hB : ∀ op ∈ B, ∀ v o, op ≠ .init v o) :
    {δ | 0 < δ ∧ ¬ (NearlySharp [] W (A ++ .init (some (.cg n (δ * a) (δ * b))) none :: B) →
      Sharp .opt [] W (A ++ .init (some (.cg n (δ * a) (δ * b))) none :: B))}.Countable := by
  refine Set.Countable.mono (fun δ hδ => ?_) (almost_sharp _ (tuned_cg n a hb) hB A [] W hA)
  obtain ⟨h1, h2⟩ := hδ
  show ¬ (NearlySharp [] W (A ++ .init (some (.cg n (|δ| * a) (|δ| * b))) none :: B) →
    Sharp .opt [] W (A ++ .init (some (.cg n (|δ| * a) (|δ| * b))) none :: B))
  rw [abs_of_pos h1]
  exact h2

/-! ## A program with rounding -/

/-- The program of `demoOps_legal` up to the first call of `process` is `Sharp`. -/
theorem demoOps_sharp (cls : Cls) (env env2 : Env ℝ) (j j' : Nat → Nat → ℝ) (k k' : Nat → Nat → Nat) :
    Sharp cls [] (demoStart j j' k k') ((demoOps (demoOde cls) env env2).take 6) := by
  obtain ⟨w, e, d, ho⟩ := demoSet_init (j := j) (j' := j') (k := k) (k' := k') (cls := cls)
  refine ⟨by simp [Op.Valid, regBodies], trivial, fun w1 h1 => ?_⟩
  cases h1
  refine ⟨by simp [Op.Valid, regBodies], trivial, fun w1 h1 => ?_⟩
  cases h1
  refine ⟨by simp [Op.Valid, regCons], trivial, fun w1 h1 => ?_⟩
  cases h1
  refine ⟨by simp [Op.Valid, regGens], trivial, fun w1 h1 => ?_⟩
  cases h1
  refine ⟨?_, trivial, fun w1 h1 => ?_⟩
  · intro o ho'
    cases cls <;> cases ho'
    trivial
  cases e.symm.trans h1
  refine ⟨trivial, ⟨d.standard (.inl (by simp [CKind.counts, demoGear])) trivial,
    ?_⟩, fun _ _ => trivial⟩
  have h1 : ∀ g ∈ regGens (((demoOps (demoOde cls) env env2).take 5).reverse), ∀ p,
      w.gens g ≠ .spring p := fun g _ p hp => by
    rw [d.gens] at hp
    cases hp
  have h2 : ∀ sv, w.sle = some sv → sv = .ge := fun sv hp => by
    rw [d.sle] at hp
    cases hp
    rfl
  cases cls with
  | opt => exact ⟨.inl h1, .inl h2⟩
  | gen => exact ⟨.inl h1, .inl h2, fun n δ e => by cases h2 _ e⟩

/-- The bodies, the gear, gravity and the program of the example in a number format. -/
noncomputable def roundBody (φ : Format) (b : Nat) : Body (Fl φ) :=
  let B := demoBody b
  ⟨.num B.p_x, .num B.p_y, .num B.v_x, .num B.v_y, .num B.theta, .num B.v_theta, .num B.m, .num B.I,
    B.index⟩

@[inherit_doc roundBody]
noncomputable def roundCon (φ : Format) (c : Nat) : Con (Fl φ) :=
  let C := demoCon demoGear c
  ⟨.simpleGear ⟨.num 3, false, .num 0, .num 0⟩, C.index, C.bodyCount, C.bodies, fun _ _ => .bad,
    fun _ _ => .bad, fun _ _ => .bad, C.rows⟩

@[inherit_doc roundBody]
noncomputable def roundOps (φ : Format) (cls : Cls) (env : Env (Fl φ)) : List (Op (Fl φ)) :=
  [.addBody 0, .addBody 1, .addCon 0, .addGen 0,
    .init (some .ge) (match cls with | .opt => none | .gen => some (.euler .bad)), .process env (.num 2) 4]

theorem close_num {φ : Format} {δ : ℝ} (h : 0 < δ) (x : ℝ) : Close δ (Fl.num x : Fl φ) x :=
  ⟨⟨x, rfl⟩, by
    show |x - x| ≤ δ
    rw [sub_self, abs_zero]; exact h.le⟩

theorem roundOps_close {φ : Format} {δ : ℝ} (h : 0 < δ) (cls : Cls) (env : Env (Fl φ))
    (env1 env2 : Env ℝ) : (∀ n, (roundBody φ n).Close δ (demoBody n)) ∧
    (∀ n, (roundCon φ n).Close δ (demoCon demoGear n)) ∧
    List.Forall₂ (Op.Close δ) (roundOps φ cls env) ((demoOps (demoOde cls) env1 env2).take 6) := by
  refine ⟨fun n => ⟨close_num h _, close_num h _, close_num h _, close_num h _, close_num h _,
    close_num h _, close_num h _, close_num h _, rfl⟩, fun n => ⟨?_, rfl, rfl, rfl, rfl⟩, ?_⟩
  · show CKind.Close δ _ (demoCon demoGear n).kind
    exact ⟨close_num h _, close_num h _, close_num h _, rfl⟩
  · refine .cons rfl (.cons rfl (.cons rfl (.cons rfl (.cons ⟨trivial, ?_⟩
      (.cons ⟨close_num h _, rfl⟩ .nil)))))
    cases cls <;> trivial

/-- A clock that stands still, and memory that contains zeros. -/
noncomputable def env0 : Env ℝ := ⟨fun _ _ => 0, fun _ => ⟨fun _ => 0, fun _ _ => 0, fun _ _ => 0,
  fun _ => 0, fun _ _ => 0, fun _ => 0, fun _ => 0⟩⟩

/-- The hypotheses of `C104_rounding_vanishes` can be met, for both classes, by arithmetics that round:
with enough bits, the rounded run of a program ends near the exact one. -/
example (cls : Cls) (ε : ℝ) (hε : 0 < ε) : ∃ V : World ℝ, ∃ p : Nat,
    ∀ (env : Env (Fl (wide p))) (i i' : Nat → Nat → Fl (wide p)) (l l' : Nat → Nat → Nat),
    ∃ v, runAll cls (roundOps (wide p) cls env) (World.construct (roundBody (wide p))
      (roundCon (wide p)) (fun _ => .gravity (.num 9)) (fun _ => none) (Store.fresh i l) i' l') = .ok v ∧
      v.Agrees ε {0, 1} V := by
  obtain ⟨_, V, e⟩ := demoOps_legal cls env0 env0 (fun _ _ => 0) (fun _ _ => 0) (fun _ _ => 0)
    (fun _ _ => 0)
  obtain ⟨δ, h0, h⟩ := C104_rounding_vanishes (gens := fun _ => .gravity 9) (fun _ => trivial)
    (demoOps_sharp cls env0 env0 (fun _ _ => 0) (fun _ _ => 0) (fun _ _ => 0) (fun _ _ => 0)) e
    {0, 1} hε
  obtain ⟨p, hp⟩ := exists_pow_lt_of_lt_one h0 (by norm_num : (1 / 2 : ℝ) < 1)
  refine ⟨V, p, fun env i i' l l' => ?_⟩
  obtain ⟨h1, h2, h3⟩ := roundOps_close (φ := wide p) h0 cls env env0 env0
  exact h (Fl (wide p)) hp.le _ _ (fun _ => .gravity (.num 9)) _ i i' l l' h1 h2
    (fun _ => (close_num h0 9 : Close δ (Fl.num 9 : Fl (wide p)) 9)) h3

/-- The hypotheses of `C104_reported_forces` can be met. -/
example (ε : ℝ) (hε : 0 < ε) : ∃ V : World ℝ, 0 ∈ V.cs ∧ (V.cons 0).rows = 1 ∧
    (V.cons 0).bodyCount = 2 ∧ ∃ p : Nat,
    ∀ (env : Env (Fl (wide p))) (i i' : Nat → Nat → Fl (wide p)) (l l' : Nat → Nat → Nat),
    ∃ v, runAll .opt (roundOps (wide p) .opt env) (World.construct (roundBody (wide p))
      (roundCon (wide p)) (fun _ => .gravity (.num 9)) (fun _ => none) (Store.fresh i l) i' l') = .ok v ∧
      ∀ q : Coord, Close ε ((v.cons 0).F q 0 1) ((V.cons 0).F q 0 1) := by
  obtain ⟨w, e1, d, ho⟩ := demoSet_init (j := fun _ _ => 0) (j' := fun _ _ => 0) (k := fun _ _ => 0)
    (k' := fun _ _ => 0) (cls := .opt)
  obtain ⟨_, V, e⟩ := demoOps_legal .opt env0 env0 (fun _ _ => 0) (fun _ _ => 0) (fun _ _ => 0)
    (fun _ _ => 0)
  have hw : World.Hist (fun _ => True) .opt _ w := World.Hist.step
    (.init (some .ge) none) (demoSet_hist trivial) (fun o e => by cases e) e1
  have hp : w.process .opt env0 2 4 = .ok V := by
    have : (Op.run .opt (.init (some .ge) none) (demoSet (fun _ _ => 0) (fun _ _ => 0) (fun _ _ => 0)
      (fun _ _ => 0)) >>= fun w => Op.run .opt (.process env0 2 4) w >>= runAll .opt []) = .ok V := e
    rw [show Op.run .opt (.init (some .ge) none) (demoSet (fun _ _ => 0) (fun _ _ => 0) (fun _ _ => 0)
      (fun _ _ => 0)) = _ from e1, ok_bind] at this
    obtain ⟨x, ex, ey⟩ := bind_ok_of this
    cases ey
    exact ex
  have hm := C56_process_only_moves hw hp
  have hc : (0 : Nat) ∈ V.cs := by rw [hm.cs, d.cs_eq]; simp
  have hr : (V.cons 0).rows = 1 := by rw [hm.rows, d.rows]; rfl
  have hbc : (V.cons 0).bodyCount = 2 := by rw [hm.bodyCount, d.count]; rfl
  obtain ⟨δ, h0, h⟩ := C104_reported_forces (OPS := (demoOps none env0 env0).take 5)
    (gens := fun _ => .gravity 9) (fun _ => trivial) (by decide)
    (demoOps_sharp .opt env0 env0 (fun _ _ => 0) (fun _ _ => 0) (fun _ _ => 0) (fun _ _ => 0)) e
    {0, 1} hε
  obtain ⟨p, hp⟩ := exists_pow_lt_of_lt_one h0 (by norm_num : (1 / 2 : ℝ) < 1)
  refine ⟨V, hc, hr, hbc, p, fun env i i' l l' => ?_⟩
  obtain ⟨h1, h2, h3⟩ := roundOps_close (φ := wide p) h0 .opt env env0 env0
  obtain ⟨v, ev, _, hf⟩ := h (Fl (wide p)) hp.le _ _ (fun _ => .gravity (.num 9)) _ i i' l l'
    h1 h2 (fun _ => (close_num h0 9 : Close δ (Fl.num 9 : Fl (wide p)) 9)) h3
  exact ⟨v, ev, fun q => hf 0 hc q 0 1 (by omega) (by omega)⟩

/-- The bodies and the gear of the example with another solver. -/
noncomputable def roundGs (φ : Format) (sv : Solver (Fl φ)) (env : Env (Fl φ)) : List (Op (Fl φ)) :=
  [.addBody 0, .addBody 1, .addCon 0, .addGen 0, .init (some sv) none, .process env (.num 2) 4]

/-- What `NearlySharp` demands of the example. -/
theorem demo_nearly (sv : Solver ℝ) :
    NearlySharp [] (demoStart (fun _ _ => 0) (fun _ _ => 0) (fun _ _ => 0) (fun _ _ => 0))
      ([.addBody 0, .addBody 1, .addCon 0, .addGen 0] ++ .init (some sv) none ::
        [.process env0 2 4]) := by
  obtain ⟨w, e, d, -⟩ := demoSet_init (j := fun _ _ => 0) (j' := fun _ _ => 0) (k := fun _ _ => 0)
    (k' := fun _ _ => 0) (cls := .opt)
  cases e
  have hst := d.standard (.inl (by simp [CKind.counts, demoGear])) trivial
  refine ⟨by simp [Op.Valid, regBodies], fun _ _ _ e => (by cases e), fun w1 h1 => ?_⟩
  cases h1
  refine ⟨by simp [Op.Valid, regBodies], fun _ _ _ e => (by cases e), fun w1 h1 => ?_⟩
  cases h1
  refine ⟨by simp [Op.Valid, regCons], fun _ _ _ e => (by cases e), fun w1 h1 => ?_⟩
  cases h1
  refine ⟨by simp [Op.Valid, regGens], fun _ _ _ e => (by cases e), fun w1 h1 => ?_⟩
  cases h1
  refine ⟨fun o e => (by cases e), fun _ _ _ e => (by cases e), fun w1 h1 => ?_⟩
  cases h1
  refine ⟨trivial, fun E D steps _ => ⟨⟨hst.kind, hst.bodies, hst.gens, hst.near⟩, .inl ?_⟩,
    fun _ _ => trivial⟩
  intro g _ p hp
  cases hp

/-- The hypotheses of `C104_gauss_seidel` and `C104_rounding_vanishes` can be met by programs that use
the Gauss-Seidel solver: in every interval of positive tolerances there is one for which the rounded run
ends near the exact one. -/
example (a b : ℝ) (ha : 0 < a) (hab : a < b) (ε : ℝ) (hε : 0 < ε) :
    ∃ δ, a < δ ∧ δ < b ∧ ∃ (n : Nat) (V : World ℝ) (p : Nat),
    ∀ (env : Env (Fl (wide p))) (i i' : Nat → Nat → Fl (wide p)) (l l' : Nat → Nat → Nat),
    ∃ v, runAll .opt (roundGs (wide p) (.gs n (.num δ)) env) (World.construct (roundBody (wide p))
      (roundCon (wide p)) (fun _ => .gravity (.num 9)) (fun _ => none) (Store.fresh i l) i' l') = .ok v ∧
      v.Agrees ε {0, 1} V := by
  let W0 := demoStart (fun _ _ => 0) (fun _ _ => 0) (fun _ _ => 0) (fun _ _ => 0)
  let A : List (Op ℝ) := [.addBody 0, .addBody 1, .addCon 0, .addGen 0]
  let B : List (Op ℝ) := [.process env0 2 4]
  obtain ⟨δ, h1, h2, hs⟩ := (Almost.all fun n => (C104_gauss_seidel W0 A B n (by simp [A])
    (by simp [B]) : Almost _)).exists hab
  obtain ⟨w, e, d, -⟩ := demoSet_init (j := fun _ _ => 0) (j' := fun _ _ => 0) (k := fun _ _ => 0)
    (k' := fun _ _ => 0) (cls := .opt)
  cases e
  have hw := (demoSet_hist (G := Gen.Shipped) (j := fun _ _ => 0) (j' := fun _ _ => 0)
    (k := fun _ _ => 0) (k' := fun _ _ => 0) (cls := .opt) trivial).step
    (.init (some .ge) none) (fun o e => by cases e) rfl
  have hst := d.standard (.inl (by simp [CKind.counts, demoGear])) trivial
  obtain ⟨n, w', hn⟩ := C85_enough_iterations (fun g => Gen.tame) hw hst
    (d.sensible trivial trivial) (ha.trans h1) two_pos env0 4
  have hn := hn n le_rfl
  refine ⟨δ, h1, h2, n, { w' with sle := some (.gs n δ) }, ?_⟩
  have hsh : Sharp .opt [] W0 (A ++ .init (some (.gs n δ)) none :: B) := by
    exact hs n (demo_nearly _)
  obtain ⟨η, h0, h⟩ := C104_rounding_vanishes (gens := fun _ => .gravity 9) (fun _ => trivial) hsh
    (by
      show ((({ demoSet _ _ _ _ with sle := some (.gs n δ) } : World ℝ).process .opt env0 2 4) >>=
        runAll .opt []) = _
      exact (congrArg (· >>= runAll .opt []) hn).trans rfl) {0, 1} hε
  obtain ⟨p, hp⟩ := exists_pow_lt_of_lt_one h0 (by norm_num : (1 / 2 : ℝ) < 1)
  refine ⟨p, fun env i i' l l' => ?_⟩
  obtain ⟨c1, c2, -⟩ := roundOps_close (φ := wide p) h0 .opt env env0 env0
  refine h (Fl (wide p)) hp.le _ _ (fun _ => .gravity (.num 9)) _ i i' l l' c1 c2
    (fun _ => (close_num h0 9 : Close η (Fl.num 9 : Fl (wide p)) 9)) ?_
  exact .cons rfl (.cons rfl (.cons rfl (.cons rfl (.cons ⟨⟨rfl, close_num h0 _⟩, trivial⟩
    (.cons ⟨close_num h0 _, rfl⟩ .nil)))))

/-- The hypotheses of `C104_conjugate_gradient` and `C104_rounding_vanishes` can be met by programs that
use conjugate gradients. -/
example (a b : ℝ) (ha : 0 < a) (hab : a < b) (ε : ℝ) (hε : 0 < ε) :
    ∃ δ, a < δ ∧ δ < b ∧ ∃ (V : World ℝ) (p : Nat),
    ∀ (env : Env (Fl (wide p))) (i i' : Nat → Nat → Fl (wide p)) (l l' : Nat → Nat → Nat),
    ∃ v, runAll .opt (roundGs (wide p) (.cg 2 (.num (δ * 3)) (.num (δ * 1))) env)
      (World.construct (roundBody (wide p)) (roundCon (wide p)) (fun _ => .gravity (.num 9))
        (fun _ => none) (Store.fresh i l) i' l') = .ok v ∧ v.Agrees ε {0, 1} V := by
  let W0 := demoStart (fun _ _ => 0) (fun _ _ => 0) (fun _ _ => 0) (fun _ _ => 0)
  let A : List (Op ℝ) := [.addBody 0, .addBody 1, .addCon 0, .addGen 0]
  let B : List (Op ℝ) := [.process env0 2 4]
  have hall : Almost fun δ => 0 < δ →
      NearlySharp [] W0 (A ++ .init (some (.cg 2 (δ * 3) (δ * 1))) none :: B) →
      Sharp .opt [] W0 (A ++ .init (some (.cg 2 (δ * 3) (δ * 1))) none :: B) :=
    Set.Countable.mono (fun δ h => _root_.not_imp.1 h)
      (C104_conjugate_gradient W0 A B 2 3 one_pos (by simp [A]) (by simp [B]))
  obtain ⟨δ, h1, h2, hs⟩ := hall.exists hab
  have hsh := hs (ha.trans h1) (demo_nearly _)
  obtain ⟨w, e, d, -⟩ := demoSet_init (j := fun _ _ => 0) (j' := fun _ _ => 0) (k := fun _ _ => 0)
    (k' := fun _ _ => 0) (cls := .opt)
  cases e
  have hw := (demoSet_hist (G := Gen.Shipped) (j := fun _ _ => 0) (j' := fun _ _ => 0)
    (k := fun _ _ => 0) (k' := fun _ _ => 0) (cls := .opt) trivial).step
    (.init (some (.cg 2 (δ * 3) (δ * 1))) none) (fun o e => by cases e) rfl
  have d' : Demo demoGear (.gravity 9) [0] [0] (.cg 2 (δ * 3) (δ * 1))
      [.init (some (.cg 2 (δ * 3) (δ * 1))) none, .addGen 0, .addCon 0, .addBody 1, .addBody 0]
      ((demoSet (fun _ _ => 0) (fun _ _ => 0) (fun _ _ => 0) (fun _ _ => 0)).optInit
        (some (.cg 2 (δ * 3) (δ * 1)))) :=
    ⟨⟨d.regB, d.regC, d.regG, d.body, d.con, d.gens, d.rb, d.cs_eq, d.fg_eq, rfl, d.bias, d.new, _,
      hw.regs⟩, hw⟩
  obtain ⟨V, hn⟩ := d'.runs trivial (turns_gear _) (le_refl 2) two_ne_zero 4 env0
  refine ⟨δ, h1, h2, V, ?_⟩
  obtain ⟨η, h0, h⟩ := C104_rounding_vanishes (gens := fun _ => .gravity 9) (fun _ => trivial) hsh
    (by
      show ((({ demoSet _ _ _ _ with sle := some (.cg 2 (δ * 3) (δ * 1)) } : World ℝ).process .opt
        env0 2 4) >>= runAll .opt []) = _
      exact (congrArg (· >>= runAll .opt []) hn).trans rfl) {0, 1} hε
  obtain ⟨p, hp⟩ := exists_pow_lt_of_lt_one h0 (by norm_num : (1 / 2 : ℝ) < 1)
  refine ⟨p, fun env i i' l l' => ?_⟩
  obtain ⟨c1, c2, -⟩ := roundOps_close (φ := wide p) h0 .opt env env0 env0
  refine h (Fl (wide p)) hp.le _ _ (fun _ => .gravity (.num 9)) _ i i' l l' c1 c2
    (fun _ => (close_num h0 9 : Close η (Fl.num 9 : Fl (wide p)) 9)) ?_
  exact .cons rfl (.cons rfl (.cons rfl (.cons rfl (.cons
    ⟨⟨rfl, close_num h0 _, close_num h0 _⟩, trivial⟩ (.cons ⟨close_num h0 _, rfl⟩ .nil)))))

end Scs
