import Verif.Props.CapiObj
import Verif.Props.Capi
import Verif.Props.DicomoOrder
import Verif.Props.Replicate2

/-! Property C170: what the value of CAPI does not depend on. -/

namespace Direpack

open scoped BigOperators
open Spec

variable {N n p q : ℕ}

/-! ### The order of the cases -/

lemma capiDegreeO_cases (hn : 0 < n) (a : FitArgs) (x : Fin n → Fin p → ℝ) (y : Fin n → Fin q → ℝ) (σ : Equiv.Perm (Fin n)) (i : ℕ) (k : ℤ) :
    ∀ (l : List ℤ) (d : Dicomo) (M : Fin 6 → ℝ), capiDegreeO a (casesIn σ x) (casesIn σ y) i k l d M = capiDegreeO a (dmat x) (dmat y) i k l d M
  | [], _, _ => rfl
  | j :: js, d, M => by
    have h : d.fit (capiArgs1 a i j (casesIn σ y)) (casesIn σ x) = d.fit (capiArgs1 a i j (dmat y)) (dmat x) :=
      C125_order hn d { a with order := i, option := j.toNat } x y σ
    unfold capiDegreeO
    rw [h]
    cases (d.fit (capiArgs1 a i j (dmat y)) (dmat x)).2 with
    | error e => rfl
    | ok v =>
      dsimp only
      cases capiStore M ((i : ℤ) - 3 + j + k) v with
      | error e => rfl
      | ok m' => exact capiDegreeO_cases hn a x y σ i k js _ m'

lemma capiLoopO_cases (hn : 0 < n) (a : FitArgs) (x : Fin n → Fin p → ℝ) (y : Fin n → Fin q → ℝ) (σ : Equiv.Perm (Fin n)) (s : Bool) (o : List ℤ) :
    ∀ (steps i : ℕ) (k : ℤ) (d : Dicomo) (M : Fin 6 → ℝ),
      capiLoopO a (casesIn σ x) (casesIn σ y) s o steps i k d M = capiLoopO a (dmat x) (dmat y) s o steps i k d M
  | 0, _, _, _, _ => rfl
  | t + 1, i, k, d, M => by
    unfold capiLoopO
    cases capiMode s i with
    | error e => rfl
    | ok m =>
      dsimp only
      rw [capiDegreeO_cases hn a x y σ]
      cases (capiDegreeO a (dmat x) (dmat y) i k (o.take (min (i - 1) o.length)) { d with mode := m } M).2 with
      | error e => rfl
      | ok M' => exact capiLoopO_cases hn a x y σ s o t _ _ _ M'

/-- C170: the order of the cases has no influence on the value of CAPI, nor on what is left in the object; for every estimator, centre, trimming and history. -/
theorem C170_order (hn : 0 < n) (o : CapiObj) (a : FitArgs) (x : Fin n → Fin p → ℝ) (y : Fin n → Fin q → ℝ) (σ : Equiv.Perm (Fin n)) :
    o.fit a (casesIn σ x) (casesIn σ y) = o.fit a (dmat x) (dmat y) := by
  unfold CapiObj.fit
  rw [capiLoopO_cases hn a x y σ]

/-! ### Values that agree co-moment by co-moment -/

lemma capiDegree_congr {mom mom' : Mode → ℕ → ℤ → Except Err ℝ} {m : Mode} {i : ℕ} (k : ℤ) (h : ∀ j, mom' m i j = mom m i j) :
    ∀ (l : List ℤ) (M : Fin 6 → ℝ), capiDegree mom' m i k l M = capiDegree mom m i k l M
  | [], _ => rfl
  | j :: js, M => by
    unfold capiDegree
    rw [h j]
    cases mom m i j with
    | error e => rfl
    | ok v =>
      dsimp only
      cases capiStore M ((i : ℤ) - 3 + j + k) v with
      | error e => rfl
      | ok m' => exact capiDegree_congr k h js m'

lemma capiLoop_congr {mom mom' : Mode → ℕ → ℤ → Except Err ℝ} (h : ∀ m i j, 2 ≤ i → mom' m i j = mom m i j) (s : Bool) (o : List ℤ) :
    ∀ (steps i : ℕ) (k : ℤ) (M : Fin 6 → ℝ), 2 ≤ i → capiLoop mom' s o steps i k M = capiLoop mom s o steps i k M
  | 0, _, _, _, _ => rfl
  | t + 1, i, k, M, hi => by
    unfold capiLoop
    cases capiMode s i with
    | error e => rfl
    | ok m =>
      dsimp only
      rw [capiDegree_congr k (fun j => h m i j hi)]
      cases capiDegree mom m i k (o.take (min (i - 1) o.length)) M with
      | error e => rfl
      | ok M' => exact capiLoop_congr h s o t _ _ M' (by omega)

lemma capiFit_congr {mom mom' : Mode → ℕ → ℤ → Except Err ℝ} (h : ∀ m i j, 2 ≤ i → mom' m i j = mom m i j) (s : Bool) (o : CapiOptions) (d : ℕ) (w : List ℝ) :
    capiFit mom' s o d w = capiFit mom s o d w := by
  unfold capiFit
  rw [capiLoop_congr h s o.run _ 2 0 _ le_rfl]

/-! ### Repeated cases -/

/-- C170: entering every case equally often several times does not change the value (arithmetic co-moments, no trimming and bias correction). -/
theorem C170_copies {r : Fin N → Fin n} {k : ℕ} (hr : Repeats r k) {o : CapiObj} (he : o.most.est = .arithmetic) (a : FitArgs) (ht : a.trimming = 0) (hb : a.biascorr = false)
    (x y : Fin n → ℝ) : (o.fit a (colMat fun I => x (r I)) (colMat fun I => y (r I))).2 = (o.fit a (colMat x) (colMat y)).2 := by
  rw [C155_first o (.inl he), C155_first o (.inl he), he]
  congr 1
  exact capiFit_congr (fun m i j _ => C165_dicomo_arithmetic hr m _ { a with order := i, option := j.toNat } ht hb x y) _ _ _ _

/-- C170: the same for co-moments of distances. -/
theorem C170_copies_distance {r : Fin N → Fin n} {k : ℕ} (hr : Repeats r k) (hn : 0 < n) {o : CapiObj} (he : o.most.est = .distance) (a : FitArgs) (ht : a.trimming = 0)
    (hb : a.biascorr = false) (x : Fin n → Fin p → ℝ) (y : Fin n → Fin q → ℝ) :
    (o.fit a (dmat fun I => x (r I)) (dmat fun I => y (r I))).2 = (o.fit a (dmat x) (dmat y)).2 := by
  rw [C155_first o (.inr he), C155_first o (.inr he), he]
  congr 1
  exact capiFit_congr (fun m i j _ => C165_dicomo_distance hr hn m _ { a with order := i, option := j.toNat } ht hb x y) _ _ _ _

/-! ### Origin and axes -/

/-- C170: the origins of the two variables do not matter.  (For co-moments about the median the two variables have to be told apart in the same way before and after:
equal variables are treated differently, see `C26_median_violated`.) -/
theorem C170_origin (hn : 0 < n) {o : CapiObj} (he : o.most.est = .arithmetic) (a : FitArgs) (x y : Fin n → ℝ) (s s' : ℝ)
    (hc : o.most.center = .mean ∨ ((∀ i, x i + s = y i + s') ↔ ∀ i, x i = y i)) :
    (o.fit a (colMat fun i => x i + s) (colMat fun i => y i + s')).2 = (o.fit a (colMat x) (colMat y)).2 := by
  rw [C155_first o (.inl he), C155_first o (.inl he), he]
  congr 1
  exact capiFit_congr (fun m i j hi => C26_shift_partial hn m _ { a with order := i, option := j.toNat } hi x y s s' hc) _ _ _ _

/-- C170: with co-moments of distances neither the origin nor the axes matter. -/
theorem C170_axes (hn : 0 < n) {o : CapiObj} (he : o.most.est = .distance) (a : FitArgs) (x : Fin n → Fin p → ℝ) (y : Fin n → Fin q → ℝ) (b : Fin p → ℝ) (b' : Fin q → ℝ)
    (Q : Fin p → Fin p → ℝ) (hQ : ∀ j k, ∑ l, Q j l * Q k l = if j = k then 1 else 0) (S : Fin q → Fin q → ℝ) (hS : ∀ j k, ∑ l, S j l * S k l = if j = k then 1 else 0) :
    (o.fit a (dmat fun i l => (∑ j, x i j * Q j l) + b l) (dmat fun i l => (∑ j, y i j * S j l) + b' l)).2 = (o.fit a (dmat x) (dmat y)).2 := by
  rw [C155_first o (.inr he), C155_first o (.inr he), he]
  congr 1
  exact capiFit_congr (fun m i j _ => C35_rigid_motion_any hn m _ { a with order := i, option := j.toNat } x y b b' Q hQ S hS) _ _ _ _

/-! ### Units -/

/-- The covariance enters the index with the first weight, the standardised co-moments with the others. -/
lemma capiFit_split (o : CapiOptions) (ho : InitialOptions o) (d : ℕ) (h2 : 2 ≤ d) (h4 : d ≤ 4) (w : Fin 6 → ℝ) (c k : ℤ → ℝ) :
    ∃ R, ∀ (v : ℝ) (mom : Mode → ℕ → ℤ → Except Err ℝ), (∀ j, mom .cov 2 j = .ok v) → (∀ j, mom .cos 3 j = .ok (c j)) → (∀ j, mom .cok 4 j = .ok (k j)) →
      (capiFit mom true o d (List.ofFn w)).map (·.1) = .ok (w 0 * v + R) := by
  have hlen : (List.ofFn w).length = 6 := by simp
  have hd : d = 2 ∨ d = 3 ∨ d = 4 := by omega
  rcases hd with rfl | rfl | rfl
  · refine ⟨0, fun v mom h1 h2 h3 => ?_⟩
    rcases ho with ho | ho | ho <;> simp [capiFit, capiLoop, capiMode, capiDegree, capiStore, ho, Fin.sum_univ_succ, h1, Except.map]
  · rcases ho with ho | ho | ho
    · refine ⟨w 1 * c 1, fun v mom h1 h2 h3 => ?_⟩
      simp [capiFit, capiLoop, capiMode, capiDegree, capiStore, ho, Fin.sum_univ_succ, h1, h2, Except.map]
    all_goals
      refine ⟨w 1 * c 1 + w 2 * c 2, fun v mom h1 h2 h3 => ?_⟩
      simp [capiFit, capiLoop, capiMode, capiDegree, capiStore, ho, Fin.sum_univ_succ, h1, h2, Except.map]
  · rcases ho with ho | ho | ho
    · refine ⟨w 1 * c 1 + w 3 * k 1, fun v mom h1 h2 h3 => ?_⟩
      simp [capiFit, capiLoop, capiMode, capiDegree, capiStore, ho, Fin.sum_univ_succ, h1, h2, h3, Except.map]
    · refine ⟨w 1 * c 1 + w 2 * c 2 + w 3 * k 1 + w 4 * k 2, fun v mom h1 h2 h3 => ?_⟩
      simp [capiFit, capiLoop, capiMode, capiDegree, capiStore, ho, Fin.sum_univ_succ, h1, h2, h3, Except.map]
      ring
    · refine ⟨w 1 * c 1 + w 2 * c 2 + w 3 * k 1 + w 4 * k 2 + w 5 * k 3, fun v mom h1 h2 h3 => ?_⟩
      simp [capiFit, capiLoop, capiMode, capiDegree, capiStore, ho, Fin.sum_univ_succ, h1, h2, h3, Except.map]
      ring

/-- C170: with `scaling=True` a change of origin and units changes the index only through the covariance, which is not standardised: it has the first weight and is multiplied
by both factors.  In particular an index whose first weight is zero does not depend on the units. -/
theorem C170_units_partial (hn : 0 < n) {o : CapiObj} (he : o.most.est = .arithmetic) (hc : o.most.center = .mean) (hs : o.scaling = true) (ho : InitialOptions o.options)
    (h2 : 2 ≤ o.maxDegree) (h4 : o.maxDegree ≤ 4) {w : Fin 6 → ℝ} (hw : o.weights = List.ofFn w) (a : FitArgs) (hT : TrimOK n a.trimming) (hb : a.biascorr = false)
    (hst : a.standardized = true) (x y : Fin n → ℝ) {r r' : ℝ} (hr : 0 < r) (hr' : 0 < r') (s s' : ℝ) :
    ∃ cov v, run .arithmetic .cov .mean a (colMat x) (colMat y) = .ok cov ∧ (o.fit a (colMat x) (colMat y)).2 = .ok v ∧
      (o.fit a (colMat fun i => r * x i + s) (colMat fun i => r' * y i + s')).2 = .ok (v + w 0 * ((r * r' - 1) * cov)) := by
  have hco : ∀ m, m = Mode.cos ∨ m = Mode.cok → ∀ (i : ℕ) (j : ℤ), ∃ v, freshMoment .arithmetic .mean a (colMat x) (colMat y) m i j = .ok v := by
    intro m hm i j
    obtain ⟨co, hco⟩ := trimMom_ok hn hT x y (modeTable m i).2 (by rcases hm with rfl | rfl <;> simp [modeTable]) j.toNat false
    obtain ⟨v2, h2, h0⟩ := trimMom_var_ok hn hT x
    obtain ⟨u2, g2, g0⟩ := trimMom_var_ok hn hT y
    exact ⟨_, run_co hn m hm _ { a with order := i, option := j.toNat } hb hst x y co v2 u2 hco (h2 _) (g2 _) h0 g0⟩
  choose c hc3 using hco .cos (.inl rfl) 3
  choose k hk4 using hco .cok (.inr rfl) 4
  obtain ⟨v, hv⟩ := trimMom_ok hn hT x y 2 le_rfl 0 false
  have hcov : ∀ a' : FitArgs, a'.trimming = a.trimming → a'.biascorr = false → run .arithmetic .cov .mean a' (colMat x) (colMat y) = .ok v := fun a' h1 h2 => by
    rw [run_cov hn, h1, h2, hv]
  obtain ⟨R, hR⟩ := capiFit_split o.options ho o.maxDegree h2 h4 w c k
  have e1 : (o.fit a (colMat x) (colMat y)).2 = .ok (w 0 * v + R) := by
    rw [C155_first o (.inl he), he, hc, hs, hw]
    exact hR v _ (fun j => hcov _ rfl hb) hc3 hk4
  have e2 : (o.fit a (colMat fun i => r * x i + s) (colMat fun i => r' * y i + s')).2 = .ok (w 0 * (r * r' * v) + R) := by
    rw [C155_first o (.inl he), he, hc, hs, hw]
    refine hR _ _ (fun j => ?_) (fun j => ?_) fun j => ?_
    · show run .arithmetic .cov .mean { a with order := 2, option := j.toNat } (colMat fun i => r * x i + s) (colMat fun i => r' * y i + s') = _
      rw [C26_shift_partial hn .cov .mean { a with order := 2, option := j.toNat } le_rfl (fun i => r * x i) (fun i => r' * y i) s s' (.inl rfl)]
      have := (C26_scale_com_partial hn { a with order := 3, option := j.toNat } (by norm_num) x y r r').2
      rw [run_cov hn] at this ⊢
      rw [this, hcov { a with order := 3, option := j.toNat } rfl hb]
      rfl
    · exact (C30_cos_cok_invariant hn .cos (.inl rfl) .mean { a with order := 3, option := j.toNat } hT hb hst x y r s r' s' hr hr').trans (hc3 j)
    · exact (C30_cos_cok_invariant hn .cok (.inr rfl) .mean { a with order := 4, option := j.toNat } hT hb hst x y r s r' s' hr hr').trans (hk4 j)
  refine ⟨v, _, hcov a rfl hb, e1, e2.trans ?_⟩
  congr 1
  ring

/-- C170 does not hold for the units, although `scaling=True` is meant to give standardised co-moments: doubling a variable changes the index whenever the first weight is not zero
(a column (0,1,2) and the same response). -/
theorem C170_units_violated (w : Fin 6 → ℝ) (hw : w 0 ≠ 0) : ∃ v1 v2,
    ((CapiObj.mk ⟨.arithmetic, .var, .mean, none⟩ 3 true .all (List.ofFn w)).fit {} (colMat (![0, 1, 2] : Fin 3 → ℝ)) (colMat (![0, 1, 2] : Fin 3 → ℝ))).2 = .ok v1 ∧
    ((CapiObj.mk ⟨.arithmetic, .var, .mean, none⟩ 3 true .all (List.ofFn w)).fit {} (colMat fun i => 2 * (![0, 1, 2] : Fin 3 → ℝ) i + 0)
      (colMat fun i => 1 * (![0, 1, 2] : Fin 3 → ℝ) i + 0)).2 = .ok v2 ∧ v2 - v1 = w 0 * (2 / 3) ∧ v1 ≠ v2 := by
  obtain ⟨c, v, h1, h2, h3⟩ := C170_units_partial (n := 3) (by norm_num) (o := ⟨⟨.arithmetic, .var, .mean, none⟩, 3, true, .all, List.ofFn w⟩) rfl rfl rfl (.inr (.inr rfl))
    (by show 2 ≤ 3; norm_num) (by show 3 ≤ 4; norm_num) (w := w) rfl {} (by unfold TrimOK; norm_num) rfl rfl ![0, 1, 2] ![0, 1, 2] (r := 2) (r' := 1) (by norm_num) (by norm_num) 0 0
  rw [run_cov (by norm_num)] at h1
  have hc : (2 / 3 : ℝ) = c := by
    have := trimMom_mean_012.symm.trans h1
    exact Except.ok.inj this
  refine ⟨v, _, h2, h3, ?_, fun h => hw ?_⟩
  · rw [← hc]; ring
  · rw [← hc] at h
    linarith

/-- Non-vacuity of `C170_copies`: three cases, each entered twice. -/
example (w : Fin 6 → ℝ) : ((CapiObj.mk ⟨.arithmetic, .var, .mean, none⟩ 4 true .all (List.ofFn w)).fit {} (colMat fun I : Fin 6 => (![0, 1, 5] : Fin 3 → ℝ) (![0, 1, 2, 0, 1, 2] I))
    (colMat fun I : Fin 6 => (![2, 1, 2] : Fin 3 → ℝ) (![0, 1, 2, 0, 1, 2] I))).2 =
    ((CapiObj.mk ⟨.arithmetic, .var, .mean, none⟩ 4 true .all (List.ofFn w)).fit {} (colMat (![0, 1, 5] : Fin 3 → ℝ)) (colMat (![2, 1, 2] : Fin 3 → ℝ))).2 := by
  refine C170_copies (r := ![0, 1, 2, 0, 1, 2]) (k := 2) ⟨by norm_num, fun i => ?_⟩ rfl {} rfl rfl _ _
  rw [Nat.card_eq_fintype_card]
  revert i
  decide

end Direpack
