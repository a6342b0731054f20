import Mathlib.Tactic.Linarith
import Verif.PlotPics
import Verif.Props.Plot
import Verif.Props.PPDireExample
import Verif.Props.SudireFit
import Verif.Props.SPRMExample

/-! Properties C118 to C121: whole plots. -/

namespace Direpack

variable {n m p : ℕ}

/-! ### Lists -/

lemma zip_ofFn (u v : Fin n → ℝ) : (List.ofFn u).zip (List.ofFn v) = List.ofFn fun i => (u i, v i) := by
  apply List.ext_getElem
  · simp
  · intro i h1 h2; simp

lemma scatterAll_ofFn (u v : Fin n → ℝ) : scatterAll (List.ofFn u) (List.ofFn v) = .ok (List.ofFn fun i => (u i, v i)) := by
  rw [scatterAll, if_pos (by simp), zip_ofFn]

/-- The texts drawn for cases at `(u i, v i)`: all names but the last. -/
def Spec.NamesDrawn (names : List String) (u v : Fin n → ℝ) (t : PlotText) : Prop :=
  ∃ (i : Fin n) (h : i.1 + 1 < names.length), t = ⟨names[i.1], u i, v i⟩

lemma nameAll_ofFn (names : List String) (hn : names.length ≤ n + 1) (u v : Fin n → ℝ) :
    ∃ l, nameAll names (some (List.ofFn u)) (some (List.ofFn v)) = .ok l ∧ ∀ t, t ∈ l ↔ Spec.NamesDrawn names u v t := by
  refine ⟨_, plotMapE_ok (g := fun i => if h : i < n then ⟨names.getD i "", u ⟨i, h⟩, v ⟨i, h⟩⟩ else ⟨"", 0, 0⟩) _ ?_, fun t => ?_⟩
  · intro i hi
    rw [List.mem_range] at hi
    have h : i < n := by omega
    simp [nameAt, h]
  · rw [List.mem_map]
    constructor
    · rintro ⟨i, hi, rfl⟩
      rw [List.mem_range] at hi
      have h : i < n := by omega
      refine ⟨⟨i, h⟩, by simp only; omega, ?_⟩
      rw [dif_pos h]
      congr 1
      rw [List.getD_eq_getElem?_getD, List.getElem?_eq_getElem (by omega)]
      rfl
    · rintro ⟨i, hi, rfl⟩
      refine ⟨i.1, List.mem_range.2 (by omega), ?_⟩
      rw [dif_pos i.2]
      congr 1
      rw [List.getD_eq_getElem?_getD, List.getElem?_eq_getElem (by omega)]
      rfl

lemma nameAll_short (names : List String) (hn : names.length ≤ 1) (u v : Option (List ℝ)) : nameAll names u v = .ok [] := by
  have : names.length - 1 = 0 := by omega
  rw [nameAll, this]
  rfl

/-! ### Observed against predicted values -/

/-- C118 (partial: fits with `copy=True`, and new cases when only those are to be drawn): whatever was fitted before, `plot_yyp` of a `ppdire` or `sudire` object draws every
training case of the last fit once, in order, at its observed and fitted value (none with `onlyval`), and every new case at its given and predicted value; names are drawn at
the points of their cases. -/
theorem C118_yyp_partial (hist : List YypCall) (y f : Fin n → ℝ) (yv pv : Fin m → ℝ) (r : PlotReq) (hn : r.names.length ≤ n + 1)
    (hv : r.namesv.length ≤ m + 1) :
    ∃ pic, plotYyp ((hist.foldl YypObj.fit .new).fit (.done true n y f)) m (.ok (List.ofFn pv)) (some (List.ofFn yv)) r = .ok pic ∧
      pic.train = (if r.onlyval then [] else List.ofFn fun i => (y i, f i)) ∧
      pic.test = List.ofFn (fun i => (yv i, pv i)) ∧
      ∀ t, t ∈ pic.texts ↔ (r.onlyval = false ∧ Spec.NamesDrawn r.names y f t) ∨ Spec.NamesDrawn r.namesv yv pv t := by
  obtain ⟨l1, h1, h1'⟩ := nameAll_ofFn r.names hn y f
  have htest : (if m = 0 then (.ok [] : Except Err (List (ℝ × ℝ))) else scatterAll (List.ofFn yv) (List.ofFn pv)) = .ok (List.ofFn fun i => (yv i, pv i)) := by
    split
    · rename_i h0; subst h0; rfl
    · exact scatterAll_ofFn yv pv
  obtain ⟨l2, h2, h2'⟩ : ∃ l, nameAll r.namesv (some (List.ofFn yv)) (if m = 0 then none else some (List.ofFn pv)) = .ok l ∧
      ∀ t, t ∈ l ↔ Spec.NamesDrawn r.namesv yv pv t := by
    split
    · rename_i h0
      subst h0
      refine ⟨[], nameAll_short _ hv _ _, fun t => ?_⟩
      simp only [List.not_mem_nil, false_iff]
      rintro ⟨i, -⟩
      exact i.elim0
    · exact nameAll_ofFn r.namesv hv yv pv
  have hbody : ∀ (a : List (ℝ × ℝ)) (l : List PlotText),
      (if r.onlyval then (.ok [] : Except Err (List (ℝ × ℝ))) else scatterAll (List.ofFn y) (List.ofFn f)) = .ok a →
      (if r.onlyval then (.ok [] : Except Err (List PlotText)) else nameAll r.names (some (List.ofFn y)) (some (List.ofFn f))) = .ok l →
      plotYyp ((hist.foldl YypObj.fit .new).fit (.done true n y f)) m (.ok (List.ofFn pv)) (some (List.ofFn yv)) r =
        .ok ⟨a, List.ofFn (fun i => (yv i, pv i)), l ++ l2⟩ := by
    intro a l ha hl
    have e : plotYyp ((hist.foldl YypObj.fit .new).fit (.done true n y f)) m (.ok (List.ofFn pv)) (some (List.ofFn yv)) r =
        ((if r.onlyval then (.ok [] : Except Err (List (ℝ × ℝ))) else scatterAll (List.ofFn y) (List.ofFn f)) >>= fun train =>
          (if m = 0 then (.ok [] : Except Err (List (ℝ × ℝ))) else scatterAll (List.ofFn yv) (List.ofFn pv)) >>= fun test =>
          (if r.onlyval then (.ok [] : Except Err (List PlotText)) else nameAll r.names (some (List.ofFn y)) (some (List.ofFn f))) >>= fun t1 =>
          nameAll r.namesv (some (List.ofFn yv)) (if m = 0 then none else some (List.ofFn pv)) >>= fun t2 => .ok ⟨train, test, t1 ++ t2⟩) := by
      unfold plotYyp
      rcases Bool.eq_false_or_eq_true r.onlyval with ho | ho <;> by_cases h0 : m = 0 <;> simp only [ho, h0, if_true, if_false, Bool.false_eq_true] <;> rfl
    rw [e, ha, htest, hl, h2]
    rfl
  cases ho : r.onlyval with
  | true =>
    refine ⟨_, hbody [] [] (by rw [ho]; rfl) (by rw [ho]; rfl), rfl, rfl, fun t => ?_⟩
    simp [h2']
  | false =>
    refine ⟨_, hbody _ l1 (by rw [ho]; exact scatterAll_ofFn y f) (by rw [ho]; exact h1), rfl, rfl, fun t => ?_⟩
    simp [h1', h2']

/-- C118: new cases whose observed values do not fit to their number raise. -/
theorem C118_mismatch (o : YypObj) (hm : m ≠ 0) (pv yv : List ℝ) (hl : yv.length ≠ pv.length) (r : PlotReq) (hr : r.onlyval = true) :
    plotYyp o m (.ok pv) (some yv) r = .error .valueError := by
  simp only [plotYyp, hr, if_true, if_neg hm, scatterAll, if_neg hl]
  rfl

/-- C118 for ppdire: with the training data given as new cases the points of the new cases are those of the training cases. -/
theorem C118_ppdire (pr : PpParams) (pinv : Pinv) (rg : PpReg) (φ : (Fin n → ℝ) → (Fin n → ℝ) → ℝ) (X : Fin n → Fin p → ℝ) (y : Fin n → ℝ)
    (f : PpFit n p) (h : ppFit pr pinv rg φ X y = .ok f) (hist : List YypCall) :
    ∃ pic, plotYyp ((hist.foldl YypObj.fit .new).fit (.done true n y f.fitted)) n ((f.predict X).map List.ofFn) (some (List.ofFn y)) ⟨[], [], false⟩ = .ok pic ∧
      pic.train = List.ofFn (fun i => (y i, f.fitted i)) ∧ pic.test = pic.train := by
  have hp := (C58_predict pr pinv rg φ X y f h).1
  obtain ⟨pic, h1, h2, h3, -⟩ := C118_yyp_partial hist y f.fitted y f.fitted ⟨[], [], false⟩ (by simp) (by simp)
  refine ⟨pic, ?_, h2, by rw [h3, h2]; rfl⟩
  rw [hp]
  exact h1

/-- C118 is violated: asked for new cases only but given none, `plot_yyp` draws an empty plot instead of raising. -/
theorem C118_onlyval_violated (o : YypObj) (pred : Except Err (List ℝ)) (names : List String) :
    plotYyp o 0 pred none ⟨names, [], true⟩ = .ok ⟨[], [], []⟩ := rfl

/-- C118 is violated: after a fit with `copy=False` the observed values drawn are those of the fit before. -/
theorem C118_stale_violated (y1 f1 y2 f2 : Fin n → ℝ) (hne : y1 ≠ y2) :
    ∃ pic, plotYyp ((YypObj.new.fit (.done true n y1 f1)).fit (.done false n y2 f2)) 0 (.ok []) none ⟨[], [], false⟩ = .ok pic ∧
      pic.train = List.ofFn (fun i => (y1 i, f2 i)) ∧ pic.train ≠ List.ofFn (fun i => (y2 i, f2 i)) := by
  refine ⟨⟨_, [], []⟩, ?_, rfl, ?_⟩
  · simp only [plotYyp, YypObj.fit, if_true, Bool.false_eq_true, if_false, scatterAll_ofFn]
    rfl
  · intro h
    apply hne
    funext i
    have := congrFun (List.ofFn_injective h) i
    exact congrArg Prod.fst this

/-- C118 is violated: after a fit that failed, the observed values drawn are those of the failed fit, beside the fitted values of the fit before. -/
theorem C118_failed_violated (y1 f1 y2 : Fin n → ℝ) (hne : y1 ≠ y2) :
    ∃ pic, plotYyp ((YypObj.new.fit (.done true n y1 f1)).fit (.failed true n y2)) 0 (.ok []) none ⟨[], [], false⟩ = .ok pic ∧
      pic.train = List.ofFn (fun i => (y2 i, f1 i)) ∧ pic.train ≠ List.ofFn (fun i => (y1 i, f1 i)) := by
  refine ⟨⟨_, [], []⟩, ?_, rfl, ?_⟩
  · simp only [plotYyp, YypObj.fit, if_true, scatterAll_ofFn]
    rfl
  · intro h
    apply hne
    funext i
    exact (congrArg Prod.fst (congrFun (List.ofFn_injective h) i)).symm

/-- C118: without a copy of the response there is an exception on an object that never had one. -/
theorem C118_no_copy (f y : Fin n → ℝ) (pred : Except Err (List ℝ)) (ytruev : Option (List ℝ)) (names namesv : List String) :
    plotYyp (YypObj.new.fit (.done false n y f)) m pred ytruev ⟨names, namesv, false⟩ = .error .attributeError := rfl

/-! ### Groups of cases in SPRM plots -/

lemma mapE_scatter (u v : Fin n → ℝ) (k : OutlierClass) (idx : List ℕ) (h : ∀ i ∈ idx, i < n) :
    scatterIdx (List.ofFn u) (List.ofFn v) k idx =
      .ok (idx.map fun i => if hi : i < n then ⟨i, u ⟨i, hi⟩, v ⟨i, hi⟩, k⟩ else ⟨i, 0, 0, k⟩) := by
  refine plotMapE_ok _ fun i hi => ?_
  have := h i hi
  simp [this]

lemma mem_whereIdx (w : Fin n → ℝ) (mask : ℝ → Prop) [DecidablePred mask] (i : ℕ) :
    i ∈ whereIdx (List.ofFn w) mask ↔ ∃ h : i < n, mask (w ⟨i, h⟩) := by
  unfold whereIdx
  rw [List.mem_filter, List.mem_range, List.length_ofFn, decide_eq_true_eq]
  constructor
  · rintro ⟨h, hm⟩
    refine ⟨h, ?_⟩
    rw [List.getD_eq_getElem?_getD, List.getElem?_ofFn] at hm
    simpa [h] using hm
  · rintro ⟨h, hm⟩
    refine ⟨h, ?_⟩
    rw [List.getD_eq_getElem?_getD, List.getElem?_ofFn]
    simpa [h] using hm

lemma nodup_whereIdx (w : List ℝ) (mask : ℝ → Prop) [DecidablePred mask] : (whereIdx w mask).Nodup := List.Nodup.filter _ List.nodup_range

/-- Every case is drawn exactly once, at its coordinates and in the group of its weight. -/
def Spec.DrawnOnce (u v w : Fin n → ℝ) (pts : List ClassPoint) : Prop :=
  (pts.map ClassPoint.case).Perm (List.range n) ∧
    ∀ q ∈ pts, ∃ h : q.case < n, q.x = u ⟨q.case, h⟩ ∧ q.y = v ⟨q.case, h⟩ ∧ Spec.IsClass (w ⟨q.case, h⟩) q.cls

lemma scatterClasses_ofFn (u v w : Fin n → ℝ) (hw : ∀ c, 0 ≤ w c ∧ w c ≤ 1) :
    ∃ pts, scatterClasses (List.ofFn u) (List.ofFn v) (List.ofFn w) = .ok pts ∧ Spec.DrawnOnce u v w pts := by
  have hlt : ∀ (mask : ℝ → Prop) [DecidablePred mask], ∀ i ∈ whereIdx (List.ofFn w) mask, i < n := by
    intro mask _ i hi
    exact ((mem_whereIdx w mask i).1 hi).1
  unfold scatterClasses
  rw [mapE_scatter u v _ _ (hlt _), mapE_scatter u v _ _ (hlt _), mapE_scatter u v _ _ (hlt _)]
  refine ⟨_, rfl, ?_, ?_⟩
  · have hcase : ∀ (k : OutlierClass) (idx : List ℕ), (idx.map fun i => (if hi : i < n then ⟨i, u ⟨i, hi⟩, v ⟨i, hi⟩, k⟩ else ⟨i, 0, 0, k⟩ : ClassPoint)).map
        ClassPoint.case = idx := by
      intro k idx
      rw [List.map_map]
      conv_rhs => rw [← List.map_id idx]
      refine List.map_congr_left fun i _ => ?_
      simp only [Function.comp]
      split <;> rfl
    rw [List.map_append, List.map_append, hcase, hcase, hcase]
    rw [List.perm_ext_iff_of_nodup ?_ List.nodup_range]
    · intro i
      rw [List.mem_append, List.mem_append, mem_whereIdx, mem_whereIdx, mem_whereIdx, List.mem_range]
      constructor
      · rintro ((⟨h, -⟩ | ⟨h, -⟩) | ⟨h, -⟩) <;> exact h
      · intro h
        obtain ⟨h0, h1⟩ := hw ⟨i, h⟩
        rcases eq_or_lt_of_le h0 with e | e
        · exact .inr ⟨h, e.symm⟩
        · rcases eq_or_lt_of_le h1 with e' | e'
          · exact .inl (.inl ⟨h, e'⟩)
          · exact .inl (.inr ⟨h, e, e'⟩)
    · rw [List.nodup_append, List.nodup_append]
      refine ⟨⟨nodup_whereIdx _ _, nodup_whereIdx _ _, ?_⟩, nodup_whereIdx _ _, ?_⟩
      · intro a ha b hb hab
        rw [mem_whereIdx] at ha hb
        obtain ⟨h, h1⟩ := ha
        obtain ⟨h', h2, h3⟩ := hb
        subst hab
        rw [h1] at h3
        exact lt_irrefl _ h3
      · intro a ha b hb hab
        rw [List.mem_append, mem_whereIdx, mem_whereIdx] at ha
        rw [mem_whereIdx] at hb
        obtain ⟨h', h2⟩ := hb
        subst hab
        rcases ha with ⟨h, h1⟩ | ⟨h, h1, -⟩
        · rw [h1] at h2; exact one_ne_zero h2
        · rw [h2] at h1; exact lt_irrefl _ h1
  · intro q hq
    rw [List.mem_append, List.mem_append, List.mem_map, List.mem_map, List.mem_map] at hq
    rcases hq with (⟨i, hi, rfl⟩ | ⟨i, hi, rfl⟩) | ⟨i, hi, rfl⟩ <;>
    · rw [mem_whereIdx] at hi
      obtain ⟨h, hm⟩ := hi
      rw [dif_pos h]
      exact ⟨h, rfl, rfl, hm⟩

/-- C118 for SPRM (partial: as for `C118_yyp_partial`): every training case of the last fit is drawn once, at its observed and fitted value and in the group of its weight (none
with `onlyval`), and so is every new case; names are drawn at the points of their cases. -/
theorem C118_sprm_partial (hist : List YypCall) (y f w : Fin n → ℝ) (hw : ∀ c, 0 ≤ w c ∧ w c ≤ 1) (yv pv wv : Fin m → ℝ) (hwv : ∀ c, 0 ≤ wv c ∧ wv c ≤ 1) (hm : 0 < m)
    (r : PlotReq) (hn : r.names.length ≤ n + 1) (hv : r.namesv.length ≤ m + 1) :
    ∃ pic, sprmYyp ((hist.foldl YypObj.fit .new).fit (.done true n y f)) (List.ofFn w) m (.ok (List.ofFn pv)) (.ok (List.ofFn wv)) (some (List.ofFn yv)) r = .ok pic ∧
      (if r.onlyval then pic.train = [] else Spec.DrawnOnce y f w pic.train) ∧ Spec.DrawnOnce yv pv wv pic.test ∧
      ∀ t, t ∈ pic.texts ↔ (r.onlyval = false ∧ Spec.NamesDrawn r.names y f t) ∨ Spec.NamesDrawn r.namesv yv pv t := by
  obtain ⟨a, ha, ha'⟩ := scatterClasses_ofFn y f w hw
  obtain ⟨b, hb, hb'⟩ := scatterClasses_ofFn yv pv wv hwv
  obtain ⟨l1, h1, h1'⟩ := nameAll_ofFn r.names hn y f
  obtain ⟨l2, h2, h2'⟩ := nameAll_ofFn r.namesv hv yv pv
  cases ho : r.onlyval with
  | true =>
    refine ⟨⟨[], b, l2⟩, ?_, ?_, hb', fun t => ?_⟩
    · simp only [sprmYyp, YypObj.fit, ho, if_true, hb, if_neg hm.ne', Option.getD_some, Except.toOption]
      simp only [bind, Except.bind, h2, List.nil_append]
    · simp
    · simp [h2']
  | false =>
    refine ⟨⟨a, b, l1 ++ l2⟩, ?_, ?_, hb', fun t => ?_⟩
    · simp only [sprmYyp, YypObj.fit, ho, if_true, Bool.false_eq_true, if_false, ha, hb, if_neg hm.ne', Option.getD_some, Except.toOption]
      simp only [bind, Except.bind, h1, h2]
    · simpa using ha'
    · simp [h1', h2']

/-- C118 is violated for SPRM, too: an empty plot instead of an exception. -/
theorem C118_sprm_onlyval_violated (o : YypObj) (w : List ℝ) (pred wv : Except Err (List ℝ)) (names : List String) :
    sprmYyp o w 0 pred wv none ⟨names, [], true⟩ = .ok ⟨[], [], []⟩ := rfl

/-- Non-vacuity: a regular case and a harsh outlier, and a moderate new case. -/
example : ∃ pic, sprmYyp (YypObj.new.fit (.done true 2 ![1, 2] ![1, 5])) (List.ofFn ![1, 0]) 1 (.ok (List.ofFn ![3])) (.ok (List.ofFn ![1 / 2])) (some (List.ofFn ![4]))
        ⟨[], [], false⟩ = .ok pic ∧ pic.train.length = 2 := by
  obtain ⟨pic, h1, h2, -⟩ := C118_sprm_partial [] ![1, 2] ![1, 5] ![1, 0] (by intro c; fin_cases c <;> norm_num) ![4] ![3] ![1 / 2]
    (by intro c; fin_cases c; norm_num) one_pos ⟨[], [], false⟩ (by simp) (by simp)
  refine ⟨pic, h1, ?_⟩
  rw [if_neg (by simp)] at h2
  have := h2.1.length_eq
  simpa using this

/-! ### Score plots -/

lemma colOf_ofFn {h : ℕ} (T : Fin n → Fin h → ℝ) (k : Fin h) : colOf (List.ofFn fun i => List.ofFn (T i)) k.1 = .ok (List.ofFn fun i => T i k) := by
  unfold colOf
  rw [plotMapE_ok (g := fun row => row.getD k.1 0)]
  · congr 1
    rw [List.map_ofFn]
    congr 1
    funext i
    simp only [Function.comp, List.getD_eq_getElem?_getD, List.getElem?_ofFn]
    simp
  · intro row hrow
    obtain ⟨i, rfl⟩ := List.mem_ofFn.1 hrow
    simp

/-- C119: `plot_projections` of a `ppdire` or `sudire` object draws every training case once at its scores on the two components asked for, and every new case at its scores;
the names at the points of their cases. -/
theorem C119_projections_partial {h : ℕ} (T : Fin n → Fin h → ℝ) (Tv : Fin m → Fin h → ℝ) (k1 k2 : Fin h) (r : PlotReq) (hn : r.names.length ≤ n + 1)
    (hv : r.namesv.length ≤ m + 1) :
    ∃ pic, plotProj (List.ofFn fun i => List.ofFn (T i)) m (.ok (List.ofFn fun i => List.ofFn (Tv i))) k1 k2 r = .ok pic ∧
      pic.train = (if r.onlyval then [] else List.ofFn fun i => (T i k1, T i k2)) ∧
      pic.test = List.ofFn (fun i => (Tv i k1, Tv i k2)) ∧
      ∀ t, t ∈ pic.texts ↔ (r.onlyval = false ∧ Spec.NamesDrawn r.names (fun i => T i k1) (fun i => T i k2) t) ∨
        Spec.NamesDrawn r.namesv (fun i => Tv i k1) (fun i => Tv i k2) t := by
  obtain ⟨l1, h1, h1'⟩ := nameAll_ofFn r.names hn (fun i => T i k1) (fun i => T i k2)
  obtain ⟨l2, h2, h2'⟩ := nameAll_ofFn r.namesv hv (fun i => Tv i k1) (fun i => Tv i k2)
  rcases Nat.eq_zero_or_pos m with h0 | h0
  · subst h0
    have h3 : ∀ u v, nameAll r.namesv u v = .ok [] := nameAll_short _ hv
    have h4 : ∀ t, ¬ Spec.NamesDrawn r.namesv (fun i => Tv i k1) (fun i => Tv i k2) t := by
      rintro t ⟨i, -⟩
      exact i.elim0
    cases ho : r.onlyval with
    | true =>
      refine ⟨⟨[], [], []⟩, ?_, rfl, rfl, fun t => ?_⟩
      · simp only [plotProj, ho, if_true, h3]
        rfl
      · simp [h4]
    | false =>
      refine ⟨⟨List.ofFn fun i => (T i k1, T i k2), [], l1⟩, ?_, rfl, rfl, fun t => ?_⟩
      · simp only [plotProj, ho, Bool.false_eq_true, if_false, if_true, h3, colOf_ofFn]
        simp only [bind, Except.bind, colOf_ofFn, scatterAll_ofFn, Option.map_some, h1]
        rw [List.append_nil]
      · simp [h1', h4]
  · cases ho : r.onlyval with
    | true =>
      refine ⟨⟨[], List.ofFn fun i => (Tv i k1, Tv i k2), l2⟩, ?_, rfl, rfl, fun t => ?_⟩
      · simp only [plotProj, ho, if_true, if_neg h0.ne', colOf_ofFn]
        simp only [bind, Except.bind, colOf_ofFn, scatterAll_ofFn, Option.map_some, h2]
        rfl
      · simp [h2']
    | false =>
      refine ⟨⟨List.ofFn fun i => (T i k1, T i k2), List.ofFn fun i => (Tv i k1, Tv i k2), l1 ++ l2⟩, ?_, rfl, rfl, fun t => ?_⟩
      · simp only [plotProj, ho, Bool.false_eq_true, if_false, if_neg h0.ne', colOf_ofFn]
        simp only [bind, Except.bind, colOf_ofFn, scatterAll_ofFn, Option.map_some, h1, h2]
      · simp [h1', h2']

/-- C119 for SPRM (partial: as for `C119_projections_partial`): every training case is drawn once at its scores and in the group of its weight (none with `onlyval`), and so is
every new case; names are drawn at the points of their cases. -/
theorem C119_sprm_partial {h : ℕ} (T : Fin n → Fin h → ℝ) (w : Fin n → ℝ) (hw : ∀ c, 0 ≤ w c ∧ w c ≤ 1) (Tv : Fin m → Fin h → ℝ) (wv : Fin m → ℝ)
    (hwv : ∀ c, 0 ≤ wv c ∧ wv c ≤ 1) (hm : 0 < m) (k1 k2 : Fin h) (r : PlotReq) (hn : r.names.length ≤ n + 1) (hv : r.namesv.length ≤ m + 1) :
    ∃ pic, sprmProj (List.ofFn fun i => List.ofFn (T i)) (List.ofFn w) m (.ok (List.ofFn fun i => List.ofFn (Tv i))) (.ok (List.ofFn wv)) k1 k2 r = .ok pic ∧
      (if r.onlyval then pic.train = [] else Spec.DrawnOnce (fun i => T i k1) (fun i => T i k2) w pic.train) ∧
      Spec.DrawnOnce (fun i => Tv i k1) (fun i => Tv i k2) wv pic.test ∧
      ∀ t, t ∈ pic.texts ↔ (r.onlyval = false ∧ Spec.NamesDrawn r.names (fun i => T i k1) (fun i => T i k2) t) ∨
        Spec.NamesDrawn r.namesv (fun i => Tv i k1) (fun i => Tv i k2) t := by
  obtain ⟨a, ha, ha'⟩ := scatterClasses_ofFn (fun i => T i k1) (fun i => T i k2) w hw
  obtain ⟨b, hb, hb'⟩ := scatterClasses_ofFn (fun i => Tv i k1) (fun i => Tv i k2) wv hwv
  obtain ⟨l1, h1, h1'⟩ := nameAll_ofFn r.names hn (fun i => T i k1) (fun i => T i k2)
  obtain ⟨l2, h2, h2'⟩ := nameAll_ofFn r.namesv hv (fun i => Tv i k1) (fun i => Tv i k2)
  cases ho : r.onlyval with
  | true =>
    refine ⟨⟨[], b, l2⟩, ?_, ?_, hb', fun t => ?_⟩
    · simp only [sprmProj, ho, if_true, colOf_ofFn, if_neg hm.ne']
      simp only [bind, Except.bind, colOf_ofFn, hb, Option.map_some, h2]
      rfl
    · simp
    · simp [h2']
  | false =>
    refine ⟨⟨a, b, l1 ++ l2⟩, ?_, ?_, hb', fun t => ?_⟩
    · simp only [sprmProj, ho, Bool.false_eq_true, if_false, colOf_ofFn, if_neg hm.ne']
      simp only [bind, Except.bind, colOf_ofFn, ha, hb, Option.map_some, h1, h2]
      rfl
    · simpa using ha'
    · simp [h1', h2']

/-- C119 is violated for SPRM, too. -/
theorem C119_sprm_onlyval_violated (scores : List (List ℝ)) (w : List ℝ) (tr : Except Err (List (List ℝ))) (wv : Except Err (List ℝ)) (k1 k2 : ℕ)
    (names : List String) : sprmProj scores w 0 tr wv k1 k2 ⟨names, [], true⟩ = .ok ⟨[], [], []⟩ := rfl

/-- C119: asking for a component that does not exist raises, when there are training cases. -/
theorem C119_component {h : ℕ} (T : Fin (n + 1) → Fin h → ℝ) (k1 k2 : ℕ) (hk : h ≤ k1) (tr : Except Err (List (List ℝ))) (names namesv : List String) :
    plotProj (List.ofFn fun i => List.ofFn (T i)) m tr k1 k2 ⟨names, namesv, false⟩ = .error .indexError := by
  have : colOf (List.ofFn fun i => List.ofFn (T i)) k1 = .error .indexError := by
    rw [colOf, List.ofFn_succ, mapE]
    have : (List.ofFn (T 0))[k1]? = none := by rw [List.getElem?_eq_none]; simpa using hk
    rw [this]
  simp only [plotProj, Bool.false_eq_true, if_false, this]
  rfl

/-- C119 is violated: asked for new cases only but given none, `plot_projections` draws an empty plot instead of raising. -/
theorem C119_onlyval_violated (scores : List (List ℝ)) (tr : Except Err (List (List ℝ))) (k1 k2 : ℕ) (names : List String) :
    plotProj scores 0 tr k1 k2 ⟨names, [], true⟩ = .ok ⟨[], [], []⟩ := rfl

/-- Non-vacuity: two cases, two components, a named case. -/
example : ∃ pic, plotProj (List.ofFn fun i => List.ofFn ((![![1, 2], ![3, 4]] : Fin 2 → Fin 2 → ℝ) i)) 0 (.ok []) 1 0 ⟨["a", "b"], [], false⟩ = .ok pic ∧
    pic.train = [(2, 1), (4, 3)] := by
  obtain ⟨pic, h1, h2, -⟩ := C119_projections_partial (![![1, 2], ![3, 4]] : Fin 2 → Fin 2 → ℝ) (fun i : Fin 0 => i.elim0) 1 0 ⟨["a", "b"], [], false⟩ (by simp) (by simp)
  exact ⟨pic, h1, by rw [h2]; simp⟩

/-! ### Case weights -/

/-- C120: `plot_caseweights` draws the weight of training case `i` (of the kind asked for) as bar number `i` and that of new case `j` as bar number `n + j`. -/
theorem C120_bars_partial (ov wx wy : Fin n → ℝ) (wv : Fin m → ℝ) (mode : WeightMode) (hmode : mode ≠ .other) :
    ∃ pic, plotCaseweights (List.ofFn ov) (List.ofFn wx) (List.ofFn wy) m (.ok (List.ofFn wv)) false mode = .ok pic ∧
      pic.train = List.ofFn (fun i => ((i.1 : ℝ) + 1, match mode with | .x => wx i | .y => wy i | _ => ov i)) ∧
      pic.test = List.ofFn (fun j : Fin m => (((n + j.1 : ℕ) : ℝ) + 1, wv j)) := by
  have h1 : ∀ (k : ℕ) (w : Fin n → ℝ) , ((List.ofFn w).zipIdx.map fun t => ((t.2 : ℝ) + 1, t.1)) = List.ofFn fun i => ((i.1 : ℝ) + 1, w i) := by
    intro _ w
    apply List.ext_getElem
    · simp
    · intro i _ _; simp
  have h2 : ((List.ofFn wv).zipIdx.map fun t => (((n + t.2 : ℕ) : ℝ) + 1, t.1)) = List.ofFn fun j : Fin m => (((n + j.1 : ℕ) : ℝ) + 1, wv j) := by
    apply List.ext_getElem
    · simp
    · intro i _ _; simp
  cases mode with
  | other => exact absurd rfl hmode
  | overall =>
    refine ⟨⟨List.ofFn fun i => ((i.1 : ℝ) + 1, ov i), List.ofFn fun j : Fin m => (((n + j.1 : ℕ) : ℝ) + 1, wv j)⟩, ?_, rfl, rfl⟩
    simp only [plotCaseweights, Bool.false_eq_true, if_false]
    simp only [bind, Except.bind, List.length_ofFn, h1 0, h2]
    split
    · rename_i h0
      subst h0
      rfl
    · rfl
  | x =>
    refine ⟨⟨List.ofFn fun i => ((i.1 : ℝ) + 1, wx i), List.ofFn fun j : Fin m => (((n + j.1 : ℕ) : ℝ) + 1, wv j)⟩, ?_, rfl, rfl⟩
    simp only [plotCaseweights, Bool.false_eq_true, if_false]
    simp only [bind, Except.bind, List.length_ofFn, h1 0, h2]
    split
    · rename_i h0
      subst h0
      rfl
    · rfl
  | y =>
    refine ⟨⟨List.ofFn fun i => ((i.1 : ℝ) + 1, wy i), List.ofFn fun j : Fin m => (((n + j.1 : ℕ) : ℝ) + 1, wv j)⟩, ?_, rfl, rfl⟩
    simp only [plotCaseweights, Bool.false_eq_true, if_false]
    simp only [bind, Except.bind, List.length_ofFn, h1 0, h2]
    split
    · rename_i h0
      subst h0
      rfl
    · rfl

/-- C120 is violated: an unknown mode, for which `ValueError` is announced, ends in an `UnboundLocalError`. -/
theorem C120_mode_violated (ov wx wy : List ℝ) (wv : Except Err (List ℝ)) :
    plotCaseweights ov wx wy 0 wv false .other = .error .unboundLocal := rfl

/-- C120 is violated: asked for new cases only but given none, there is an empty plot. -/
theorem C120_onlyval_violated (ov wx wy : List ℝ) (wv : Except Err (List ℝ)) (mode : WeightMode) :
    plotCaseweights ov wx wy 0 wv true mode = .ok ⟨[], []⟩ := rfl

/-- Non-vacuity: predictor weights of two cases, and a new case. -/
example : ∃ pic, plotCaseweights (List.ofFn ![1, 0]) (List.ofFn ![1, 1 / 2]) (List.ofFn ![1, 0]) 1 (.ok (List.ofFn ![1 / 3])) false .x = .ok pic ∧
    pic.test.length = 1 := by
  obtain ⟨pic, h1, -, h2⟩ := C120_bars_partial ![1, 0] ![1, 1 / 2] ![1, 0] ![1 / 3] .x (by simp)
  exact ⟨pic, h1, by rw [h2]; simp⟩

/-! ### Cross-validation contours -/

/-- The settings with a score: what a contour plot of the results of a grid search is to show. -/
def Spec.Contoured (res : CvResults) (pt : ℝ × ℕ × ℝ) : Prop :=
  ∃ (i : ℕ) (s : CvSetting CvScore), res.params[i]? = some s ∧ s.eta = some pt.1 ∧ s.nComponents = pt.2.1 ∧ res.scores[i]? = some (some pt.2.2)

lemma cvTable_rows {res : CvResults} (hl : res.scores.length = res.params.length) : ∃ t, cvScoreTable res.params res.scores = .ok t ∧
    ∀ (i : ℕ) (r : CvRow CvScore), t[i]? = some r ↔ ∃ s sc, res.params[i]? = some s ∧ res.scores[i]? = some sc ∧ r = ⟨s.eta, s.nComponents, sc⟩ := by
  unfold cvScoreTable
  dsimp only
  rw [if_pos hl]
  refine ⟨_, rfl, fun i r => ?_⟩
  rw [List.getElem?_map, Option.map_eq_some_iff]
  constructor
  · rintro ⟨⟨a, b, c⟩, h1, rfl⟩
    rw [List.getElem?_zip_eq_some, List.getElem?_zip_eq_some, List.getElem?_map, List.getElem?_map, Option.map_eq_some_iff, Option.map_eq_some_iff] at h1
    obtain ⟨⟨s, hs, rfl⟩, ⟨s', hs', rfl⟩, hc⟩ := h1
    rw [hs] at hs'
    cases hs'
    exact ⟨s, c, hs, hc, rfl⟩
  · rintro ⟨s, sc, hs, hc, rfl⟩
    refine ⟨(s.eta, s.nComponents, sc), ?_, rfl⟩
    rw [List.getElem?_zip_eq_some, List.getElem?_zip_eq_some, List.getElem?_map, List.getElem?_map, hs, hc]
    exact ⟨rfl, rfl, rfl⟩

/-- C121 (partial: the first plot of an object): the contours are drawn through the settings of the grid search that have a score, no more and no less; with fewer than three of them a
message is drawn instead. -/
theorem C121_contour_partial (res : CvResults) (hl : res.scores.length = res.params.length) :
    ∃ o' pic, (CvPlot.mk none).contour res = .ok (o', pic) ∧
      match pic with
      | .contour pts => 3 ≤ pts.length ∧ ∀ pt, pt ∈ pts ↔ Spec.Contoured res pt
      | .message => ∀ pts : List (ℝ × ℕ × ℝ), pts.Nodup → (∀ pt ∈ pts, Spec.Contoured res pt) → pts.length < 3 := by
  obtain ⟨t, ht, hrows⟩ := cvTable_rows hl
  refine ⟨⟨some t⟩, contourOf t, ?_, ?_⟩
  · simp only [CvPlot.contour, ht]
  · have hmem : ∀ pt : ℝ × ℕ × ℝ, pt ∈ (t.filterMap fun r => match r.etas, r.score with | some e, some s => some (e, r.nComponents, s) | _, _ => none) ↔
        Spec.Contoured res pt := by
      intro pt
      rw [List.mem_filterMap]
      constructor
      · rintro ⟨r, hr, hpt⟩
        obtain ⟨i, hi⟩ := List.getElem?_of_mem hr
        obtain ⟨s, sc, hs, hc, rfl⟩ := (hrows i r).1 hi
        dsimp only at hpt
        split at hpt
        · rename_i x e he hx
          cases hpt
          exact ⟨i, s, hs, hx, rfl, hc⟩
        · cases hpt
      · rintro ⟨i, s, hs, he, hk, hc⟩
        refine ⟨⟨s.eta, s.nComponents, some pt.2.2⟩, List.mem_of_getElem? ((hrows i _).2 ⟨s, _, hs, hc, rfl⟩), ?_⟩
        dsimp only
        rw [he]
        dsimp only
        rw [hk]
    unfold contourOf
    dsimp only
    split_ifs with h
    · exact ⟨h, hmem⟩
    · intro pts hnd hpts
      by_contra hge
      apply h
      have hsub := hnd.subperm (l₂ := t.filterMap _) fun pt hpt => (hmem pt).2 (hpts pt hpt)
      exact le_trans (not_lt.1 hge) hsub.length_le

/-- C121 is violated: once drawn, the plot goes on showing the first results, whatever the grid search has been refitted to. -/
theorem C121_stale_violated (res res' : CvResults) (hl : res.scores.length = res.params.length) :
    ∃ o1 pic, (CvPlot.mk none).contour res = .ok (o1, pic) ∧ o1.contour res' = .ok (o1, pic) := by
  obtain ⟨t, ht, -⟩ := cvTable_rows hl
  exact ⟨⟨some t⟩, contourOf t, by simp only [CvPlot.contour, ht], rfl⟩

/-- Non-vacuity: four settings, one of which could not be fitted. -/
example : ∃ o' pts, (CvPlot.mk none).contour ⟨[⟨some 0, 1⟩, ⟨some 0, 2⟩, ⟨some 1, 1⟩, ⟨some 1, 2⟩], [some 3, some 4, none, some 5]⟩ = .ok (o', .contour pts) ∧
    pts.length = 3 := ⟨_, [(0, 1, 3), (0, 2, 4), (1, 2, 5)], rfl, rfl⟩

end Direpack
