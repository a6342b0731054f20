import Verif.Props.Replicate2
import Verif.Props.RMEquiv
import Verif.Props.SPRMEquiv

/-! C165 for the robust regressions: entering every case several times. -/

namespace Direpack

open scoped BigOperators
open Spec

variable {N n p : ℕ} {r : Fin N → Fin n} {k : ℕ}

/-! ### Weights, distances, residual scale -/

lemma Spec.Repeats.rowDistances (h : Repeats r k) (X : Fin n → Fin p → ℝ) :
    Direpack.rowDistances (fun I => X (r I)) = (Direpack.rowDistances X).map fun d I => d (r I) := by
  unfold Direpack.rowDistances
  simp only
  rw [h.med fun i => Real.sqrt (∑ j, X i j ^ 2)]
  split <;> rfl

lemma Spec.Repeats.startY (h : Repeats r k) (c : Centre) (s : ScaleOpt) (ys y : Fin n → ℝ) :
    Direpack.startY c s (fun I => ys (r I)) (fun I => y (r I)) = (Direpack.startY c s ys y).map fun d I => d (r I) := by
  unfold Direpack.startY
  split
  · rfl
  · simp only
    rw [h.med y, h.med fun i => |y i - Direpack.med y|]
    split <;> rfl

lemma Spec.Repeats.card (h : Repeats r k) (P : Fin n → Prop) [DecidablePred P] :
    (Finset.univ.filter fun I => P (r I)).card = k * (Finset.univ.filter P).card := by
  rw [Finset.card_filter, Finset.card_filter]
  have := h.sum fun i => if P i then (1 : ℕ) else 0
  simpa using this

open Classical in
lemma Spec.Repeats.scaleRes (h : Repeats r k) (x : Fin n → ℝ) :
    Direpack.scaleRes (fun I => x (r I)) = (Direpack.scaleRes x).map fun d I => d (r I) := by
  have hk : (0 : ℝ) < k := by exact_mod_cast h.1
  have hc : (((Finset.univ.filter fun I => x (r I) = 0).card : ℝ) < (N : ℝ) / 2) ↔
      ((Finset.univ.filter fun i => x i = 0).card : ℝ) < (n : ℝ) / 2 := by
    rw [h.card fun i => x i = 0, h.size]
    push_cast
    constructor
    · intro e; nlinarith
    · intro e; nlinarith
  have hp : (((List.ofFn fun I => x (r I)).filter fun v => v ≠ 0).map fun v => |v|).Perm
      ((((List.ofFn x).filter fun v => v ≠ 0).map fun v => |v|).flatMap (List.replicate k)) := by
    have e : ∀ l : List ℝ, ((l.flatMap (List.replicate k)).filter fun v => v ≠ 0).map (fun v => |v|) =
        ((l.filter fun v => v ≠ 0).map fun v => |v|).flatMap (List.replicate k) := by
      intro l
      induction l with
      | nil => rfl
      | cons a l ih =>
        rw [List.flatMap_cons, List.filter_append, List.map_append, ih, List.filter_cons]
        by_cases ha : a = 0
        · simp [ha]
        · simp [ha]
    rw [← e]
    exact ((h.perm x).filter _).map _
  unfold Direpack.scaleRes
  simp only
  by_cases h1 : ((Finset.univ.filter fun i => x i = 0).card : ℝ) < (n : ℝ) / 2
  · rw [if_pos h1, if_pos (hc.2 h1), h.med fun i => |x i|]; rfl
  · rw [if_neg h1, if_neg fun e => h1 (hc.1 e), medL_perm' hp, medL_repeat h.1]
    have hnil : (((List.ofFn fun I => x (r I)).filter fun v => v ≠ 0).map fun v => |v|) = [] ↔
        (((List.ofFn x).filter fun v => v ≠ 0).map fun v => |v|) = [] := by
      constructor
      · intro e
        rw [e] at hp
        have := List.nil_perm.1 hp
        rw [List.flatMap_eq_nil_iff] at this
        rw [List.eq_nil_iff_forall_not_mem]
        intro a ha
        have := this a ha
        rw [List.replicate_eq_nil_iff] at this
        exact h.1.ne' this
      · intro e
        rw [e] at hp
        exact List.perm_nil.1 hp
    by_cases h2 : (((List.ofFn x).filter fun v => v ≠ 0).map fun v => |v|) = []
    · rw [if_pos h2, if_pos (hnil.2 h2)]; rfl
    · rw [if_neg h2, if_neg fun e => h2 (hnil.1 e)]; rfl

lemma WFun.run_rep (f : WFun) (x : Fin n → ℝ) (r : Fin N → Fin n) (c : ℝ × ℝ × ℝ) : f.run (fun I => x (r I)) c = fun I => f.run x c (r I) := by
  cases f <;> rfl

/-! ### The reweighting loop -/

/-- The outcome of the reweighting loop for the long data. -/
def RwOut.rep {β β' : Type} (g : β → β') (r : Fin N → Fin n) (o : RwOut β n) : RwOut β' N :=
  ⟨g o.b, fun I => o.we (r I), fun I => o.wye (r I), fun I => o.wte (r I), Finset.univ.filter fun I => r I ∈ o.w0, o.fits⟩

open Classical in
theorem Spec.Repeats.rwLoop (h : Repeats r k) {β β' : Type} (g : β → β')
    {step : (Fin n → ℝ) → Except Err (β × ℝ × (Fin n → ℝ) × (Fin n → ℝ))}
    {step' : (Fin N → ℝ) → Except Err (β' × ℝ × (Fin N → ℝ) × (Fin N → ℝ))}
    (hstep : ∀ we : Fin n → ℝ, step' (fun I => we (r I)) = (step we).map fun q => (g q.1, q.2.1, (fun I => q.2.2.1 (r I)), fun I => q.2.2.2 (r I)))
    (tol : ℝ) (maxit : ℤ) : ∀ (fuel : ℕ) (loops : ℤ) (rold : ℝ) (go : Prop) (we : Fin n → ℝ) (out : Option (RwOut β n)),
      Direpack.rwLoop step' tol maxit fuel loops rold go (fun I => we (r I)) (out.map (RwOut.rep g r)) =
        (Direpack.rwLoop step tol maxit fuel loops rold go we out).map fun e => e.map fun o => o.map (RwOut.rep g r) := by
  intro fuel
  have hk : (0 : ℝ) < k := by exact_mod_cast h.1
  induction fuel with
  | zero => intros; rfl
  | succ fuel ih =>
    intro loops rold go we out
    rw [Direpack.rwLoop, Direpack.rwLoop]
    by_cases hg : go ∧ loops < maxit
    · rw [if_pos hg, if_pos hg, hstep]
      cases hs : step we with
      | error e => rfl
      | ok q =>
        obtain ⟨b, s, wy, wt⟩ := q
        simp only [Except.map]
        have hfits : ((out.map (RwOut.rep g r)).elim 0 fun o => o.fits) = out.elim 0 fun o => o.fits := by
          cases out <;> rfl
        have hc : ((N : ℝ) / 2 ≤ ((Finset.univ.filter fun I => wy (r I) * wt (r I) < wMin).card : ℝ)) ↔
            (n : ℝ) / 2 ≤ ((Finset.univ.filter fun i => wy i * wt i < wMin).card : ℝ) := by
          rw [h.card fun i => wy i * wt i < wMin, h.size]
          push_cast
          constructor
          · intro e; nlinarith
          · intro e; nlinarith
        have hout : (⟨g b, fun I => if wy (r I) * wt (r I) < wMin then wMin else wy (r I) * wt (r I), fun I => wy (r I), fun I => wt (r I),
            Finset.univ.filter fun I => wy (r I) * wt (r I) < wMin, ((out.map (RwOut.rep g r)).elim 0 fun o => o.fits) + 1⟩ : RwOut β' N) =
            RwOut.rep g r ⟨b, fun i => if wy i * wt i < wMin then wMin else wy i * wt i, wy, wt,
              Finset.univ.filter fun i => wy i * wt i < wMin, (out.elim 0 fun o => o.fits) + 1⟩ := by
          simp only [RwOut.rep, hfits, Finset.mem_filter, Finset.mem_univ, true_and]
        rw [hout]
        by_cases hn : (n : ℝ) / 2 ≤ ((Finset.univ.filter fun i => wy i * wt i < wMin).card : ℝ)
        · rw [if_pos hn, if_pos (hc.2 hn)]; rfl
        · rw [if_neg hn, if_neg fun e => hn (hc.1 e)]
          exact ih _ _ _ (fun i => if wy i * wt i < wMin then wMin else wy i * wt i) (some _)
    · rw [if_neg hg, if_neg hg]; rfl

/-! ### RM -/

lemma Spec.Repeats.rss (h : Repeats r k) (A : Fin n → Fin p → ℝ) (y : Fin n → ℝ) (b : Fin p → ℝ) :
    Spec.rss (fun I => A (r I)) (fun I => y (r I)) b = k * Spec.rss A y b :=
  h.sumR fun i => (y i - ∑ j, A i j * b j) ^ 2

lemma Spec.Repeats.minNorm (h : Repeats r k) {A : Fin n → Fin p → ℝ} {y : Fin n → ℝ} {b : Fin p → ℝ}
    (hb : IsMinNormLS (fun I => A (r I)) (fun I => y (r I)) b) : IsMinNormLS A y b := by
  have hk : (0 : ℝ) < k := by exact_mod_cast h.1
  unfold IsMinNormLS at hb ⊢
  simp only [h.rss, mul_le_mul_iff_right₀ hk] at hb
  exact hb

/-- The fit to the long data: the attributes that belong to cases are those of the case of which the row is a copy. -/
def RmFit.rep (r : Fin N → Fin n) (f : RmFit n p) : RmFit N p :=
  { coef := f.coef, intercept := f.intercept, coefScaled := f.coefScaled, interceptScaled := f.interceptScaled
    residuals := fun I => f.residuals (r I), fitted := fun I => f.fitted (r I), xCaseweights := fun I => f.xCaseweights (r I)
    yCaseweights := fun I => f.yCaseweights (r I), caseweights := fun I => f.caseweights (r I)
    xLoc := f.xLoc, yLoc := f.yLoc, xSca := f.xSca, ySca := f.ySca, trainCols := f.trainCols, fits := f.fits }

lemma Spec.Repeats.rmIntercept (h : Repeats r k) (c : Centre) (x : Fin n → ℝ) : Direpack.rmIntercept c (fun I => x (r I)) = Direpack.rmIntercept c x := by
  unfold Direpack.rmIntercept
  rw [h.mean, h.med]

lemma pairs_flat {M : ℕ} (u v : Fin M → ℝ) : ((List.ofFn v).flatMap fun b => (List.ofFn u).map fun a => a - b) = flat fun i j => u j - v i := by
  unfold flat
  rw [List.ofFn_eq_map (f := v), List.flatMap_map]
  congr 1
  funext i
  rw [List.ofFn_eq_map, List.map_map]
  rfl

lemma Spec.Repeats.meanAllPairs (h : Repeats r k) (u v : Fin n → ℝ) :
    Direpack.meanAllPairs (fun I => u (r I)) (fun I => v (r I)) = Direpack.meanAllPairs u v := by
  unfold Direpack.meanAllPairs
  rw [pairs_flat, pairs_flat]
  exact h.flat .mean fun i j => u j - v i

lemma Spec.Repeats.medAllPairs (h : Repeats r k) (u v : Fin n → ℝ) :
    Direpack.medAllPairs (fun I => u (r I)) (fun I => v (r I)) = Direpack.medAllPairs u v := by
  unfold Direpack.medAllPairs
  rw [pairs_flat, pairs_flat]
  exact h.flat .median fun i j => u j - v i

lemma Spec.Repeats.rmStep (h : Repeats r k) {ext : RmExt}
    (hls : ∀ {n p : ℕ} (A : Fin n → Fin p → ℝ) (z : Fin n → ℝ), IsMinNormLS A z (ext.lstsq A z)) (fn : WFun) (cy : ℝ × ℝ × ℝ)
    (Xs : Fin n → Fin p → ℝ) (ys wx we : Fin n → ℝ) :
    Direpack.rmStep ext fn cy (fun I => Xs (r I)) (fun I => ys (r I)) (fun I => wx (r I)) (fun I => we (r I)) =
      (Direpack.rmStep ext fn cy Xs ys wx we).map fun q => (id q.1, q.2.1, (fun I => q.2.2.1 (r I)), fun I => q.2.2.2 (r I)) := by
  have e : ext.lstsq (weightRows (fun I => Xs (r I)) fun I => we (r I)) (fun I => ys (r I) * Real.sqrt (we (r I))) =
      ext.lstsq (weightRows Xs we) fun i => ys i * Real.sqrt (we i) :=
    IsMinNormLS.unique (h.minNorm (A := weightRows Xs we) (y := fun i => ys i * Real.sqrt (we i)) (hls _ _)) (hls _ _)
  unfold Direpack.rmStep
  simp only [e]
  rw [h.scaleRes fun i => ys i - ∑ j, Xs i j * ext.lstsq (weightRows Xs we) (fun i => ys i * Real.sqrt (we i)) j]
  cases Direpack.scaleRes fun i => ys i - ∑ j, Xs i j * ext.lstsq (weightRows Xs we) (fun i => ys i * Real.sqrt (we i)) j with
  | error e => rfl
  | ok d => simp only [Except.map, WFun.run_rep, id]

lemma Spec.Repeats.rmIntercepts (h : Repeats r k) (c : Centre) (s : ScaleOpt) (X : Fin n → Fin p → ℝ) (y : Fin n → ℝ) (Xs : Fin n → Fin p → ℝ)
    (ys : Fin n → ℝ) (b : Fin p → ℝ) (i1 : ℝ) :
    Direpack.rmIntercepts c s (fun I => X (r I)) (fun I => y (r I)) (fun I => Xs (r I)) (fun I => ys (r I)) b i1 =
      Direpack.rmIntercepts c s X y Xs ys b i1 := by
  unfold Direpack.rmIntercepts
  simp only
  rw [h.mean fun i => y i - ∑ j, X i j * b j, h.meanAllPairs ys fun i => ∑ j, Xs i j * b j, h.medAllPairs ys fun i => ∑ j, Xs i j * b j]

lemma zeroOut_rep (w : Fin n → ℝ) (w0 : Finset (Fin n)) (r : Fin N → Fin n) :
    zeroOut (fun I => w (r I)) (Finset.univ.filter fun I => r I ∈ w0) = fun I => zeroOut w w0 (r I) := by
  funext I
  simp [zeroOut]

/-- C165: fitting RM to data in which every case is entered `k` times has the same outcome as fitting it to the data themselves: the same failure, or the same coefficients,
intercepts, locations, scales and number of iterations, and for every copy of a case the fitted value, residual and weights of that case. -/
theorem C165_rm {ext : RmExt} {pr : RmParams} (hc : pr.centre = .mean ∨ pr.centre = .median ∨ pr.centre = .noneOpt)
    (hs : pr.scale = .std ∨ pr.scale = .mad ∨ pr.scale = .noneOpt)
    (hls : ∀ {n p : ℕ} (A : Fin n → Fin p → ℝ) (z : Fin n → ℝ), IsMinNormLS A z (ext.lstsq A z)) (hr : Repeats r k)
    (X : Fin n → Fin p → ℝ) (y : Fin n → ℝ) :
    rmFit ext pr (fun I => X (r I)) (fun I => y (r I)) = (rmFit ext pr X y).map (RmFit.rep r) := by
  have c1 := hr.centre hc X
  have c2 := hr.scale hs X
  have c3 : pr.centre.run (asCol fun I => y (r I)) = pr.centre.run (asCol y) := hr.centre hc (asCol y)
  have c4 : pr.scale.run (asCol fun I => y (r I)) = pr.scale.run (asCol y) := hr.scale hs (asCol y)
  unfold rmFit
  simp only [c1, c2, c3, c4]
  cases checkProbs pr.fn pr.probp1 pr.probp2 pr.probp3 with
  | error e => rfl
  | ok _ =>
    simp only
    set Xs := scaleMat X (pr.centre.run X) (pr.scale.run X) with hXs
    set ys : Fin n → ℝ := fun i => scaleMat (asCol y) (pr.centre.run (asCol y)) (pr.scale.run (asCol y)) i 0 with hys
    have e1 : scaleMat (fun I => X (r I)) (pr.centre.run X) (pr.scale.run X) = fun I => Xs (r I) := rfl
    have e2 : (fun I => scaleMat (asCol fun I => y (r I)) (pr.centre.run (asCol y)) (pr.scale.run (asCol y)) I 0) = fun I => ys (r I) := rfl
    rw [e1, e2, hr.rowDistances]
    cases rowDistances Xs with
    | error e => rfl
    | ok dx =>
      simp only [Except.map]
      rw [hr.startY]
      cases startY pr.centre pr.scale ys y with
      | error e => rfl
      | ok dy =>
        simp only [Except.map, WFun.run_rep]
        have hl := hr.rwLoop (g := id) (fun we => hr.rmStep hls pr.fn (cutY ext pr.probp1 pr.probp2 pr.probp3) Xs ys
          (pr.fn.run dx (cutX ext pr.specific p pr.probp1 pr.probp2 pr.probp3)) we) pr.tol pr.maxit (pr.maxit.toNat + 1) 1 (1 / 100000) (pr.tol < 1)
          (clipW fun i => pr.fn.run dx (cutX ext pr.specific p pr.probp1 pr.probp2 pr.probp3) i *
            pr.fn.run dy (cutY ext pr.probp1 pr.probp2 pr.probp3) i) none
        have hl2 : rwLoop (rmStep ext pr.fn (cutY ext pr.probp1 pr.probp2 pr.probp3) (fun I => Xs (r I)) (fun I => ys (r I))
            fun I => pr.fn.run dx (cutX ext pr.specific p pr.probp1 pr.probp2 pr.probp3) (r I)) pr.tol pr.maxit (pr.maxit.toNat + 1) 1 (1 / 100000) (pr.tol < 1)
            (clipW fun I => pr.fn.run dx (cutX ext pr.specific p pr.probp1 pr.probp2 pr.probp3) (r I) *
              pr.fn.run dy (cutY ext pr.probp1 pr.probp2 pr.probp3) (r I)) none = _ := hl
        rw [hl2]
        cases rwLoop (rmStep ext pr.fn (cutY ext pr.probp1 pr.probp2 pr.probp3) Xs ys
            (pr.fn.run dx (cutX ext pr.specific p pr.probp1 pr.probp2 pr.probp3))) pr.tol pr.maxit (pr.maxit.toNat + 1) 1 (1 / 100000) (pr.tol < 1)
            (clipW fun i => pr.fn.run dx (cutX ext pr.specific p pr.probp1 pr.probp2 pr.probp3) i *
              pr.fn.run dy (cutY ext pr.probp1 pr.probp2 pr.probp3) i) none with
        | none => rfl
        | some z =>
          cases z with
          | error e => rfl
          | ok o =>
            cases o with
            | none => rfl
            | some o =>
              simp only [Option.map, Except.map]
              unfold rmFinish
              simp only [RwOut.rep, id]
              by_cases hz : ∃ j, pr.scale.run X j = 0
              · rw [if_pos hz, if_pos hz]
              · rw [if_neg hz, if_neg hz]
                have e3 := hr.rmIntercept pr.centre fun i => y i - ∑ j, X i j * (pr.scale.run (asCol y) 0 / pr.scale.run X j * o.b j)
                rw [e3, hr.rmIntercepts]
                cases rmIntercepts pr.centre pr.scale X y Xs ys o.b _ with
                | error e => rfl
                | ok q =>
                  simp only [zeroOut_rep]
                  rfl

/-! ### SPRM -/

lemma coefOf_map {m m' : ℕ} (h : m' = m) {W P : Matrix (Fin p) (Fin m) ℝ} {W' P' : Matrix (Fin p) (Fin m') ℝ} (S : Matrix (Fin p) (Fin p) ℝ)
    (s0 : Fin p → ℝ) (hW : ∀ j a, W' j a = W j (Fin.cast h a)) (hP : ∀ j a, P' j a = P j (Fin.cast h a)) :
    coefOf m' W' P' S s0 = (coefOf m W P S s0).map fun q => (Matrix.of fun j a => q.1 j (Fin.cast h a), q.2) := by
  subst h
  have e1 : W' = W := by funext j a; exact hW j a
  have e2 : P' = P := by funext j a; exact hP j a
  subst e1 e2
  cases coefOf m' W' P' S s0 <;> rfl

lemma Spec.Repeats.snCoef_eq (h : Repeats r k) (X : Fin n → Fin p → ℝ) (y : Fin n → ℝ) (l : List (SnComp n p)) :
    Direpack.snCoef (fun I => X (r I)) (fun I => y (r I)) (l.map (repComp r)) =
      (Direpack.snCoef X y l).map fun q => (Matrix.of fun j a => q.1 j (Fin.cast (List.length_map _) a), q.2) := by
  have e1 : (Matrix.of fun j j' => ∑ I, X (r I) j * X (r I) j') = (k : ℝ) • (Matrix.of fun j j' => ∑ i, X i j * X i j') := by
    ext j j'
    exact h.sumR fun i => X i j * X i j'
  have e2 : (fun j => ∑ I, X (r I) j * y (r I)) = (k : ℝ) • fun j => ∑ i, X i j * y i := by
    funext j
    exact h.sumR fun i => X i j * y i
  change coefOf (l.map (repComp r)).length (compW (l.map (repComp r))) (compP (l.map (repComp r)))
      (Matrix.of fun j j' => ∑ I, X (r I) j * X (r I) j') (fun j => ∑ I, X (r I) j * y (r I)) = _
  rw [e1, e2, coefOf_scale h.k0]
  refine coefOf_map (List.length_map _) _ _ ?_ ?_
  · intro j a
    simp [compW, repComp]
  · intro j a
    simp [compP, repComp]

/-- The SNIPLS fit to the long data: the attributes that belong to cases are those of the case of which the row is a copy. -/
def SnFit.rep (r : Fin N → Fin n) (f : SnFit n p) : SnFit N p :=
  { comps := f.comps.map (repComp r), R := Matrix.of fun j a => f.R j (Fin.cast (List.length_map _) a)
    coefScaled := f.coefScaled, coef := f.coef, intercept := f.intercept, fitted := fun I => f.fitted (r I), residuals := fun I => f.residuals (r I)
    xLoc := f.xLoc, xSca := f.xSca, yLoc := f.yLoc, ySca := f.ySca }

/-- C165: fitting SNIPLS to data in which every case is entered `k` times has the same outcome as fitting it to the data themselves: the same failure, or the same model. -/
theorem C165_snipls_outcome {pr : SnParams} (hc : pr.centre = .mean ∨ pr.centre = .median ∨ pr.centre = .noneOpt)
    (hs : pr.scale = .std ∨ pr.scale = .mad ∨ pr.scale = .noneOpt) (hr : Repeats r k) (X : Fin n → Fin p → ℝ) (y : Fin n → ℝ) :
    snFit pr (fun I => X (r I)) (fun I => y (r I)) = (snFit pr X y).map (SnFit.rep r) := by
  have c1 := hr.centre hc X
  have c2 := hr.scale hs X
  have c3 : pr.centre.run (asCol fun I => y (r I)) = pr.centre.run (asCol y) := hr.centre hc (asCol y)
  have c4 : pr.scale.run (asCol fun I => y (r I)) = pr.scale.run (asCol y) := hr.scale hs (asCol y)
  unfold snFit
  split
  · rfl
  unfold snFitBody
  simp only [c1, c2, c3, c4]
  set Xs := scaleMat X (pr.centre.run X) (pr.scale.run X) with hXs
  set ys : Fin n → ℝ := fun i => scaleMat (asCol y) (pr.centre.run (asCol y)) (pr.scale.run (asCol y)) i 0 with hys
  have e1 : scaleMat (fun I => X (r I)) (pr.centre.run X) (pr.scale.run X) = fun I => Xs (r I) := rfl
  have e2 : (fun I => scaleMat (asCol fun I => y (r I)) (pr.centre.run (asCol y)) (pr.scale.run (asCol y)) I 0) = fun I => ys (r I) := rfl
  rw [e1, e2, hr.snLoop]
  cases snLoop pr.eta pr.nComponents Xs ys ∅ with
  | error e => rfl
  | ok l =>
    simp only [Except.map]
    rw [hr.snCoef_eq]
    cases snCoef Xs ys l with
    | error e => rfl
    | ok q =>
      simp only [Except.map]
      by_cases hz : ∃ j, pr.scale.run X j = 0
      · rw [if_pos hz, if_pos hz]
      · rw [if_neg hz, if_neg hz]
        rw [hr.intercept pr.centre fun i => y i - ∑ j, X i j * (pr.scale.run (asCol y) 0 / pr.scale.run X j * q.2 j)]
        rfl

lemma Spec.Repeats.scoreDistances (h : Repeats r k) {c : Centre} (hc : c = .mean ∨ c = .median ∨ c = .noneOpt)
    {s : ScaleOpt} (hs : s = .std ∨ s = .mad ∨ s = .noneOpt) {m m' : ℕ} (e : m' = m) (T : Fin n → Fin m → ℝ) (T' : Fin N → Fin m' → ℝ)
    (hT : ∀ I a, T' I a = T (r I) (Fin.cast e a)) :
    Direpack.rowDistances (scaleMat T' (c.run T') (s.run T')) = (Direpack.rowDistances (scaleMat T (c.run T) (s.run T))).map fun d I => d (r I) := by
  subst e
  have : T' = fun I => T (r I) := by funext I a; exact hT I a
  subst this
  rw [h.centre hc T, h.scale hs T]
  exact h.rowDistances (scaleMat T (c.run T) (s.run T))

lemma compT_rep (r : Fin N → Fin n) (l : List (SnComp n p)) (I : Fin N) (a : Fin (l.map (repComp r)).length) :
    compT (l.map (repComp r)) I a = compT l (r I) (Fin.cast (List.length_map _) a) := by
  simp [compT, repComp]

lemma Spec.Repeats.sprmStep (h : Repeats r k) (ext : SprmExt) (pr : SprmParams) (hc : pr.centre = .mean ∨ pr.centre = .median ∨ pr.centre = .noneOpt)
    {sc : ScaleOpt} (hs : sc = .std ∨ sc = .mad ∨ sc = .noneOpt) (cx : ℝ × ℝ × ℝ) (Xs : Fin n → Fin p → ℝ) (ys we : Fin n → ℝ) :
    Direpack.sprmStep ext pr sc cx (fun I => Xs (r I)) (fun I => ys (r I)) (fun I => we (r I)) =
      (Direpack.sprmStep ext pr sc cx Xs ys we).map fun q => (SnFit.rep r q.1, q.2.1, (fun I => q.2.2.1 (r I)), fun I => q.2.2.2 (r I)) := by
  have hs' : scoreScale sc = .std ∨ scoreScale sc = .mad ∨ scoreScale sc = .noneOpt := by
    rcases hs with rfl | rfl | rfl <;> simp [scoreScale]
  unfold Direpack.sprmStep
  have e := C165_snipls_outcome (pr := ⟨pr.eta, pr.nComponents.toNat, .mean, .noneOpt⟩) (.inl rfl) (.inr (.inr rfl)) h (weightRows Xs we)
    (fun i => ys i * Real.sqrt (we i))
  have e' : snFit ⟨pr.eta, pr.nComponents.toNat, .mean, .noneOpt⟩ (weightRows (fun I => Xs (r I)) fun I => we (r I))
    (fun I => ys (r I) * Real.sqrt (we (r I))) = _ := e
  rw [e']
  cases snFit ⟨pr.eta, pr.nComponents.toNat, .mean, .noneOpt⟩ (weightRows Xs we) (fun i => ys i * Real.sqrt (we i)) with
  | error e => rfl
  | ok f =>
    simp only [Except.map]
    have e2 : Direpack.scaleRes (fun I => ys (r I) - (SnFit.rep r f).fitted I) = _ := h.scaleRes fun i => ys i - f.fitted i
    rw [e2]
    cases Direpack.scaleRes fun i => ys i - f.fitted i with
    | error e => rfl
    | ok d =>
      simp only [Except.map]
      have e3 := h.scoreDistances hc hs' (m := f.comps.length) (m' := (SnFit.rep r f).comps.length) (List.length_map _)
        (fun i a => compT f.comps i a / Real.sqrt (we i)) (fun I a => compT (SnFit.rep r f).comps I a / Real.sqrt (we (r I)))
        (fun I a => congrArg (· / Real.sqrt (we (r I))) (compT_rep r f.comps I a))
      rw [e3]
      cases Direpack.rowDistances (scaleMat (fun i a => compT f.comps i a / Real.sqrt (we i)) (pr.centre.run fun i a => compT f.comps i a / Real.sqrt (we i))
          ((scoreScale sc).run fun i a => compT f.comps i a / Real.sqrt (we i))) with
      | error e => rfl
      | ok w =>
        simp only [Except.map, WFun.run_rep]
        rfl

/-- The SPRM fit to the long data: the attributes that belong to cases are those of the case of which the row is a copy. -/
noncomputable def SprmFit.rep (r : Fin N → Fin n) (f : SprmFit n p) : SprmFit N p :=
  { keep := f.keep, inner := f.inner.rep r, scores := Matrix.of fun I a => f.scores (r I) (Fin.cast (List.length_map _) a)
    coef := f.coef, intercept := f.intercept, coefScaled := f.coefScaled, interceptScaled := f.interceptScaled
    residuals := fun I => f.residuals (r I), fitted := fun I => f.fitted (r I), xCaseweights := fun I => f.xCaseweights (r I)
    yCaseweights := fun I => f.yCaseweights (r I), caseweights := fun I => f.caseweights (r I)
    xLoc := f.xLoc, yLoc := f.yLoc, xSca := f.xSca, ySca := f.ySca, trainCols := f.trainCols, fits := f.fits }

lemma Spec.Repeats.sprmB0 (h : Repeats r k) (c : Centre) (s : ScaleOpt) (X : Fin n → Fin p → ℝ) (y : Fin n → ℝ) (Xs : Fin n → Fin p → ℝ)
    (ys : Fin n → ℝ) (b : Fin p → ℝ) :
    Direpack.sprmB0 c s (fun I => X (r I)) (fun I => y (r I)) (fun I => Xs (r I)) (fun I => ys (r I)) b = Direpack.sprmB0 c s X y Xs ys b := by
  unfold Direpack.sprmB0
  rw [h.intercept c fun i => y i - ∑ j, X i j * b j, h.meanAllPairs ys fun i => ∑ j, Xs i j * b j, h.medAllPairs ys fun i => ∑ j, Xs i j * b j]

/-- `sprm.fit` after the parameter checks, for given locations and scales (a part of `sprmFit`). -/
noncomputable def sprmRest (ext : SprmExt) (pr : SprmParams) (sc : ScaleOpt) (X : Fin n → Fin p → ℝ) (y : Fin n → ℝ) (mX sX : Fin p → ℝ) (mY sY : Fin 1 → ℝ)
    (keep : List (Fin p)) : Except Err (SprmFit n p) :=
  let ys : Fin n → ℝ := fun i => scaleMat (asCol y) mY sY i 0
  let Xs := selCols (scaleMat X mX sX) keep
  if pr.nComponents > keep.length then .error .other
  else
    match sprmStartX ext pr sc Xs with
    | .error e => .error e
    | .ok (rc, dx) =>
      match startY pr.centre sc ys y with
      | .error e => .error e
      | .ok dy =>
        match sprmStartCut ext pr rc with
        | .error e => .error e
        | .ok cx =>
          let wx := pr.fn.run dx cx
          let wy := pr.fn.run dy (cutY ext.toRm pr.probp1 pr.probp2 pr.probp3)
          let we := clipW fun i => wx i * wy i
          match rwLoop (sprmStep ext pr sc cx Xs ys) pr.tol pr.maxit (pr.maxit.toNat + 1) 1
              (1 / 100000) (pr.tol < 1) we none with
          | none => .error .other
          | some (.error e) => .error e
          | some (.ok o) => sprmFinish pr sc X y mX sX (mY 0) (sY 0) keep Xs ys o

lemma sprmFit_rest (ext : SprmExt) (pr : SprmParams) (X : Fin n → Fin p → ℝ) (y : Fin n → ℝ) :
    (sprmFit ext pr X y).2 = match sprmCheck pr n p with
      | .error e => .error e
      | .ok _ => sprmRest ext pr (pr.scale.resolve X).opt X y (pr.centre.run X) ((pr.scale.resolve X).opt.run X) (pr.centre.run (asCol y))
          ((pr.scale.resolve X).opt.run (asCol y)) (keepVars ((pr.scale.resolve X).opt.run X)) := by
  unfold sprmFit
  cases sprmCheck pr n p <;> rfl

lemma Spec.Repeats.sprmRest (hr : Repeats r k) (ext : SprmExt) (pr : SprmParams) (hc : pr.centre = .mean ∨ pr.centre = .median ∨ pr.centre = .noneOpt)
    {s : ScaleOpt} (hs : s = .std ∨ s = .mad ∨ s = .noneOpt) (hpc : pr.pcapp = false) (X : Fin n → Fin p → ℝ) (y : Fin n → ℝ) (mX sX : Fin p → ℝ) (mY sY : Fin 1 → ℝ)
    (keep : List (Fin p)) :
    Direpack.sprmRest ext pr s (fun I => X (r I)) (fun I => y (r I)) mX sX mY sY keep = (Direpack.sprmRest ext pr s X y mX sX mY sY keep).map (SprmFit.rep r) := by
  unfold Direpack.sprmRest
  simp only
  by_cases hk : pr.nComponents > keep.length
  · rw [if_pos hk, if_pos hk]; rfl
  rw [if_neg hk, if_neg hk]
  set Xs := selCols (scaleMat X mX sX) keep with hXs
  set ys : Fin n → ℝ := fun i => scaleMat (asCol y) mY sY i 0 with hys
  have e1 : selCols (scaleMat (fun I => X (r I)) mX sX) keep = fun I => Xs (r I) := rfl
  have e2 : (fun I => scaleMat (asCol fun I => y (r I)) mY sY I 0) = fun I => ys (r I) := rfl
  have hst : Direpack.sprmStartX ext pr s (fun I => Xs (r I)) = (Direpack.sprmStartX ext pr s Xs).map fun q => (q.1, fun I => q.2 (r I)) := by
    unfold Direpack.sprmStartX
    simp only [hpc, Bool.false_eq_true, if_false]
    rw [hr.rowDistances]
    cases Direpack.rowDistances Xs <;> rfl
  rw [e1, e2, hst]
  cases Direpack.sprmStartX ext pr s Xs with
  | error e => rfl
  | ok q =>
    obtain ⟨rc, dx⟩ := q
    simp only [Except.map]
    rw [hr.startY]
    cases Direpack.startY pr.centre s ys y with
    | error e => rfl
    | ok dy =>
      simp only [Except.map]
      cases sprmStartCut ext pr rc with
      | error e => rfl
      | ok cx =>
        simp only [WFun.run_rep]
        have hl := hr.rwLoop (g := SnFit.rep r) (fun we => hr.sprmStep ext pr hc hs cx Xs ys we) pr.tol pr.maxit (pr.maxit.toNat + 1) 1 (1 / 100000)
          (pr.tol < 1) (clipW fun i => pr.fn.run dx cx i * pr.fn.run dy (cutY ext.toRm pr.probp1 pr.probp2 pr.probp3) i) none
        have hl2 : Direpack.rwLoop (Direpack.sprmStep ext pr s cx (fun I => Xs (r I)) (fun I => ys (r I))) pr.tol pr.maxit (pr.maxit.toNat + 1) 1 (1 / 100000) (pr.tol < 1)
          (clipW fun I => pr.fn.run dx cx (r I) * pr.fn.run dy (cutY ext.toRm pr.probp1 pr.probp2 pr.probp3) (r I)) none = _ := hl
        rw [hl2]
        cases Direpack.rwLoop (Direpack.sprmStep ext pr s cx Xs ys) pr.tol pr.maxit (pr.maxit.toNat + 1) 1 (1 / 100000)
          (pr.tol < 1) (clipW fun i => pr.fn.run dx cx i * pr.fn.run dy (cutY ext.toRm pr.probp1 pr.probp2 pr.probp3) i) none with
        | none => rfl
        | some z =>
          cases z with
          | error e => rfl
          | ok o =>
            cases o with
            | none => rfl
            | some o =>
              simp only [Option.map, Except.map]
              unfold sprmFinish
              simp only [RwOut.rep, zeroOut_rep]
              have e3 := hr.intercept pr.centre fun i => y i - ∑ a, selCols X keep i a * (sY 0 / sX (keep.get a) * o.b.coef a)
              have e4 := hr.sprmB0 pr.centre s (selCols X keep) y Xs ys o.b.coef
              have e3' : snIntercept pr.centre (fun I => y (r I) - ∑ a, selCols (fun I => X (r I)) keep I a *
                (sY 0 / sX (keep.get a) * (SnFit.rep r o.b).coef a)) = _ := e3
              have e4' : Direpack.sprmB0 pr.centre s (selCols (fun I => X (r I)) keep) (fun I => y (r I)) (fun I => Xs (r I)) (fun I => ys (r I))
                (SnFit.rep r o.b).coef = _ := e4
              rw [e3', e4']
              rfl

/-- C165: fitting SPRM to data in which every case is entered `k` times has the same outcome as fitting it to the data themselves: the same failure, or the same
coefficients, intercepts, components, locations, scales, retained variables and number of iterations, and for every copy of a case the fitted value, residual, scores
and weights of that case.  Missing: the starting weights from principal components (`start_X_init='pcapp'`), `scale='scaleTau2'`, and requests for more
components than there are cases, where the fit to the data themselves fails the parameter check. -/
theorem C165_sprm_partial {ext : SprmExt} {pr : SprmParams} (hc : pr.centre = .mean ∨ pr.centre = .median ∨ pr.centre = .noneOpt)
    {s : ScaleOpt} (hps : pr.scale = .plain s) (hs : s = .std ∨ s = .mad ∨ s = .noneOpt) (hpc : pr.pcapp = false) (hr : Repeats r k)
    (hcomp : pr.nComponents ≤ n) (X : Fin n → Fin p → ℝ) (y : Fin n → ℝ) :
    (sprmFit ext pr (fun I => X (r I)) (fun I => y (r I))).2 = (sprmFit ext pr X y).2.map (SprmFit.rep r) := by
  have c1 := hr.centre hc X
  have c2 := hr.scale hs X
  have c3 : pr.centre.run (asCol fun I => y (r I)) = pr.centre.run (asCol y) := hr.centre hc (asCol y)
  have c4 : s.run (asCol fun I => y (r I)) = s.run (asCol y) := hr.scale hs (asCol y)
  have hchk : sprmCheck pr N p = sprmCheck pr n p := by
    have : (n : ℤ) ≤ N := by
      have := hr.size
      have hk := hr.1
      have : n ≤ N := by rw [this]; exact Nat.le_mul_of_pos_right n hk
      exact_mod_cast this
    unfold sprmCheck
    have h1 : (pr.nComponents > N ∨ pr.nComponents > p) ↔ (pr.nComponents > n ∨ pr.nComponents > p) := by
      constructor
      · rintro (e | e)
        · omega
        · exact .inr e
      · rintro (e | e)
        · omega
        · exact .inr e
    simp only [h1]
  rw [sprmFit_rest, sprmFit_rest, hchk]
  cases sprmCheck pr n p with
  | error e => rfl
  | ok _ =>
    have e : (pr.scale.resolve fun I => X (r I)).opt = s := by rw [hps]; rfl
    have e' : (pr.scale.resolve X).opt = s := by rw [hps]; rfl
    simp only [e, e', c1, c2, c3, c4]
    exact hr.sprmRest ext pr hc hs hpc X y _ _ _ _ _

/-- Non-vacuity of `C165_rm`: the worked fit with every case entered twice. -/
example : ∃ f', rmFit rmExt1 (rmPr true) (fun I => rmX ((![0, 1, 2, 0, 1, 2] : Fin 6 → Fin 3) I)) (fun I => rmY ((![0, 1, 2, 0, 1, 2] : Fin 6 → Fin 3) I)) = .ok f' ∧
    f'.coef 0 = 3 / 5 ∧ f'.caseweights = fun _ => 1 := by
  obtain ⟨f, hf, ⟨h1, -⟩, -, -, h2⟩ := rmExFit rmExt1 rmExt1_ls (by simp only [rmExt1]; norm_num) (by simp only [rmExt1]; norm_num) true
  refine ⟨f.rep ![0, 1, 2, 0, 1, 2], ?_, h1, ?_⟩
  · rw [C165_rm (.inr (.inl rfl)) (.inr (.inl rfl)) rmExt1_min repeats_three, hf]
    rfl
  · simp only [RmFit.rep, h2]

/-- Non-vacuity of `C165_sprm_partial`. -/
example : ∃ f f', (sprmFit spExt0 (spPr true) spX rmY).2 = .ok f ∧
    (sprmFit spExt0 (spPr true) (fun I => spX ((![0, 1, 2, 0, 1, 2] : Fin 6 → Fin 3) I)) (fun I => rmY ((![0, 1, 2, 0, 1, 2] : Fin 6 → Fin 3) I))).2 = .ok f' ∧
    f'.keep = f.keep ∧ f'.fitted 4 = f.fitted 1 := by
  obtain ⟨f, hf⟩ := spExFit spExt0 (by simp only [spExt0, rmExt0]; norm_num) true
  refine ⟨f, f.rep ![0, 1, 2, 0, 1, 2], hf, ?_, rfl, rfl⟩
  rw [C165_sprm_partial (s := .mad) (.inr (.inl rfl)) rfl (.inr (.inl rfl)) rfl repeats_three (by simp [spPr]), hf]
  rfl

end Direpack
