import Verif.EquivRobust
import Verif.Props.RMEquiv
import Verif.Props.SniplsEquiv
import Verif.Props.SPRM
import Verif.Props.SPRMExample

/-!
Properties C116 and C117: the fitted SPRM model does not depend on the units of the variables (as long as no variable crosses the absolute threshold for near
constant variables) nor on the order of cases and variables.
-/

namespace Direpack

open scoped BigOperators
open Matrix Spec

variable {n p q : ℕ} {eta : ℝ}

/-! ### The inner SNIPLS fits -/

/-- Weights `R` of two related runs. -/
theorem snR_rel (σ : Equiv.Perm (Fin n)) (τ : Fin q ≃ Fin p) (D : Fin q → ℝ) (hD : ∀ j, D j = 1 ∨ D j = -1) {e : ℝ} (he : e = 1 ∨ e = -1)
    {X : Fin n → Fin p → ℝ} {y : Fin n → ℝ} {old : Finset (Fin p)} {l : List (SnComp n p)} (hr : SnRun eta (Matrix.of X) y old l)
    {X' : Fin n → Fin q → ℝ} {y' : Fin n → ℝ} {old' : Finset (Fin q)} {l' : List (SnComp n q)} (hl' : l' = l.map (relComp σ τ D e))
    (hr' : SnRun eta (Matrix.of X') y' old' l')
    {z z' : Fin n → ℝ} {R : Matrix (Fin p) (Fin l.length) ℝ} {B : Fin p → ℝ} (h : snCoef X z l = .ok (R, B))
    {R' : Matrix (Fin q) (Fin l'.length) ℝ} {B' : Fin q → ℝ} (h' : snCoef X' z' l' = .ok (R', B')) (hlen : l'.length = l.length) :
    ∀ j a, R' j a = e * D j * R (τ j) (Fin.cast hlen a) := by
  have hDD : ∀ j, D j * D j = 1 := fun j => by rcases hD j with h | h <;> rw [h] <;> norm_num
  have hee : e * e = 1 := by rcases he with rfl | rfl <;> norm_num
  have hsg : sg e = e := by rcases he with rfl | rfl <;> simp [sg]
  rw [snCoef_ok hr, Except.ok.injEq] at h
  rw [snCoef_ok hr', Except.ok.injEq] at h'
  by_cases hz : l.length = 0
  · intro j a
    exact absurd a.2 (by omega)
  · rw [if_neg hz] at h
    rw [if_neg (by omega)] at h'
    have h1 := congrArg Prod.fst h
    have h2 := congrArg Prod.fst h'
    simp only at h1 h2
    have hget : ∀ a : Fin l'.length, l'.get a = relComp σ τ D e (l.get (Fin.cast hlen a)) := by
      intro a
      subst hl'
      simp
    have hW : ∀ j a, compW l' j a = e * D j * compW l (τ j) (Fin.cast hlen a) := by
      intro j a
      simp only [compW, Matrix.of_apply, hget, relComp, hsg]
    have hP : ∀ j a, compP l' j a = e * D j * compP l (τ j) (Fin.cast hlen a) := by
      intro j a
      simp only [compP, Matrix.of_apply, hget, relComp, hsg]
    have hPW : (compP l').transpose * compW l' =
        ((compP l).transpose * compW l).submatrix (finCongr hlen) (finCongr hlen) := by
      ext a b
      simp only [Matrix.mul_apply, Matrix.transpose_apply, Matrix.submatrix_apply, hW, hP, finCongr_apply]
      rw [← Equiv.sum_comp τ (fun j => compP l j (Fin.cast hlen a) * compW l j (Fin.cast hlen b))]
      refine Finset.sum_congr rfl fun j _ => ?_
      calc _ = (e * e) * (D j * D j) * (compP l (τ j) (Fin.cast hlen a) * compW l (τ j) (Fin.cast hlen b)) := by ring
        _ = _ := by rw [hee, hDD]; ring
    intro j a
    rw [← h2, ← h1, hPW, Matrix.inv_submatrix_equiv]
    simp only [Matrix.mul_apply, Matrix.submatrix_apply, hW, finCongr_apply]
    rw [Finset.mul_sum, ← Equiv.sum_comp (finCongr hlen) (fun b => e * D j * (compW l (τ j) b * ((compP l).transpose * compW l)⁻¹ b (Fin.cast hlen a)))]
    refine Finset.sum_congr rfl fun b _ => ?_
    simp only [finCongr_apply]
    ring

/-- Two SNIPLS fits that agree up to order and signs. -/
def SnRel (σ : Equiv.Perm (Fin n)) (τ : Fin q ≃ Fin p) (D : Fin q → ℝ) (e : ℝ) (f : SnFit n p) (f' : SnFit n q) : Prop :=
  f'.comps = f.comps.map (relComp σ τ D e) ∧ (∀ j, f'.coef j = e * D j * f.coef (τ j)) ∧ (∀ i, f'.fitted i = e * f.fitted (σ i)) ∧
    ∀ (hlen : f'.comps.length = f.comps.length) j a, f'.R j a = e * D j * f.R (τ j) (Fin.cast hlen a)

theorem snFit_rel (hn : 0 < n) (σ : Equiv.Perm (Fin n)) (τ : Fin q ≃ Fin p) (D : Fin q → ℝ) (hD : ∀ j, D j = 1 ∨ D j = -1) {e : ℝ}
    (he : e = 1 ∨ e = -1) {h : ℕ} {X : Fin n → Fin p → ℝ} {y : Fin n → ℝ} {f : SnFit n p}
    (hf : snFit ⟨eta, h, .mean, .noneOpt⟩ X y = .ok f) :
    ∃ f', snFit ⟨eta, h, .mean, .noneOpt⟩ (fun i j => D j * X (σ i) (τ j)) (fun i => e * y (σ i)) = .ok f' ∧ SnRel σ τ D e f f' := by
  have hDD : ∀ j, D j * D j = 1 := fun j => by rcases hD j with h | h <;> rw [h] <;> norm_num
  have hen : e ≠ 0 := by rcases he with rfl | rfl <;> norm_num
  obtain ⟨hpar, e1, e2, e3, e4, hne, hl, hcf, hco, hint, hfit, _⟩ := snFit_inv hf
  simp only at hpar e1 e2 e3 e4 hl hcf hint
  have e2' : f.xSca = fun _ => 1 := e2
  have e4' : f.ySca = 1 := e4
  have hX : stdMat (fun i j => D j * X (σ i) (τ j)) (Centre.mean.run fun i j => D j * X (σ i) (τ j)) (ScaleOpt.noneOpt.run fun i j => D j * X (σ i) (τ j)) =
      fun i j => D j * stdMat X f.xLoc f.xSca (σ i) (τ j) := by
    funext i j
    have h1 : Centre.mean.run (fun i j => D j * X (σ i) (τ j)) j = D j * f.xLoc (τ j) := by
      rw [e1]; exact mean_scaled hn σ (D j) fun i => X i (τ j)
    simp only [stdMat, std1, h1, e2', ScaleOpt.run]
    norm_num
    ring
  have hY : stdVec (fun i => e * y (σ i)) (Centre.mean.run (asCol fun i => e * y (σ i)) 0) (ScaleOpt.noneOpt.run (asCol fun i => e * y (σ i)) 0) =
      fun i => e * stdVec y f.yLoc f.ySca (σ i) := by
    funext i
    have h1 : Centre.mean.run (asCol fun i => e * y (σ i)) 0 = e * f.yLoc := by
      rw [e3]; exact mean_scaled hn σ e y
    simp only [stdVec, std1, h1, e4', ScaleOpt.run]
    norm_num
    ring
  have hloop := snLoop_rel σ τ D e hD hen eta h (stdMat X f.xLoc f.xSca) (stdVec y f.yLoc f.ySca) ∅
  rw [hl, Finset.map_empty] at hloop
  obtain ⟨R', hR'⟩ := snCoef_rel σ τ D e hD hen hl hcf
  obtain ⟨f', hf', hcomps, hB'⟩ := snFit_intro ⟨eta, h, .mean, .noneOpt⟩ (fun i j => D j * X (σ i) (τ j)) (fun i => e * y (σ i)) hpar
    (fun j => by simp [ScaleOpt.run]) _ (by rw [hX, hY]; exact hloop) R' _ (by rw [hX, hY]; exact hR')
  obtain ⟨_, g1, g2, g3, g4, _, gl, gcf, gco, gint, gfit, _⟩ := snFit_inv hf'
  simp only at g1 g2 g3 g4 gl gcf gint
  have g2' : f'.xSca = fun _ => 1 := g2
  have g4' : f'.ySca = 1 := g4
  have hcoef : ∀ j, f'.coef j = e * D j * f.coef (τ j) := by
    intro j
    rw [gco, g2', g4', hB', hco, e2', e4']
    ring
  have hlin : ∀ i, lin (fun i j => D j * X (σ i) (τ j)) f'.coef i = e * lin X f.coef (σ i) := by
    intro i
    simp only [lin, hcoef]
    rw [← Equiv.sum_comp τ (fun j => X (σ i) j * f.coef j), Finset.mul_sum]
    refine Finset.sum_congr rfl fun j _ => ?_
    calc _ = (D j * D j) * (e * (X (σ i) (τ j) * f.coef (τ j))) := by ring
      _ = _ := by rw [hDD, one_mul]
  have hb0 : f'.intercept = e * f.intercept := by
    rw [gint, hint]
    change Direpack.mean _ = e * Direpack.mean _
    rw [← mean_scaled hn σ e]
    congr 1
    funext i
    rw [hlin]
    ring
  refine ⟨f', hf', hcomps, hcoef, fun i => by rw [gfit, hfit, hlin, hb0]; ring, ?_⟩
  intro hlen
  exact snR_rel σ τ D hD he (snLoop_run _ _ _ _ _ _ hl).1 hcomps (snLoop_run _ _ _ _ _ _ gl).1 hcf gcf hlen

/-! ### Location and scale of the scores -/

theorem scaleMat_follows {c : Centre} {s : ScaleOpt} {σ : Equiv.Perm (Fin n)} (hc : c.Follows σ) (hs : s.Follows σ) {k : ℕ}
    (τ : Fin q ≃ Fin k) (D : Fin q → ℝ) (hD : ∀ j, D j = 1 ∨ D j = -1) (T : Fin n → Fin k → ℝ) :
    scaleMat (fun i j => D j * T (σ i) (τ j)) (c.run fun i j => D j * T (σ i) (τ j)) (s.run fun i j => D j * T (σ i) (τ j)) =
      fun i j => D j * scaleMat T (c.run T) (s.run T) (σ i) (τ j) := by
  funext i j
  simp only [scaleMat, hc τ D hD T j, hs τ D hD T j]
  rw [← mul_sub, mul_div_assoc]

theorem scoreScale_follows {s : ScaleOpt} (hn : 0 < n) {σ : Equiv.Perm (Fin n)} (hs : s.Follows σ) : (scoreScale s).Follows σ := by
  cases s with
  | noneOpt => exact ScaleOpt.follows (s := .mad) (.inr (.inl rfl)) hn σ
  | std => exact hs
  | mad => exact hs
  | other f => exact hs

/-! ### The reweighting steps -/

theorem sprmStep_rel {ext : SprmExt} {pr : SprmParams} {sc : ScaleOpt} {cx : ℝ × ℝ × ℝ} (hn : 0 < n) (σ : Equiv.Perm (Fin n)) (τ : Fin q ≃ Fin p)
    (D : Fin q → ℝ) (hD : ∀ j, D j = 1 ∨ D j = -1) {e : ℝ} (he : e = 1 ∨ e = -1) (hc : pr.centre.Follows σ) (hs : (scoreScale sc).Follows σ)
    (Xs : Fin n → Fin p → ℝ) (ys we : Fin n → ℝ) (f : SnFit n p) (s : ℝ) (wy wt : Fin n → ℝ)
    (h : sprmStep ext pr sc cx Xs ys we = .ok (f, s, wy, wt)) :
    ∃ f', SnRel σ τ D e f f' ∧
      sprmStep ext pr sc cx (fun i j => D j * Xs (σ i) (τ j)) (fun i => e * ys (σ i)) (fun i => we (σ i)) =
        .ok (f', s, (fun i => wy (σ i)), fun i => wt (σ i)) := by
  have hDD : ∀ j, D j * D j = 1 := fun j => by rcases hD j with h | h <;> rw [h] <;> norm_num
  have hee : e * e = 1 := by rcases he with rfl | rfl <;> norm_num
  have hsg : sg e = e := by rcases he with rfl | rfl <;> simp [sg]
  unfold sprmStep at h
  split at h
  · simp at h
  rename_i g hg
  simp only at h
  split at h
  · simp at h
  rename_i r hr
  split at h
  · simp at h
  rename_i d hd
  simp only [Except.ok.injEq, Prod.mk.injEq] at h
  obtain ⟨rfl, rfl, rfl, rfl⟩ := h
  obtain ⟨f', hf', hrel⟩ := snFit_rel hn σ τ D hD he hg
  obtain ⟨hcomps, hcoef, hfit, hR⟩ := hrel
  have hlen : f'.comps.length = g.comps.length := by rw [hcomps, List.length_map]
  have hX : weightRows (fun i j => D j * Xs (σ i) (τ j)) (fun i => we (σ i)) = fun i j => D j * weightRows Xs we (σ i) (τ j) := by
    funext i j; simp only [weightRows]; ring
  have hY : (fun i => e * ys (σ i) * Real.sqrt (we (σ i))) = fun i => e * (fun i => ys i * Real.sqrt (we i)) (σ i) := by
    funext i; ring
  have hres : (fun i => e * ys (σ i) - f'.fitted i) = fun i => e * (fun i => ys i - g.fitted i) (σ i) := by
    funext i; rw [hfit]; ring
  have hT : (fun i a => compT f'.comps i a / Real.sqrt (we (σ i))) =
      fun i (a : Fin f'.comps.length) => e * (compT g.comps (σ i) (finCongr hlen a) / Real.sqrt (we (σ i))) := by
    funext i a
    have hget : f'.comps.get a = relComp σ τ D e (g.comps.get (Fin.cast hlen a)) := by
      have : ∀ (l' : List (SnComp n q)) (hl : l' = g.comps.map (relComp σ τ D e)) (hlen : l'.length = g.comps.length) (a : Fin l'.length),
          l'.get a = relComp σ τ D e (g.comps.get (Fin.cast hlen a)) := by
        intro l' hl hlen a
        subst hl
        simp
      exact this _ hcomps hlen a
    simp only [compT, Matrix.of_apply, hget, relComp, hsg, finCongr_apply]
    ring
  have hrow := rowDistances_rel (X' := scaleMat (fun i a => compT f'.comps i a / Real.sqrt (we (σ i)))
      (pr.centre.run fun i a => compT f'.comps i a / Real.sqrt (we (σ i)))
      ((scoreScale sc).run fun i a => compT f'.comps i a / Real.sqrt (we (σ i)))) σ (finCongr hlen) (fun i a => by
        have key := scaleMat_follows hc hs (finCongr hlen) (fun _ => e) (fun _ => he) (fun i a => compT g.comps i a / Real.sqrt (we i))
        rw [hT, key, abs_mul]
        have : |e| = 1 := by rcases he with rfl | rfl <;> norm_num
        rw [this, one_mul]) hd
  refine ⟨f', ⟨hcomps, hcoef, hfit, hR⟩, ?_⟩
  unfold sprmStep
  rw [hX, hY, hf']
  simp only
  rw [hres, scaleRes_rel σ he hr]
  simp only
  rw [hrow]
  simp only [Except.ok.injEq, Prod.mk.injEq, WFun.run_perm, true_and, and_true]
  rw [← Equiv.sum_comp τ (fun j => g.coef j ^ 2)]
  refine Finset.sum_congr rfl fun j _ => ?_
  rw [hcoef]
  calc _ = (e * e) * (D j * D j) * g.coef (τ j) ^ 2 := by ring
    _ = _ := by rw [hee, hDD]; ring

/-! ### The variables that are kept -/

theorem keepVars_mem {s : Fin p → ℝ} {j : Fin p} : j ∈ keepVars s ↔ ¬ s j < 1 / 100000 := by
  simp [keepVars]

theorem keepVars_nodup (s : Fin p → ℝ) : (keepVars s).Nodup := (List.nodup_finRange p).filter _

/-- The positions in two lists that contain the same variables. -/
noncomputable def keepEquiv {k k' : List (Fin p)} (hk : k.Nodup) (hk' : k'.Nodup) (τ : Equiv.Perm (Fin p)) (h : ∀ j, j ∈ k' ↔ τ j ∈ k) :
    Fin k'.length ≃ Fin k.length :=
  (List.Nodup.getEquiv k' hk').trans ((τ.subtypeEquiv h).trans (List.Nodup.getEquiv k hk).symm)

theorem keepEquiv_get {k k' : List (Fin p)} (hk : k.Nodup) (hk' : k'.Nodup) (τ : Equiv.Perm (Fin p)) (h : ∀ j, j ∈ k' ↔ τ j ∈ k)
    (a : Fin k'.length) : k.get (keepEquiv hk hk' τ h a) = τ (k'.get a) := by
  have := (List.Nodup.getEquiv k hk).apply_symm_apply ((τ.subtypeEquiv h) (List.Nodup.getEquiv k' hk' a))
  have h2 := congrArg Subtype.val this
  simpa [keepEquiv] using h2

theorem sprmStartX_ncases {ext : SprmExt} {pr : SprmParams} {sc : ScaleOpt} {Xs : Fin n → Fin p → ℝ} {r : Option ℕ × (Fin n → ℝ)}
    (h : sprmStartX ext pr sc Xs = .ok r) : 0 < n := by
  unfold sprmStartX at h
  simp only at h
  split at h
  · split at h
    · cases h
    · split at h
      · cases h
      · split at h
        · cases h
        · rename_i hd
          exact rowDistances_ncases hd
  · split at h
    · cases h
    · rename_i hd
      exact rowDistances_ncases hd

/-- A fit from its parts. -/
theorem sprmFit_intro {ext : SprmExt} {pr : SprmParams} {X : Fin n → Fin p → ℝ} {y : Fin n → ℝ} {u : Unit} {m s : Fin p → ℝ} {my sy : ℝ}
    (h0 : sprmCheck pr n p = .ok u) (hm : pr.centre.run X = m) (hs : (sprmAfter pr X).scale.opt.run X = s)
    (hmy : pr.centre.run (asCol y) 0 = my) (hsy : (sprmAfter pr X).scale.opt.run (asCol y) 0 = sy)
    (hk : pr.nComponents ≤ (keepVars s).length) {rc : Option ℕ} {dx dy : Fin n → ℝ} {cx : ℝ × ℝ × ℝ}
    (h1 : sprmStartX ext pr (sprmAfter pr X).scale.opt (selCols (stdMat X m s) (keepVars s)) = .ok (rc, dx))
    (h2 : startY pr.centre (sprmAfter pr X).scale.opt (stdVec y my sy) y = .ok dy)
    (h3 : sprmStartCut ext pr rc = .ok cx) {o : RwOut (SnFit n (keepVars s).length) n}
    (h4 : rwLoop (sprmStep ext pr (sprmAfter pr X).scale.opt cx (selCols (stdMat X m s) (keepVars s)) (stdVec y my sy))
        pr.tol pr.maxit (pr.maxit.toNat + 1) 1 (1 / 100000) (pr.tol < 1)
        (clipW fun i => pr.fn.run dx cx i * pr.fn.run dy (cutY ext.toRm pr.probp1 pr.probp2 pr.probp3) i) none = some (.ok (some o))) :
    (sprmFit ext pr X y).2 = sprmFinish pr (sprmAfter pr X).scale.opt X y m s my sy (keepVars s) (selCols (stdMat X m s) (keepVars s))
      (stdVec y my sy) (some o) := by
  subst hm hs hmy hsy
  have hy : (fun i => scaleMat (asCol y) (pr.centre.run (asCol y)) ((sprmAfter pr X).scale.opt.run (asCol y)) i 0)
      = stdVec y (pr.centre.run (asCol y) 0) ((sprmAfter pr X).scale.opt.run (asCol y) 0) := by
    rw [scaleMat_eq]; rfl
  unfold sprmFit
  rw [h0]
  rw [show ({ pr with scale := pr.scale.resolve X } : SprmParams) = sprmAfter pr X from rfl]
  simp only [hy]
  simp only [scaleMat_eq]
  rw [if_neg (not_lt.2 hk), h1]
  simp only [h2, h3, h4]

/-! ### The whole fit -/

/-- Two SPRM fits that describe the same model: the second for cases in the order `σ`, variables in the order `τ`, predictors in the units `a`, `b` and
the response in the units `c`, `d`. -/
def SprmRel (σ : Equiv.Perm (Fin n)) (τ : Equiv.Perm (Fin p)) (a b : Fin p → ℝ) (c d : ℝ) (f f' : SprmFit n p) : Prop :=
  (∀ j, j ∈ f'.keep ↔ τ j ∈ f.keep) ∧
  (∀ k' k, f.keep.get k = τ (f'.keep.get k') → f'.coef k' = c / a (f'.keep.get k') * f.coef k) ∧
  (∀ i, f'.fitted i = c * f.fitted (σ i) + d) ∧ (∀ i, f'.residuals i = c * f.residuals (σ i)) ∧
  (∀ i, f'.caseweights i = f.caseweights (σ i)) ∧ (∀ i, f'.xCaseweights i = f.xCaseweights (σ i)) ∧
  (∀ i, f'.yCaseweights i = f.yCaseweights (σ i)) ∧
  (∀ {m : ℕ} (Xn : Fin m → Fin p → ℝ), f'.predict (newUnits a b (reorder (Equiv.refl _) τ Xn)) = (f.predict Xn).map (newUnit c d)) ∧
  ∃ hlen : f'.inner.comps.length = f.inner.comps.length,
    (∀ i k, f'.scores i k = sg c * f.scores (σ i) (Fin.cast hlen k)) ∧
    ∀ {m : ℕ} (Xn : Fin m → Fin p → ℝ) T, f.transform Xn = .ok T →
      ∃ T', f'.transform (newUnits a b (reorder (Equiv.refl _) τ Xn)) = .ok T' ∧ ∀ i k, T' i k = sg c * T i (Fin.cast hlen k)

theorem sprm_rel {ext : SprmExt} {pr : SprmParams} {X : Fin n → Fin p → ℝ} {y : Fin n → ℝ} {f : SprmFit n p}
    (h : (sprmFit ext pr X y).2 = .ok f) (σ : Equiv.Perm (Fin n)) (τ : Equiv.Perm (Fin p)) (a b : Fin p → ℝ) (ha : ∀ j, a j ≠ 0)
    (c d : ℝ) (hcn : c ≠ 0) (hpos : (pr.centre = .median ∧ (sprmAfter pr X).scale.opt = .mad) ∨ 0 < c) (hys : f.ySca ≠ 0 ∨ |c| = 1)
    (hkeep : ∀ j, |a j| * f.xSca (τ j) < 1 / 100000 ↔ f.xSca (τ j) < 1 / 100000)
    (hcX : ∀ j, pr.centre.run (newUnits a b (reorder σ τ X)) j = a j * pr.centre.run X (τ j) + b j)
    (hcY : pr.centre.run (asCol (newUnit c d fun i => y (σ i))) 0 = c * pr.centre.run (asCol y) 0 + d)
    (hres : pr.scale.resolve (newUnits a b (reorder σ τ X)) = pr.scale.resolve X)
    (hsX : ∀ j, (sprmAfter pr X).scale.opt.run (newUnits a b (reorder σ τ X)) j = |a j| * (sprmAfter pr X).scale.opt.run X (τ j))
    (hsY : (sprmAfter pr X).scale.opt.run (asCol (newUnit c d fun i => y (σ i))) 0 = |c| * (sprmAfter pr X).scale.opt.run (asCol y) 0)
    (hcT : pr.centre.Follows σ) (hsT : (scoreScale (sprmAfter pr X).scale.opt).Follows σ)
    (hint : ∀ (r : Fin n → ℝ) (B : ℝ), ((∀ j, b j = 0) → B = 0) →
      snIntercept pr.centre (fun i => c * r (σ i) + (d - B)) = c * snIntercept pr.centre r + (d - B))
    (hst : ∀ rc dx, sprmStartX ext pr (sprmAfter pr X).scale.opt (selCols (stdMat X f.xLoc f.xSca) f.keep) = .ok (rc, dx) →
      sprmStartX ext pr (sprmAfter pr X).scale.opt (selCols (stdMat (newUnits a b (reorder σ τ X)) (fun j => a j * f.xLoc (τ j) + b j)
        (fun j => |a j| * f.xSca (τ j))) (keepVars fun j => |a j| * f.xSca (τ j))) = .ok (rc, fun i => dx (σ i))) :
    ∃ f', (sprmFit ext pr (newUnits a b (reorder σ τ X)) (newUnit c d fun i => y (σ i))).2 = .ok f' ∧ SprmRel σ τ a b c d f f' := by
  obtain ⟨⟨u, hu⟩, e1, e2, e3, e4, hkf, hnc, rc, dx, dy, cx, o, hdx, hdy, hcx, hl, hin, hcs, hco, hfit, hi, _, hw, hwx, hwy, htc, _, hrs, hsc⟩ :=
    sprmFit_inv h
  have hn : 0 < n := sprmStartX_ncases hdx
  set X' := newUnits a b (reorder σ τ X) with hX'
  set y' := newUnit c d fun i => y (σ i) with hy'
  set m' : Fin p → ℝ := fun j => a j * f.xLoc (τ j) + b j with hm'
  set s' : Fin p → ℝ := fun j => |a j| * f.xSca (τ j) with hs'
  have hafter : (sprmAfter pr X').scale.opt = (sprmAfter pr X).scale.opt := by
    change (pr.scale.resolve X').opt = (pr.scale.resolve X).opt
    rw [hres]
  set so := (sprmAfter pr X).scale.opt with hso
  have hkn : f.keep.Nodup := by rw [hkf]; exact keepVars_nodup _
  have hmem : ∀ j, j ∈ keepVars s' ↔ τ j ∈ f.keep := by
    intro j
    rw [hkf, keepVars_mem, keepVars_mem, hs', not_iff_not]
    exact hkeep j
  set ε := keepEquiv hkn (keepVars_nodup s') τ hmem with hε
  have hεg : ∀ k, f.keep.get (ε k) = τ ((keepVars s').get k) := keepEquiv_get hkn (keepVars_nodup s') τ hmem
  have hlenk : (keepVars s').length = f.keep.length := by simpa using Fintype.card_congr ε
  have hne : ∀ k, f.xSca (f.keep.get k) ≠ 0 := by
    intro k h0
    have hm : ∀ j ∈ f.keep, ¬ f.xSca j < 1 / 100000 := fun j hj => keepVars_mem.1 (hkf ▸ hj)
    have := hm _ (List.get_mem f.keep k)
    rw [h0] at this
    norm_num at this
  set D : Fin (keepVars s').length → ℝ := fun k => sg (a ((keepVars s').get k)) with hDdef
  have hD : ∀ k, D k = 1 ∨ D k = -1 := fun k => sg_cases (ha _)
  have hDD : ∀ k, D k * D k = 1 := fun k => by rcases hD k with h | h <;> rw [h] <;> norm_num
  have he := sg_cases hcn
  have hstd : ∀ {m : ℕ} (ρ : Equiv.Perm (Fin m)) (Z : Fin m → Fin p → ℝ) (i : Fin m) (k : Fin (keepVars s').length),
      std1 (newUnits a b (reorder ρ τ Z) i ((keepVars s').get k)) (m' ((keepVars s').get k)) (s' ((keepVars s').get k)) =
        D k * std1 (Z (ρ i) (f.keep.get (ε k))) (f.xLoc (f.keep.get (ε k))) (f.xSca (f.keep.get (ε k))) := by
    intro m ρ Z i k
    have h1 := hne (ε k)
    rw [hεg] at h1 ⊢
    have h2 : s' ((keepVars s').get k) ≠ 0 := mul_ne_zero (abs_ne_zero.2 (ha _)) h1
    rw [std1, std1, if_neg h1, if_neg h2, hDdef]
    simp only [newUnits, reorder, hm', hs', sg]
    rw [div_mul_div_comm]
    congr 1
    ring
  have hXs : selCols (stdMat X' m' s') (keepVars s') = fun i k => D k * selCols (stdMat X f.xLoc f.xSca) f.keep (σ i) (ε k) := by
    funext i k
    exact hstd σ X i k
  have hYs : stdVec y' (c * f.yLoc + d) (|c| * f.ySca) = fun i => sg c * stdVec y f.yLoc f.ySca (σ i) :=
    stdVec_rel σ c d hcn y f.yLoc f.ySca hys
  have hdx' := hst rc dx hdx
  have hdy' := startY_rel hn σ c d hcn hpos hdy
  rw [← hYs] at hdy'
  obtain ⟨res', hl', hrel⟩ := rwLoop_rel (SnRel σ ε D (sg c)) σ
    (fun we b s wy wt _ hst => sprmStep_rel hn σ ε D hD he hcT hsT _ _ we b s wy wt hst) pr.tol pr.maxit _ _ _ _ _ none none
    _ (fun i => clip_ge _ i) trivial hl
  cases res' with
  | none => exact absurd hrel (by simp [RwRel])
  | some o' =>
  obtain ⟨⟨hcomps, hcoef, hfitin, hRin⟩, hwe', hwye', hwte', hw0', _⟩ := hrel
  rw [← hXs, ← hYs] at hl'
  have hF := sprmFit_intro (ext := ext) (pr := pr) (X := X') (y := y') (m := m') (s := s') (my := c * f.yLoc + d) (sy := |c| * f.ySca) hu
    (by funext j; rw [hcX, ← e1]) (by rw [hafter]; funext j; rw [hsX, ← e2]) (by rw [hcY, ← e3]) (by rw [hafter, hsY, ← e4])
    (by rw [hlenk]; exact hnc) (rc := rc) (dx := fun i => dx (σ i)) (dy := fun i => dy (σ i)) (cx := cx)
    (by rw [hafter]; exact hdx') (by rw [hafter]; exact hdy') hcx (o := o') (by
      rw [hafter, ← hl']
      congr 1
      simp only [WFun.run_perm]
      rfl)
  simp only [sprmFinish] at hF
  refine ⟨_, hF, ?_⟩
  have hcoef' : ∀ k, |c| * f.ySca / s' ((keepVars s').get k) * o'.b.coef k = c / a ((keepVars s').get k) * f.coef (ε k) := by
    intro k
    have h1 := hne (ε k)
    rw [hco, hcoef]
    rw [hεg] at h1 ⊢
    simp only [hs', hDdef]
    set j := (keepVars s').get k
    have h2 : |a j| ≠ 0 := abs_ne_zero.2 (ha j)
    have h3 : sg (a j) / |a j| = 1 / a j := by
      rw [sg, div_div, abs_mul_abs_self, div_mul_eq_div_div, div_self (ha j)]
    have h4 : |c| * sg c = c := by rw [mul_comm]; exact sg_mul_abs hcn
    calc _ = (|c| * sg c) * (sg (a j) / |a j|) * f.ySca / f.xSca (τ j) * o.b.coef (ε k) := by field_simp
      _ = _ := by rw [h4, h3]; field_simp
  set B := ∑ k, b ((keepVars s').get k) * (c / a ((keepVars s').get k) * f.coef (ε k)) with hB
  have hlin : ∀ {m : ℕ} (ρ : Equiv.Perm (Fin m)) (Z : Fin m → Fin p → ℝ) (i : Fin m),
      ∑ k, selCols (newUnits a b (reorder ρ τ Z)) (keepVars s') i k * (|c| * f.ySca / s' ((keepVars s').get k) * o'.b.coef k) =
        c * lin (selCols Z f.keep) f.coef (ρ i) + B := by
    intro m ρ Z i
    simp only [hcoef', lin, selCols]
    rw [← Equiv.sum_comp ε (fun k => Z (ρ i) (f.keep.get k) * f.coef k), Finset.mul_sum, hB, ← Finset.sum_add_distrib]
    refine Finset.sum_congr rfl fun k _ => ?_
    rw [hεg]
    simp only [newUnits, reorder]
    have := ha ((keepVars s').get k)
    field_simp
  have hB0 : (∀ j, b j = 0) → B = 0 := by
    intro h0
    rw [hB]
    exact Finset.sum_eq_zero fun k _ => by rw [h0, zero_mul]
  have hi' : snIntercept pr.centre (fun i => y' i - ∑ k, selCols X' (keepVars s') i k *
      (|c| * f.ySca / s' ((keepVars s').get k) * o'.b.coef k)) = c * f.intercept + (d - B) := by
    rw [hi, ← hint _ B hB0]
    congr 1
    funext i
    rw [hX', hlin σ X i, hy']
    simp only [newUnit]
    ring
  have hfit' : ∀ i, (∑ k, selCols X' (keepVars s') i k * (|c| * f.ySca / s' ((keepVars s').get k) * o'.b.coef k)) +
      (c * f.intercept + (d - B)) = c * f.fitted (σ i) + d := by
    intro i
    rw [hX', hlin σ X i, hfit]
    ring
  have hz : ∀ (w : Fin n → ℝ) (i : Fin n), zeroOut (fun i => w (σ i)) o'.w0 i = zeroOut w o.w0 (σ i) := by
    intro w i
    simp only [zeroOut, hw0']
  have hlen : o'.b.comps.length = f.inner.comps.length := by rw [hcomps, List.length_map, hin]
  have hR : ∀ k b, o'.b.R k b = sg c * D k * f.inner.R (ε k) (Fin.cast hlen b) := by
    have : ∀ (g : SnFit n f.keep.length) (hg : g = o.b) (hlen : o'.b.comps.length = g.comps.length) k b,
        o'.b.R k b = sg c * D k * g.R (ε k) (Fin.cast hlen b) := by
      intro g hg hlen
      subst hg
      exact hRin hlen
    exact this _ hin hlen
  have hsco : ∀ {m : ℕ} (ρ : Equiv.Perm (Fin m)) (Z : Fin m → Fin p → ℝ) (i : Fin m) (g : Fin o'.b.comps.length),
      ∑ k, std1 (newUnits a b (reorder ρ τ Z) i ((keepVars s').get k)) (m' ((keepVars s').get k)) (s' ((keepVars s').get k)) * o'.b.R k g =
        sg c * ∑ k, std1 (Z (ρ i) (f.keep.get k)) (f.xLoc (f.keep.get k)) (f.xSca (f.keep.get k)) * f.inner.R k (Fin.cast hlen g) := by
    intro m ρ Z i g
    rw [← Equiv.sum_comp ε (fun k => std1 (Z (ρ i) (f.keep.get k)) (f.xLoc (f.keep.get k)) (f.xSca (f.keep.get k)) *
      f.inner.R k (Fin.cast hlen g)), Finset.mul_sum]
    refine Finset.sum_congr rfl fun k _ => ?_
    rw [hstd ρ Z i k, hR]
    calc _ = (D k * D k) * (sg c * (std1 (Z (ρ i) (f.keep.get (ε k))) (f.xLoc (f.keep.get (ε k))) (f.xSca (f.keep.get (ε k))) *
          f.inner.R (ε k) (Fin.cast hlen g))) := by ring
      _ = _ := by rw [hDD, one_mul]
  refine ⟨hmem, ?_, ?_, ?_, ?_, ?_, ?_, ?_, hlen, ?_, ?_⟩
  · intro k' k hk
    have hkk : k = ε k' := by
      have := hεg k'
      exact (List.nodup_iff_injective_get.1 hkn) (hk.trans this.symm)
    rw [hkk]
    exact hcoef' k'
  · intro i
    simp only [hi']
    exact hfit' i
  · intro i
    simp only [hi']
    rw [hfit' i, hrs, hy']
    simp only [newUnit]
    ring
  · intro i
    rw [hw]
    simp only [hwe']
    exact hz _ i
  · intro i
    rw [hwx]
    simp only [hwte']
    exact hz _ i
  · intro i
    rw [hwy]
    simp only [hwye']
    exact hz _ i
  · intro m Xn
    unfold SprmFit.predict
    rw [htc]
    simp only
    cases pr.copy with
    | false => rfl
    | true =>
      simp only [if_true, dif_pos, hi']
      simp only [Except.map, Except.ok.injEq]
      funext i
      have := hlin (Equiv.refl (Fin m)) Xn i
      simp only [lin, Equiv.refl_apply] at this
      change (∑ k, selCols (newUnits a b (reorder (Equiv.refl _) τ Xn)) (keepVars s') i k *
        (|c| * f.ySca / s' ((keepVars s').get k) * o'.b.coef k)) + (c * f.intercept + (d - B)) =
        newUnit c d (fun i => (∑ k, selCols Xn f.keep i k * f.coef k) + f.intercept) i
      rw [this]
      simp only [newUnit]
      ring
  · intro i k
    rw [hsc]
    simp only [Matrix.mul_apply, Matrix.of_apply]
    exact hsco σ X i k
  · intro m Xn T hT
    unfold SprmFit.transform at hT ⊢
    rw [htc] at hT
    simp only at hT ⊢
    cases hcp : pr.copy with
    | false => rw [hcp] at hT; simp at hT
    | true =>
      rw [hcp] at hT
      simp only [if_true, dif_pos, Except.ok.injEq] at hT ⊢
      refine ⟨_, rfl, fun i k => ?_⟩
      rw [← hT]
      simp only [Matrix.mul_apply, Matrix.of_apply, scaleMat_eq]
      exact hsco (Equiv.refl _) Xn i k

/-! ### Starting weights -/

/-- The singular value decomposition of `Z` with its rows in the order `σ` and its columns in any order has the same singular values, and the singular vectors that
are used (those of the leading `rc` components found by the broken stick rule) up to their signs. -/
def SvdFollows (ext : SprmExt) (Z : Fin n → Fin p → ℝ) (σ : Equiv.Perm (Fin n)) : Prop :=
  ∀ τ : Equiv.Perm (Fin p), (ext.svd fun i j => Z (σ i) (τ j)).2 = (ext.svd Z).2 ∧
    ∀ rc, relcomp (fun k => (ext.svd Z).2 k ^ 2 / ∑ k, (ext.svd Z).2 k ^ 2) = .ok rc →
      ∀ a : Fin n, a.1 < rc → ∃ e : ℝ, (e = 1 ∨ e = -1) ∧ ∀ i, (ext.svd fun i j => Z (σ i) (τ j)).1 i a = e * (ext.svd Z).1 (σ i) a

theorem sprmStartX_dist {ext : SprmExt} {pr : SprmParams} {sc : ScaleOpt} (hp : pr.pcapp = false) (σ : Equiv.Perm (Fin n)) (τ : Fin q ≃ Fin p)
    {Z : Fin n → Fin p → ℝ} {Z' : Fin n → Fin q → ℝ} (hZ : ∀ i j, |Z' i j| = |Z (σ i) (τ j)|) {rc : Option ℕ} {dx : Fin n → ℝ}
    (h : sprmStartX ext pr sc Z = .ok (rc, dx)) : sprmStartX ext pr sc Z' = .ok (rc, fun i => dx (σ i)) := by
  unfold sprmStartX at h ⊢
  simp only [hp, Bool.false_eq_true, if_false] at h ⊢
  split at h
  · cases h
  · rename_i d hd
    simp only [Except.ok.injEq, Prod.mk.injEq] at h
    obtain ⟨rfl, rfl⟩ := h
    rw [rowDistances_rel σ τ hZ hd]

theorem sprmStartX_svd {ext : SprmExt} {pr : SprmParams} {sc : ScaleOpt} {σ : Equiv.Perm (Fin n)} (hc : pr.centre.Follows σ) (hs : sc.Follows σ)
    (τ : Fin q ≃ Fin p) {Z : Fin n → Fin p → ℝ} {Z' : Fin n → Fin q → ℝ} (hZ : Z' = fun i j => Z (σ i) (τ j))
    (hsvd : pr.pcapp = true → SvdFollows ext Z σ) {rc : Option ℕ} {dx : Fin n → ℝ}
    (h : sprmStartX ext pr sc Z = .ok (rc, dx)) : sprmStartX ext pr sc Z' = .ok (rc, fun i => dx (σ i)) := by
  have hqp : q = p := by simpa using Fintype.card_congr τ
  subst hqp
  cases hp : pr.pcapp with
  | false => exact sprmStartX_dist hp σ τ (fun i j => by rw [hZ]) h
  | true =>
    obtain ⟨hS, hU⟩ := hsvd hp τ
    rw [← hZ] at hS hU
    unfold sprmStartX at h ⊢
    simp only [hp, if_true] at h ⊢
    rw [hS]
    split at h
    · cases h
    · rename_i ht
      rw [if_neg ht]
      split at h
      · cases h
      · rename_i r hr
        split at h
        · cases h
        · rename_i d hd
          simp only [Except.ok.injEq, Prod.mk.injEq] at h
          obtain ⟨rfl, rfl⟩ := h
          choose e he hUe using hU r hr
          have hlt : ∀ a : Fin (min r n), a.1 < r := fun a => lt_of_lt_of_le a.2 (min_le_left _ _)
          set D : Fin (min r n) → ℝ := fun a => e ⟨a, lt_of_lt_of_le a.2 (min_le_right _ _)⟩ (hlt a) with hD
          have hUr : (fun i (a : Fin (min r n)) => (ext.svd Z').1 i ⟨a, lt_of_lt_of_le a.2 (min_le_right _ _)⟩) =
              fun i a => D a * (ext.svd Z).1 (σ i) ⟨a, lt_of_lt_of_le a.2 (min_le_right _ _)⟩ := by
            funext i a
            exact hUe _ (hlt a) i
          have key := scaleMat_follows hc hs (Equiv.refl (Fin (min r n))) D (fun a => he _ _)
            (fun i a => (ext.svd Z).1 i ⟨a, lt_of_lt_of_le a.2 (min_le_right _ _)⟩)
          simp only [Equiv.refl_apply] at key
          rw [hUr, key, rowDistances_rel σ (Equiv.refl (Fin (min r n))) (fun i a => ?_) hd]
          rw [abs_mul]
          have : |D a| = 1 := by rcases he ⟨a, lt_of_lt_of_le a.2 (min_le_right _ _)⟩ (hlt a) with h | h <;> rw [hD] <;> simp only [h] <;> norm_num
          rw [this, one_mul]
          rfl

/-! ### The properties -/

/-- **C116.** Measuring the predictors and the response of an SPRM fit in other units keeps the retained variables, converts the coefficients, leaves
case weights and scores alone, and converts fitted values, residuals and predictions; predictors may also be reversed when the starting weights do not use the singular value
decomposition.  Missing: units that move a variable across the absolute threshold `1e-5` for the scale of near constant variables (see
`C116_threshold_violated`). -/
theorem C116_sprm_units_partial {ext : SprmExt} {pr : SprmParams} (hc : pr.centre = .mean ∨ pr.centre = .median) {s : ScaleOpt} (hps : pr.scale = .plain s)
    (hs : s = .std ∨ s = .mad) {X : Fin n → Fin p → ℝ} {y : Fin n → ℝ} {f : SprmFit n p} (h : (sprmFit ext pr X y).2 = .ok f) (hy : f.ySca ≠ 0)
    (a b : Fin p → ℝ) (ha : ∀ j, a j ≠ 0) (hst : pr.pcapp = false ∨ ∀ j, 0 < a j) (c d : ℝ) (hc0 : 0 < c)
    (hkeep : ∀ j, |a j| * f.xSca j < 1 / 100000 ↔ f.xSca j < 1 / 100000) :
    ∃ f', (sprmFit ext pr (newUnits a b X) (newUnit c d y)).2 = .ok f' ∧
      (∀ j, j ∈ f'.keep ↔ j ∈ f.keep) ∧
      (∀ k' k, f'.keep.get k' = f.keep.get k → f'.coef k' = c / a (f.keep.get k) * f.coef k) ∧
      (∀ i, f'.fitted i = c * f.fitted i + d) ∧ (∀ i, f'.residuals i = c * f.residuals i) ∧
      f'.caseweights = f.caseweights ∧ f'.xCaseweights = f.xCaseweights ∧ f'.yCaseweights = f.yCaseweights ∧
      (∀ {m : ℕ} (Xn : Fin m → Fin p → ℝ), f'.predict (newUnits a b Xn) = (f.predict Xn).map (newUnit c d)) ∧
      ∃ hlen : f'.inner.comps.length = f.inner.comps.length, ∀ i k, f'.scores i k = f.scores i (Fin.cast hlen k) := by
  have hopt : (sprmAfter pr X).scale.opt = s := by
    change (pr.scale.resolve X).opt = s
    rw [hps]; rfl
  have hn : 0 < n := by
    obtain ⟨_, _, _, _, _, _, _, _, _, _, _, _, hdx, _⟩ := sprmFit_inv h
    exact sprmStartX_ncases hdx
  have e1 := (sprmFit_inv h).2.1
  have e2 := (sprmFit_inv h).2.2.1
  have hkf := (sprmFit_inv h).2.2.2.2.2.1
  rw [hopt] at e2
  have hsg : sg c = 1 := by rw [sg, abs_of_pos hc0, div_self hc0.ne']
  have hm : ∀ j ∈ f.keep, f.xSca j ≠ 0 := fun j hj h0 => by
    have := keepVars_mem.1 (hkf ▸ hj)
    rw [h0] at this
    norm_num at this
  obtain ⟨f', h1, h2, h3, h4, h5, h6, h7, h8, h9, hlen, h10, _⟩ := sprm_rel h (Equiv.refl _) (Equiv.refl _) a b ha c d hc0.ne' (.inr hc0) (.inl hy) hkeep
    (fun j => Centre.run_units hc hn a b X j) (yLoc_rel hc hn (Equiv.refl _) c d y) (by rw [hps]; rfl)
    (fun j => by rw [hopt]; exact ScaleOpt.run_units hs hn a b X j) (by rw [hopt]; exact ySca_rel hs hn (Equiv.refl _) c d y)
    (Centre.follows (by tauto) hn _) (by rw [hopt]; exact scoreScale_follows hn (ScaleOpt.follows (by tauto) hn _))
    (fun r B _ => snIntercept_affine (by rcases hc with e | e <;> rw [e] <;> simp) hn c (d - B) r)
    (fun rc dx hdx => by
      rw [hopt] at hdx ⊢
      have hkk : (keepVars fun j => |a j| * f.xSca ((Equiv.refl (Fin p)) j)) = f.keep := by
        rw [hkf]
        unfold keepVars
        congr 1
        funext j
        have := hkeep j
        simp only [Equiv.refl_apply, this]
      have gen : ∀ (k' : List (Fin p)) (_ : k' = f.keep), sprmStartX ext pr s (selCols (stdMat (newUnits a b X)
          (fun j => a j * f.xLoc ((Equiv.refl (Fin p)) j) + b j) (fun j => |a j| * f.xSca ((Equiv.refl (Fin p)) j))) k') = .ok (rc, dx) := by
        intro k' hk'
        subst hk'
        have hentry : ∀ i k, selCols (stdMat (newUnits a b X) (fun j => a j * f.xLoc ((Equiv.refl (Fin p)) j) + b j)
            (fun j => |a j| * f.xSca ((Equiv.refl (Fin p)) j))) f.keep i k =
            sg (a (f.keep.get k)) * selCols (stdMat X f.xLoc f.xSca) f.keep i k := by
          intro i k
          have h1 := hm _ (List.get_mem f.keep k)
          have h2 := mul_ne_zero (abs_ne_zero.2 (ha (f.keep.get k))) h1
          have h3 : selCols (stdMat X f.xLoc f.xSca) f.keep i k =
              (X i (f.keep.get k) - f.xLoc (f.keep.get k)) / f.xSca (f.keep.get k) := if_neg h1
          have h4 : selCols (stdMat (newUnits a b X) (fun j => a j * f.xLoc ((Equiv.refl (Fin p)) j) + b j)
              (fun j => |a j| * f.xSca ((Equiv.refl (Fin p)) j))) f.keep i k =
              (a (f.keep.get k) * X i (f.keep.get k) + b (f.keep.get k) - (a (f.keep.get k) * f.xLoc (f.keep.get k) + b (f.keep.get k))) /
                (|a (f.keep.get k)| * f.xSca (f.keep.get k)) := if_neg h2
          rw [h3, h4, sg, div_mul_div_comm]
          congr 1
          ring
        rcases hst with hp | hpos
        · exact sprmStartX_dist hp (Equiv.refl _) (Equiv.refl _) (fun i k => by
            rw [hentry, abs_mul]
            have : |sg (a (f.keep.get k))| = 1 := by rcases sg_cases (ha (f.keep.get k)) with e | e <;> rw [e] <;> norm_num
            rw [this, one_mul]
            rfl) hdx
        · have : selCols (stdMat (newUnits a b X) (fun j => a j * f.xLoc ((Equiv.refl (Fin p)) j) + b j)
            (fun j => |a j| * f.xSca ((Equiv.refl (Fin p)) j))) f.keep = selCols (stdMat X f.xLoc f.xSca) f.keep := by
            funext i k
            rw [hentry, sg, abs_of_pos (hpos _), div_self (hpos _).ne', one_mul]
          rw [this]
          exact hdx
      exact gen _ hkk)
  refine ⟨f', h1, h2, fun k' k hk => ?_, h4, h5, funext h6, funext h7, funext h8, h9, hlen, fun i k => ?_⟩
  · rw [h3 k' k hk.symm, hk]
  · rw [h10, hsg, one_mul]; rfl

/-- **C116** fails for units in which a variable has a scale below `1e-5`: the same data, once in metres and once in thousands of kilometres, once give a fit and once none. -/
theorem C116_threshold_violated (ext : SprmExt) (hz : 27 / 20 ≤ ext.normPpf (95 / 100)) :
    ∃ f, (sprmFit ext (spPr true) spX rmY).2 = .ok f ∧
      ∃ e, (sprmFit ext (spPr true) (newUnits (fun _ => 1 / 1000000) (fun _ => 0) spX) (newUnit 1 0 rmY)).2 = .error e := by
  obtain ⟨f, hf⟩ := spExFit ext hz true
  refine ⟨f, hf, .other, ?_⟩
  have hchk : sprmCheck (spPr true) 3 1 = .ok () := by
    unfold sprmCheck checkProbs spPr; norm_num
  have hsc : ∀ j, ScaleOpt.mad.run (newUnits (fun _ => 1 / 1000000) (fun _ => 0) spX) j = 1 / 1000000 * (1 / madConst) := by
    intro j
    have hj : j = 0 := Subsingleton.elim _ _
    subst hj
    rw [ScaleOpt.run_units (.inr rfl) (by norm_num), abs_of_pos (by norm_num)]
    congr 1
    exact sp_madX
  have hk : keepVars (ScaleOpt.mad.run (newUnits (fun _ => 1 / 1000000) (fun _ => 0) spX)) = [] := by
    rw [List.eq_nil_iff_forall_not_mem]
    intro j hj
    rw [keepVars_mem, hsc] at hj
    apply hj
    unfold madConst
    norm_num
  unfold sprmFit
  rw [hchk]
  simp only
  have hsr : ((spPr true).scale.resolve (newUnits (fun _ => 1 / 1000000) (fun _ => 0) spX)).opt = .mad := rfl
  rw [hsr, if_pos]
  rw [hk]
  simp [spPr]

/-- Non-vacuity: the worked fit satisfies the hypotheses of `C116_sprm_units_partial` for a reversed predictor in other units. -/
example : ∃ f, (sprmFit spExt0 (spPr true) spX rmY).2 = .ok f ∧ f.ySca ≠ 0 ∧
    (∀ j, |(-2 : ℝ)| * f.xSca j < 1 / 100000 ↔ f.xSca j < 1 / 100000) := by
  obtain ⟨f, hf⟩ := spExFit spExt0 (by simp only [spExt0, rmExt0]; norm_num) true
  have hx : f.xSca = ScaleOpt.mad.run spX := (sprmFit_inv hf).2.2.1
  have hy : f.ySca = ScaleOpt.mad.run (asCol rmY) 0 := (sprmFit_inv hf).2.2.2.2.1
  refine ⟨f, hf, ?_, fun j => ?_⟩
  · rw [hy]
    have : ScaleOpt.mad.run (asCol rmY) 0 = 1 / madConst := rm_madY
    rw [this]
    have := madC_pos
    positivity
  · have : f.xSca j = 1 / madConst := by rw [hx, Subsingleton.elim j 0]; exact sp_madX
    rw [this]
    unfold madConst
    norm_num

/-- **C117.** An SPRM fit does not depend on the order of the cases nor on that of the predictors: for all estimators of location and scale that follow the order
(such as mean, median, standard deviation and MAD, see `Centre.follows` and `ScaleOpt.follows`), and with starting weights from the singular value decomposition if the
singular vectors are determined up to their signs. -/
theorem C117_sprm_order {ext : SprmExt} {pr : SprmParams} (σ : Equiv.Perm (Fin n)) (τ : Equiv.Perm (Fin p)) (hc : pr.centre.Follows σ)
    {X : Fin n → Fin p → ℝ} {y : Fin n → ℝ} {f : SprmFit n p} (h : (sprmFit ext pr X y).2 = .ok f)
    (hs : (sprmAfter pr X).scale.opt.Follows σ)
    (hsvd : pr.pcapp = true → SvdFollows ext (selCols (stdMat X f.xLoc f.xSca) f.keep) σ) :
    ∃ f', (sprmFit ext pr (reorder σ τ X) (fun i => y (σ i))).2 = .ok f' ∧
      (∀ j, j ∈ f'.keep ↔ τ j ∈ f.keep) ∧
      (∀ k' k, τ (f'.keep.get k') = f.keep.get k → f'.coef k' = f.coef k) ∧
      (∀ i, f'.fitted i = f.fitted (σ i)) ∧ (∀ i, f'.residuals i = f.residuals (σ i)) ∧
      (∀ i, f'.caseweights i = f.caseweights (σ i)) ∧ (∀ i, f'.xCaseweights i = f.xCaseweights (σ i)) ∧
      (∀ i, f'.yCaseweights i = f.yCaseweights (σ i)) ∧
      (∀ {m : ℕ} (Xn : Fin m → Fin p → ℝ), f'.predict (reorder (Equiv.refl _) τ Xn) = f.predict Xn) ∧
      ∃ hlen : f'.inner.comps.length = f.inner.comps.length, ∀ i k, f'.scores i k = f.scores (σ i) (Fin.cast hlen k) := by
  have hu : ∀ {m : ℕ} (Z : Fin m → Fin p → ℝ), newUnits (fun _ => 1) (fun _ => 0) Z = Z := by
    intro m Z; funext i j; simp [newUnits]
  have hv : ∀ {m : ℕ} (z : Fin m → ℝ), newUnit 1 0 z = z := by intro m z; funext i; simp [newUnit]
  have hsg : sg (1 : ℝ) = 1 := by simp [sg]
  have hn : 0 < n := by
    obtain ⟨_, _, _, _, _, _, _, _, _, _, _, _, hdx, _⟩ := sprmFit_inv h
    exact sprmStartX_ncases hdx
  have hkf := (sprmFit_inv h).2.2.2.2.2.1
  have hkn : f.keep.Nodup := by rw [hkf]; exact keepVars_nodup _
  have hcr : ∀ j, pr.centre.run (reorder σ τ X) j = pr.centre.run X (τ j) := by
    intro j
    have := hc τ (fun _ => 1) (fun _ => .inl rfl) X j
    simp only [one_mul] at this
    exact this
  have hsr : ∀ (s : ScaleOpt), s.Follows σ → ∀ j, s.run (reorder σ τ X) j = s.run X (τ j) := by
    intro s hs j
    have := hs τ (fun _ => 1) (fun _ => .inl rfl) X j
    simp only [one_mul] at this
    exact this
  have hmad := hsr .mad (ScaleOpt.follows (by tauto) hn σ)
  obtain ⟨f', h1, h2, h3, h4, h5, h6, h7, h8, h9, hlen, h10, _⟩ := sprm_rel h σ τ (fun _ => 1) (fun _ => 0) (fun _ => one_ne_zero) 1 0 one_ne_zero
    (.inr one_pos) (.inr abs_one) (fun j => by rw [abs_one, one_mul])
    (fun j => by rw [hu, hcr]; ring) (by
      rw [hv]
      have := hc (Equiv.refl (Fin 1)) (fun _ => 1) (fun _ => .inl rfl) (asCol y) 0
      simp only [one_mul, Equiv.refl_apply] at this
      rw [one_mul, add_zero]
      exact this)
    (by
      rw [hu]
      unfold SprmScale.resolve
      cases pr.scale with
      | plain s => rfl
      | tau2 g =>
        simp only [hmad]
        have : (∃ j, ScaleOpt.mad.run X (τ j) = 0) ↔ ∃ j, ScaleOpt.mad.run X j = 0 :=
          ⟨fun ⟨j, hj⟩ => ⟨τ j, hj⟩, fun ⟨j, hj⟩ => ⟨τ.symm j, by rw [Equiv.apply_symm_apply]; exact hj⟩⟩
        simp only [this])
    (fun j => by rw [hu, hsr _ hs, abs_one, one_mul]) (by
      rw [hv]
      have := hs (Equiv.refl (Fin 1)) (fun _ => 1) (fun _ => .inl rfl) (asCol y) 0
      simp only [one_mul, Equiv.refl_apply] at this
      rw [abs_one, one_mul]
      exact this)
    hc (scoreScale_follows hn hs)
    (fun r B hB => by
      rw [hB fun _ => rfl]
      simp only [one_mul, sub_self, add_zero]
      exact snIntercept_perm pr.centre σ r)
    (fun rc dx hdx => by
      have hmem : ∀ j, j ∈ keepVars (fun j => |(1 : ℝ)| * f.xSca (τ j)) ↔ τ j ∈ f.keep := by
        intro j
        rw [hkf, keepVars_mem, keepVars_mem, abs_one, one_mul]
      refine sprmStartX_svd hc hs (keepEquiv hkn (keepVars_nodup _) τ hmem) ?_ hsvd hdx
      funext i k
      have := keepEquiv_get hkn (keepVars_nodup _) τ hmem k
      simp only [selCols, stdMat, hu, reorder, this, abs_one, one_mul, add_zero])
  rw [hu, hv] at h1
  refine ⟨f', h1, h2, fun k' k hk => ?_, fun i => by rw [h4]; simp, fun i => by rw [h5]; simp, h6, h7, h8, fun Xn => ?_, hlen, fun i k => ?_⟩
  · rw [h3 k' k hk.symm]; simp
  · have := h9 Xn
    rw [hu] at this
    rw [this]
    cases f.predict Xn with
    | error e => rfl
    | ok z => simp [Except.map, hv]
  · rw [h10, hsg, one_mul]

/-- Non-vacuity: the worked fit with its cases reversed. -/
example : ∃ f f', (sprmFit spExt0 (spPr true) spX rmY).2 = .ok f ∧
    (sprmFit spExt0 (spPr true) (reorder Fin.revPerm (Equiv.refl _) spX) (fun i => rmY (Fin.revPerm i))).2 = .ok f' ∧
    f'.fitted 0 = f.fitted 2 := by
  obtain ⟨f, hf⟩ := spExFit spExt0 (by simp only [spExt0, rmExt0]; norm_num) true
  obtain ⟨f', h1, -, -, h2, -⟩ := C117_sprm_order (Fin.revPerm) (Equiv.refl _) (Centre.follows (.inr (.inl rfl)) (by norm_num) _) hf
    (ScaleOpt.follows (.inr (.inl rfl)) (by norm_num) _) (fun h => by simp [spPr] at h)
  exact ⟨f, f', hf, h1, by rw [h2]; rfl⟩

/-- Non-vacuity of `SvdFollows`: with one variable the first left singular vector is the variable divided by its length. -/
example (chi : ℝ → ℝ) : SvdFollows ⟨chi, fun x _ => chi x, fun {n p} Z => (fun i a => if h : 0 < p then Z i ⟨0, h⟩ / Real.sqrt (∑ i, Z i ⟨0, h⟩ ^ 2) else 0,
    fun k => if h : 0 < p then Real.sqrt (∑ i, Z i ⟨0, h⟩ ^ 2) else 0)⟩ spX Fin.revPerm := by
  intro τ
  have hτ : ∀ j, τ j = j := fun j => Subsingleton.elim _ _
  have hsum : ∑ i, spX (Fin.revPerm i) 0 ^ 2 = ∑ i, spX i 0 ^ 2 := Equiv.sum_comp Fin.revPerm fun i => spX i 0 ^ 2
  refine ⟨?_, fun rc _ a _ => ⟨1, .inl rfl, fun i => ?_⟩⟩
  · funext k
    simp only [hτ, Nat.lt_one_iff, dif_pos zero_lt_one]
    exact congrArg Real.sqrt hsum
  · simp only [hτ, dif_pos zero_lt_one, one_mul]
    congr 2

end Direpack
