import Verif.Props.PPFull

/-! C84 for one variable, and a compressed fit that is worked out: the hypotheses of the theorems of `PPFull` can be met, and with scaling `transform` does not give the
scores. -/

namespace Direpack

open scoped BigOperators

variable {n p : ℕ}

/-! ### One variable -/

lemma ppWhitened_inv {pr : PpParams} {svd : PpSvd} {pinv : Pinv} {rg : PpReg} {φ : (Fin n → ℝ) → (Fin n → ℝ) → ℝ} {X : Fin n → Fin p → ℝ}
    {y : Fin n → ℝ} {f : PpFit n p} (h : ppWhitened pr svd pinv rg φ X y = .ok f) :
    ∃ (Xs : Fin n → Fin p → ℝ) (l : List (PpComp n p)) (reg : (Fin n → ℝ) → ℝ) (o : PpComp n p → ℝ),
      (Xs = fun i k => X i k - pr.centre.loc pr.trimming fun i => X i k) ∧ (∀ k, (svd.tall Xs).2.1 k ≠ 0) ∧ l.length = pr.nComponents ∧
      PpInv (fun i l => (∑ k, Xs i k * ((svd.tall Xs).1 k l / (svd.tall Xs).2.1 l)) * Real.sqrt p) reg l ∧
      f.comps = l.map (fun c => { c with w := fun k => (svd.tall Xs).1 k k / (svd.tall Xs).2.1 k * c.w k, crit := o c }) ∧
      f.rot = ppR pinv f.comps ∧ (f.xLoc = fun k => pr.centre.loc pr.trimming fun i => X i k) ∧ (f.xSca = fun _ => 1) ∧ f.locIsMatrix = false := by
  unfold ppWhitened at h
  split at h
  · simp at h
  dsimp only at h
  split at h
  · simp at h
  split at h
  · simp at h
  rename_i hS
  push Not at hS
  split at h
  · simp at h
  rename_i l hl
  split at h
  · simp at h
  simp only [Except.ok.injEq] at h
  subst h
  obtain ⟨hlen, hI⟩ := ppLoop_inv _ _ _ hl
  exact ⟨_, l, _, _, rfl, hS, hlen, hI, rfl, rfl, rfl, rfl, rfl⟩

lemma ppR_singleton {pinv : Pinv} (hp : IsGenInverse pinv) (c : PpComp n 1) (hw : c.w 0 ≠ 0) (hl : c.load 0 ≠ 0) (a : Fin [c].length) :
    ppR pinv [c] 0 a = 1 / c.load 0 := by
  have ha : a = ⟨0, by simp⟩ := by ext; have := a.2; simp at this ⊢
  subst ha
  have h1 : (ppP [c]).transpose * ppW [c] * pinv ((ppP [c]).transpose * ppW [c]) * ((ppP [c]).transpose * ppW [c]) = (ppP [c]).transpose * ppW [c] :=
    hp _
  show (ppW [c] * pinv ((ppP [c]).transpose * ppW [c])) 0 _ = _
  generalize pinv ((ppP [c]).transpose * ppW [c]) = A at h1 ⊢
  have h2 := congrFun (congrFun h1 (⟨0, by simp⟩ : Fin [c].length)) (⟨0, by simp⟩ : Fin [c].length)
  have hsum : ∀ g : Fin [c].length → ℝ, ∑ i, g i = g ⟨0, by simp⟩ := fun g => Fin.sum_univ_one g
  simp only [Matrix.mul_apply, hsum, Fin.sum_univ_one, Matrix.transpose_apply, ppP, ppW, Matrix.of_apply, List.get_eq_getElem, List.getElem_cons_zero] at h2
  simp only [Matrix.mul_apply, hsum, ppW, Matrix.of_apply, List.get_eq_getElem, List.getElem_cons_zero]
  generalize A _ _ = v at *
  have h3 : c.load 0 * c.w 0 * v = 1 := by
    have hne := mul_ne_zero hl hw
    have : (c.load 0 * c.w 0) * (c.load 0 * c.w 0 * v - 1) = 0 := by linear_combination h2
    rcases mul_eq_zero.mp this with h | h
    · exact absurd h hne
    · linarith
  rw [eq_div_iff hl]
  linear_combination h3

/-- C84 is violated also for one variable, where a whitened model can be fitted: `transform` of the training data multiplies the scores by the norm of the centred
variable (up to the sign). -/
theorem C84_one_variable_violated (cf : PpConf) (svd : PpSvd) (pinv : Pinv) (hp : IsGenInverse pinv) (rg : PpReg) (φ : (Fin n → ℝ) → (Fin n → ℝ) → ℝ)
    (X : Fin n → Fin 1 → ℝ) (y : Fin n → ℝ) (f : PpFit n 1) (hw : cf.whiten = true) (hc : cf.base.centre = .mean) (ht : cf.base.trimming = 0)
    (hf : (cf.fit none svd pinv rg φ X y).2 = .ok (.plain f))
    (hs : Spec.IsThinSvd (fun i k => X i k - (∑ j, X j k) / n) (svd.tall fun i k => X i k - (∑ j, X j k) / n)) :
    ∃ T : Matrix (Fin n) (Fin f.comps.length) ℝ, f.transform X = .ok (.mat T) ∧
      ∀ i a, T i a ^ 2 = (∑ j, (X j 0 - (∑ j, X j 0) / n) ^ 2) * ppT f.comps i a ^ 2 := by
  have hp1 : cf.withComponents none = cf := rfl
  have hwd : cf.whitened.whiten = true ∧ cf.whitened.base.centre = .mean ∧ cf.whitened.base.trimming = 0 := by
    unfold PpConf.whitened; rw [if_pos hw]; exact ⟨hw, hc, ht⟩
  unfold PpConf.fit at hf
  dsimp only at hf
  rw [hp1] at hf
  split at hf
  · simp at hf
  rename_i hk
  have hk' : cf.whitened.base.nComponents ≤ 1 := by
    have h1 : cf.whitened.base.nComponents = cf.base.nComponents := by
      unfold PpConf.whitened; split <;> rfl
    rw [h1]
    exact (not_lt.mp hk).trans (min_le_right _ _)
  dsimp only at hf
  rw [if_pos hwd.1] at hf
  generalize cf.whitened.base = pr at hf hwd hk'
  obtain ⟨-, hc', ht'⟩ := hwd
  cases hq : ppWhitened pr svd pinv rg φ X y with
  | error e => rw [hq] at hf; simp [Except.map] at hf
  | ok g =>
    rw [hq] at hf
    simp only [Except.map, Except.ok.injEq, PpResult.plain.injEq] at hf
    subst hf
    obtain ⟨Xs, l, reg, o, hXs, hS, hlen, hI, hcomps, hrot, hloc, hsca, hmat⟩ := ppWhitened_inv hq
    rw [hc', ht'] at hXs hloc
    simp only [PpCentre.loc, ppMean_zero, mean_eq] at hXs hloc
    rw [← hXs] at hs
    have hS0 := hS 0
    generalize hV : (svd.tall Xs).1 0 0 = V at *
    generalize hSd : (svd.tall Xs).2.1 0 = S at *
    have hV2 : V * V = 1 := by
      have := congrFun (congrFun hs.left 0) 0
      simpa [Matrix.mul_apply, hV] using this
    have hX0 : ∀ i, Xs i 0 = V * S * (svd.tall Xs).2.2 0 i := by
      intro i
      have := hs.prod i 0
      simpa [hV, hSd] using this
    have hU : ∑ i, (svd.tall Xs).2.2 0 i ^ 2 = 1 := by
      have := congrFun (congrFun hs.right 0) 0
      simp only [pow_two]
      simpa [Matrix.mul_apply] using this
    have hS2 : ∑ j, Xs j 0 ^ 2 = S ^ 2 := by
      simp only [hX0, mul_pow]
      rw [← Finset.mul_sum, hU]
      have : V ^ 2 = 1 := by rw [pow_two]; exact hV2
      rw [this]; ring
    have hV0 : V ≠ 0 := by rintro h0; rw [h0] at hV2; simp at hV2
    have hXi : ∀ i, X i 0 - (∑ j, X j 0) / n = Xs i 0 := fun i => by rw [hXs]
    simp only [hXi]
    obtain ⟨comps, rot, cs, co, ic, ics, fit, res, xl, xs, yl, ysc, sl, ss, lm⟩ := g
    simp only at hcomps hrot hloc hsca hmat
    subst hcomps hrot hloc hsca hmat
    unfold PpFit.transform
    rw [dif_pos rfl]
    simp only [Bool.false_eq_true, false_and, if_false]
    refine ⟨_, rfl, fun i a => ?_⟩
    match l, hlen, hI, a with
    | [], _, _, a => exact a.elim0
    | c :: d :: l', hlen, _, _ => simp at hlen; omega
    | [c], _, hI, a =>
      have hw1 : c.w 0 * c.w 0 = 1 := by
        have := hI.unit c (by simp)
        unfold UnitLen at this
        simpa [pow_two] using this
      have hd : c.load 0 * c.w 0 = 1 := by simpa using hI.diag c (by simp)
      have hload : c.load 0 = c.w 0 := by
        have : c.load 0 * (c.w 0 * c.w 0) = c.w 0 := by rw [← mul_assoc, hd, one_mul]
        rwa [hw1, mul_one] at this
      have hw0 : c.w 0 ≠ 0 := by rintro h0; rw [h0] at hw1; simp at hw1
      have hti : c.t i = Xs i 0 * (V / S) * c.w 0 := by
        have := hI.recon c (by simp) i
        simp only [Fin.sum_univ_one, Nat.cast_one, Real.sqrt_one, mul_one, List.map_cons, List.map_nil, List.sum_cons, List.sum_nil,
          add_zero, hV, hSd] at this
        rw [hd, mul_one] at this
        exact this.symm
      rw [Matrix.mul_apply, Fin.sum_univ_one]
      have hR := ppR_singleton hp { c with w := fun k => (svd.tall Xs).1 k k / (svd.tall Xs).2.1 k * c.w k, crit := o c }
        (by simp only [hV, hSd]; exact mul_ne_zero (div_ne_zero hV0 hS0) hw0) (by rw [hload]; exact hw0) a
      have hT : ppT (List.map (fun c => { c with w := fun k => (svd.tall Xs).1 k k / (svd.tall Xs).2.1 k * c.w k, crit := o c }) [c]) i a = c.t i := by
        have ha : a = ⟨0, by simp⟩ := by ext; have := a.2; simp at this ⊢
        subst ha
        rfl
      rw [hT]
      have hsc : Matrix.of (scaleMat (fun i (k : Fin 1) => X i (Fin.cast rfl k)) (fun k => (∑ i, X i k) / n) fun _ => 1) i 0 = Xs i 0 := by
        rw [hXs]; simp [scaleMat]
      have e : (Matrix.of (scaleMat (fun i (k : Fin 1) => X i (Fin.cast rfl k)) (fun k => (∑ i, X i k) / n) fun _ => 1) i 0 *
          ppR pinv (List.map (fun c => { c with w := fun k => (svd.tall Xs).1 k k / (svd.tall Xs).2.1 k * c.w k, crit := o c }) [c]) 0 a) =
          Xs i 0 * (1 / c.load 0) := by
        rw [hsc]; exact congrArg _ hR
      refine (congrArg (· ^ 2) e).trans ?_
      rw [hS2, hti, hload]
      field_simp
      have h4 : c.w 0 ^ 4 = 1 := by
        have : c.w 0 ^ 4 = (c.w 0 * c.w 0) ^ 2 := by ring
        rw [this, hw1, one_pow]
      have hV2' : V ^ 2 = 1 := by rw [pow_two]; exact hV2
      simp only [h4, hV2', mul_one]

/-- C84 (partial: one variable): a whitened model with one component can be fitted to any variable that is not constant, if the optimiser returns a vector other than
zero. -/
theorem C84_one_variable_partial (cf : PpConf) (svd : PpSvd) (pinv : Pinv) (rg : PpReg) (φ : (Fin n → ℝ) → (Fin n → ℝ) → ℝ)
    (X : Fin n → Fin 1 → ℝ) (y : Fin n → ℝ) (find : {n p : ℕ} → (Fin n → Fin p → ℝ) → (Fin p → ℝ)) (hw : cf.whiten = true)
    (hc : cf.base.centre = .mean) (ht : cf.base.trimming = 0) (hk : cf.base.nComponents = 1) (ho : cf.base.optimizer = .ext find)
    (hfind : ∀ E : Fin n → Fin 1 → ℝ, find E 0 ≠ 0) (hX : ∃ i j, X i 0 ≠ X j 0)
    (hs : Spec.IsThinSvd (fun i k => X i k - (∑ j, X j k) / n) (svd.tall fun i k => X i k - (∑ j, X j k) / n)) :
    ∃ f, (cf.fit none svd pinv rg φ X y).2 = .ok (.plain f) := by
  obtain ⟨i0, j0, hij⟩ := hX
  have hn : 0 < n := lt_of_le_of_lt (Nat.zero_le _) i0.2
  have hp1 : cf.withComponents none = cf := rfl
  have hwd : cf.whitened.whiten = true ∧ cf.whitened.base.centre = .mean ∧ cf.whitened.base.trimming = 0 ∧ cf.whitened.base.nComponents = 1 ∧
      cf.whitened.base.optimizer = .ext find := by
    unfold PpConf.whitened; rw [if_pos hw]; exact ⟨hw, hc, ht, hk, ho⟩
  unfold PpConf.fit
  dsimp only
  rw [hp1, if_neg (by rw [hk]; simp; omega)]
  dsimp only
  rw [if_pos hwd.1]
  generalize cf.whitened.base = pr at hwd
  obtain ⟨-, hc', ht', hk', ho'⟩ := hwd
  suffices h : ∃ f, ppWhitened pr svd pinv rg φ X y = .ok f by
    obtain ⟨f, hf⟩ := h
    exact ⟨f, by rw [hf]; rfl⟩
  have hmean : (fun (i : Fin n) (k : Fin 1) => X i k - pr.centre.loc pr.trimming fun i => X i k) = fun i k => X i k - (∑ j, X j k) / n := by
    funext i k
    rw [hc', ht']
    simp only [PpCentre.loc, ppMean_zero, mean_eq]
  rw [← hmean] at hs
  have hXi : ∀ i, X i 0 - (∑ j, X j 0) / n = X i 0 - pr.centre.loc pr.trimming fun i => X i 0 := fun i => (congrFun (congrFun hmean i) 0).symm
  unfold ppWhitened
  rw [if_neg (by rw [ht']; simp [trimOk]; norm_num)]
  dsimp only
  rw [if_neg (by omega)]
  set Xs : Fin n → Fin 1 → ℝ := fun i k => X i k - pr.centre.loc pr.trimming fun i => X i k with hXs
  have hXv : ∀ i, Xs i 0 = X i 0 - (∑ j, X j 0) / n := fun i => (hXi i).symm
  have hX0 : ∀ i, Xs i 0 = (svd.tall Xs).1 0 0 * (svd.tall Xs).2.1 0 * (svd.tall Xs).2.2 0 i := by
    intro i
    simpa using hs.prod i 0
  have hV2 : (svd.tall Xs).1 0 0 * (svd.tall Xs).1 0 0 = 1 := by
    have := congrFun (congrFun hs.left 0) 0
    simpa [Matrix.mul_apply] using this
  have hV0 : (svd.tall Xs).1 0 0 ≠ 0 := by rintro h0; rw [h0] at hV2; simp at hV2
  have hS0 : (svd.tall Xs).2.1 0 ≠ 0 := by
    intro h0
    have : Xs i0 0 = Xs j0 0 := by rw [hX0, hX0, h0]; simp
    rw [hXv, hXv] at this
    exact hij (by linarith)
  have hSall : ¬ ∃ k, (svd.tall Xs).2.1 k = 0 := by
    rintro ⟨k, hk⟩
    rw [Subsingleton.elim k 0] at hk
    exact hS0 hk
  rw [if_neg hSall, ho', hk']
  set ys : Fin n → ℝ := fun i => y i - pr.centre.loc pr.trimming y with hys
  have hloop : ∀ E : Fin n → Fin 1 → ℝ, (∃ i, E i 0 ≠ 0) → ∃ l, ppLoop (.ext find) (φ ys) pr.squarePi (rg.run ys y) (0 + 1) E = .ok l := by
    rintro E ⟨i, hi⟩
    have hdir : ∃ w o, ppDirection (.ext find) (φ ys) pr.squarePi E = .ok (w, o) ∧ w 0 ≠ 0 := by
      unfold ppDirection
      dsimp only
      have hne : Real.sqrt (∑ k, find E k ^ 2) ≠ 0 := by
        rw [Fin.sum_univ_one, Real.sqrt_sq_eq_abs]
        exact abs_ne_zero.mpr (hfind E)
      rw [if_neg hne]
      exact ⟨_, _, rfl, div_ne_zero (hfind E) hne⟩
    obtain ⟨w, o, hd, hw0⟩ := hdir
    have hnz : ∑ i, projE E w i ^ 2 ≠ 0 := by
      intro h0
      have := (Finset.sum_eq_zero_iff_of_nonneg fun j _ => sq_nonneg _).mp h0 i (Finset.mem_univ _)
      have h2 : projE E w i = E i 0 * w 0 := by simp [projE]
      rw [h2] at this
      exact mul_ne_zero hi hw0 (pow_eq_zero_iff two_ne_zero |>.mp this)
    rw [ppLoop, hd]
    dsimp only
    rw [if_neg hnz, ppLoop]
    exact ⟨_, rfl⟩
  have hE : ∃ i, Xs i 0 ≠ 0 := by
    by_contra hno
    push Not at hno
    have h1 := hno i0
    have h2 := hno j0
    rw [hXv] at h1 h2
    exact hij (by linarith)
  obtain ⟨i, hi⟩ := hE
  obtain ⟨l, hl⟩ := hloop (fun i l => (∑ k, Xs i k * Matrix.of (fun k l => (svd.tall Xs).1 k l / (svd.tall Xs).2.1 l) k l) * Real.sqrt (1 : ℕ))
    ⟨i, by simp; exact ⟨hi, hV0, hS0⟩⟩
  rw [zero_add] at hl
  split
  · rename_i e he
    exact absurd (he.symm.trans hl) (by simp)
  · rw [if_neg (by simp)]
    exact ⟨_, rfl⟩

/-! ### A compressed fit -/

lemma med_two (x : Fin 2 → ℝ) : med x = (x 0 + x 1) / 2 := by
  have h1 := med_perm (Equiv.swap (0 : Fin 2) 1) x
  have h2 := med_affine (by norm_num : 0 < 2) (-1) (x 0 + x 1) x
  have h3 : (fun i => -1 * x i + (x 0 + x 1)) = x ∘ Equiv.swap (0 : Fin 2) 1 := by
    funext i
    fin_cases i <;> simp
  rw [h3, h1] at h2
  linarith

lemma mad_two (x : Fin 2 → ℝ) (h : x 0 ≠ x 1) : mad x ≠ 0 := by
  have h1 : mad x = med (fun i => |x i - med x|) / madConst := by
    unfold mad madL med
    rw [List.map_ofFn]
    rfl
  have h2 : (fun i => |x i - med x|) = fun _ => |(x 0 - x 1) / 2| := by
    funext i
    rw [med_two]
    fin_cases i
    · show |x 0 - (x 0 + x 1) / 2| = _
      congr 1; ring
    · show |x 1 - (x 0 + x 1) / 2| = _
      rw [← abs_neg]
      congr 1; ring
  rw [h1, h2, med_const (by norm_num)]
  refine div_ne_zero (abs_ne_zero.mpr (div_ne_zero (sub_ne_zero.mpr h) two_ne_zero)) ?_
  unfold madConst
  norm_num

/-- Two cases and three variables. -/
noncomputable def cmpX : Fin 2 → Fin 3 → ℝ := ![![6 / 5, 8 / 5, 0], ![0, 0, 1]]

/-- A decomposition of `cmpX` (any matrices for other data). -/
noncomputable def cmpSvd : PpSvd where
  flat := fun {n p} _ =>
    match n, p with
    | 2, 3 => (Matrix.of ![![3 / 5, 0], ![4 / 5, 0], ![0, 1]], ![2, 1], 1)
    | _, _ => (0, 0, 0)
  tall := fun _ => (0, 0, 0)

/-- The direction of the first variable. -/
def firstVar {n p : ℕ} (_ : Fin n → Fin p → ℝ) : Fin p → ℝ := fun k => if k.1 = 0 then 1 else 0

/-- One component, `center='mean'`, compression, with or without scaling. -/
noncomputable def cmpConf (sc : Bool) : PpConf :=
  { base := { nComponents := 1, trimming := 0, optimizer := .ext firstVar, centre := .mean, centerData := true, scaleData := sc, squarePi := false }
    whiten := false, compression := true }

lemma cmpSvd_ok : Spec.IsThinSvd cmpX (cmpSvd.flat cmpX) := by
  constructor
  · ext a b
    fin_cases a <;> fin_cases b <;> simp [cmpSvd, Matrix.mul_apply, Fin.sum_univ_succ]
    norm_num
  · simp [cmpSvd]
  · intro l
    fin_cases l <;> simp [cmpSvd]
  · intro i k
    fin_cases i <;> fin_cases k <;> simp [cmpSvd, cmpX, Matrix.one_apply] <;> norm_num

lemma cmpX_eq : ppCompressedX cmpSvd cmpX = ![![2, 0], ![0, 1]] := by
  funext i k
  fin_cases i <;> fin_cases k <;> simp [ppCompressedX, cmpSvd]

/-- The standardised compressed table. -/
noncomputable def cmpXs (sc : Bool) : Fin 2 → Fin 2 → ℝ := ![![1, if sc then -1 else -1 / 2], ![-1, if sc then 1 else 1 / 2]]

lemma ppStd_zero (x : Fin n → ℝ) : ppStd 0 x = Real.sqrt (var x) := by simp [ppStd, stdT, var]

lemma ppStd_two (x : Fin 2 → ℝ) : ppStd 0 x = |x 0 - x 1| / 2 := by
  have h : var x = ((x 0 - x 1) / 2) ^ 2 := by
    rw [var_eq]
    simp only [mean_eq, Fin.sum_univ_two]
    push_cast
    ring
  rw [ppStd_zero, h, Real.sqrt_sq_eq_abs, abs_div, abs_two]

lemma ppMean_two (x : Fin 2 → ℝ) : ppMean 0 x = (x 0 + x 1) / 2 := by
  rw [ppMean_zero, mean_eq]
  simp [Fin.sum_univ_two]

lemma cmp_fit (sc : Bool) (pinv : Pinv) (rg : PpReg) (φ : (Fin 2 → ℝ) → (Fin 2 → ℝ) → ℝ) (y : Fin 2 → ℝ) :
    ∃ (g : PpFit 2 2) (c : PpComp 2 2), ppFit (cmpConf sc).base pinv rg φ ![![2, 0], ![0, 1]] y = .ok g ∧ g.comps = [c] ∧ c.w = ![1, 0] ∧ c.t = ![1, -1] ∧
      c.load 0 = 1 := by
  have hsca : ∀ k, (cmpConf sc).base.centre.sca (cmpConf sc).base.scaleData (cmpConf sc).base.trimming
      (fun i => (![![2, 0], ![0, 1]] : Fin 2 → Fin 2 → ℝ) i k) = if sc then ![1, 1 / 2] k else 1 := by
    intro k
    show (if sc then ppStd 0 _ else 1) = _
    rw [ppStd_two]
    cases sc <;> fin_cases k <;> simp
  have hloc : ∀ k, (cmpConf sc).base.centre.loc (cmpConf sc).base.trimming
      (fun i => (![![2, 0], ![0, 1]] : Fin 2 → Fin 2 → ℝ) i k) = ![1, 1 / 2] k := by
    intro k
    show ppMean 0 _ = _
    rw [ppMean_two]
    fin_cases k <;> simp
  have hcd : (cmpConf sc).base.centerData = true := rfl
  unfold ppFit
  rw [if_neg (by simp [cmpConf]), if_neg (by simp [cmpConf, trimOk]; norm_num)]
  simp only [hcd, if_true, hsca, hloc]
  have hX : scaleMat (![![2, 0], ![0, 1]] : Fin 2 → Fin 2 → ℝ) (fun k => ![1, 1 / 2] k) (fun k => if sc = true then ![1, 1 / 2] k else 1) = cmpXs sc := by
    funext i k
    cases sc <;> fin_cases i <;> fin_cases k <;> simp [scaleMat, cmpXs] <;> norm_num
  rw [hX]
  generalize (fun i => scaleMat (asCol y) _ _ i 0) = ys
  have hdir : ppDirection (cmpConf sc).base.optimizer (φ ys) (cmpConf sc).base.squarePi (cmpXs sc) = .ok (![1, 0], φ ys (projE (cmpXs sc) ![1, 0])) := by
    have hf : (firstVar (cmpXs sc) : Fin 2 → ℝ) = ![1, 0] := by
      funext k; fin_cases k <;> simp [firstVar]
    show ppDirection (.ext firstVar) (φ ys) _ (cmpXs sc) = _
    unfold ppDirection
    simp only [hf]
    have hn : Real.sqrt (∑ k, (![1, 0] : Fin 2 → ℝ) k ^ 2) = 1 := by simp [Fin.sum_univ_succ]
    rw [hn, if_neg one_ne_zero]
    simp
  have ht : projE (cmpXs sc) ![1, 0] = ![1, -1] := by
    funext i; fin_cases i <;> simp [projE, cmpXs, Fin.sum_univ_succ]
  have ht2 : ∑ i, (![1, -1] : Fin 2 → ℝ) i ^ 2 = 2 := by simp [Fin.sum_univ_succ]; norm_num
  have hloop : ∃ c, ppLoop (cmpConf sc).base.optimizer (φ ys) (cmpConf sc).base.squarePi (rg.run ys y) (cmpConf sc).base.nComponents (cmpXs sc) = .ok [c] ∧
      c.w = ![1, 0] ∧ c.t = ![1, -1] ∧ c.load 0 = 1 := by
    show ∃ c, ppLoop (cmpConf sc).base.optimizer (φ ys) (cmpConf sc).base.squarePi (rg.run ys y) (0 + 1) (cmpXs sc) = .ok [c] ∧ _
    rw [ppLoop, hdir]
    dsimp only
    rw [ht, ht2, if_neg two_ne_zero, ppLoop]
    refine ⟨_, rfl, rfl, rfl, ?_⟩
    simp [cmpXs, Fin.sum_univ_succ]
  obtain ⟨c, hl, h1, h2, h3⟩ := hloop
  rw [hl]
  dsimp only
  rw [if_neg]
  · exact ⟨_, c, rfl, rfl, h1, h2, h3⟩
  · rintro ⟨k, hk⟩
    revert hk
    cases sc <;> fin_cases k <;> simp

/-- The fit of the example. -/
lemma cmp_compressed (sc : Bool) (pinv : Pinv) (rg : PpReg) (φ : (Fin 2 → ℝ) → (Fin 2 → ℝ) → ℝ) (y : Fin 2 → ℝ) :
    ∃ (f : PpCompFit 2 3), ((cmpConf sc).fit none cmpSvd pinv rg φ cmpX y).2 = .ok (.compressed f) := by
  obtain ⟨g, c, hg, -⟩ := cmp_fit sc pinv rg φ y
  have hq : ∃ f, ppCompressed (cmpConf sc).base cmpSvd pinv rg φ cmpX y = .ok f := by
    unfold ppCompressed
    dsimp only
    rw [if_neg, cmpX_eq, hg]
    · dsimp only
      rw [if_neg (by simp [cmpConf])]
      exact ⟨_, rfl⟩
    · rintro ⟨k, hk⟩
      rw [cmpX_eq] at hk
      revert hk
      fin_cases k
      · exact mad_two _ (by simp)
      · exact mad_two _ (by simp)
  obtain ⟨f, hf⟩ := hq
  refine ⟨f, ?_⟩
  have h1 : (cmpConf sc).whitened = cmpConf sc := rfl
  have h2 : (cmpConf sc).withComponents none = cmpConf sc := rfl
  unfold PpConf.fit
  dsimp only
  rw [h2, h1, if_neg (by simp [cmpConf])]
  dsimp only
  rw [if_neg (by simp [cmpConf]), if_pos ⟨by norm_num, rfl⟩, hf]
  rfl

/-- The hypotheses of the theorems on whitening for one variable are met. -/
example (pinv : Pinv) : ∃ (cf : PpConf) (svd : PpSvd) (X : Fin 2 → Fin 1 → ℝ) (f : PpFit 2 1),
    cf.whiten = true ∧ Spec.IsThinSvd (fun i k => X i k - (∑ j, X j k) / (2 : ℕ)) (svd.tall fun i k => X i k - (∑ j, X j k) / (2 : ℕ)) ∧
      (cf.fit none svd pinv .ols (fun _ t => t 0) X ![1, 5]).2 = .ok (.plain f) := by
  have hsvd : ∃ svd : PpSvd, Spec.IsThinSvd (fun (i : Fin 2) (k : Fin 1) => (![![3], ![-3]] : Fin 2 → Fin 1 → ℝ) i k -
      (∑ j, (![![3], ![-3]] : Fin 2 → Fin 1 → ℝ) j k) / (2 : ℕ))
      (svd.tall fun i k => (![![3], ![-3]] : Fin 2 → Fin 1 → ℝ) i k - (∑ j, (![![3], ![-3]] : Fin 2 → Fin 1 → ℝ) j k) / (2 : ℕ)) := by
    have h2 : Real.sqrt 2 * Real.sqrt 2 = 2 := Real.mul_self_sqrt (by norm_num)
    have h0 : Real.sqrt 2 ≠ 0 := by intro h; rw [h] at h2; norm_num at h2
    refine ⟨⟨fun _ => (0, 0, 0), fun {n p} _ => match n, p with
      | 2, 1 => (1, ![3 * Real.sqrt 2], Matrix.of ![![1 / Real.sqrt 2, -1 / Real.sqrt 2]])
      | _, _ => (0, 0, 0)⟩, ?_, ?_, ?_, ?_⟩
    · simp
    · ext a b
      fin_cases a; fin_cases b
      simp [Matrix.mul_apply, Fin.sum_univ_two]
      field_simp
      linarith [h2, pow_two (Real.sqrt 2)]
    · intro l
      fin_cases l
      simp
    · intro i k
      fin_cases k
      fin_cases i <;> simp [Fin.sum_univ_two] <;> field_simp
  obtain ⟨svd, hs⟩ := hsvd
  obtain ⟨f, hf⟩ := C84_one_variable_partial { cmpConf true with whiten := true } svd pinv .ols (fun _ t => t 0) ![![3], ![-3]] ![1, 5] firstVar rfl rfl rfl rfl
    rfl (fun E => by simp [firstVar]) ⟨0, 1, by norm_num⟩ hs
  exact ⟨_, svd, _, f, rfl, hs, hf⟩

/-- The hypotheses of the theorems on compression are met, with and without scaling. -/
example (sc : Bool) : ∃ (pinv : Pinv) (f : PpCompFit 2 3), IsGenInverse pinv ∧ Spec.IsThinSvd cmpX (cmpSvd.flat cmpX) ∧
    ((cmpConf sc).fit none cmpSvd pinv .ols (fun _ t => t 0) cmpX ![1, 5]).2 = .ok (.compressed f) := by
  obtain ⟨pinv, h⟩ := exists_pinv
  obtain ⟨f, hf⟩ := cmp_compressed sc pinv .ols (fun _ t => t 0) ![1, 5]
  exact ⟨pinv, f, h, cmpSvd_ok, hf⟩

/-- C85 is violated: with `scale_data=True`, transforming the training data after compression does not give the scores. -/
theorem C85_scale_violated (pinv : Pinv) (hp : IsGenInverse pinv) (rg : PpReg) (φ : (Fin 2 → ℝ) → (Fin 2 → ℝ) → ℝ) (y : Fin 2 → ℝ) :
    ∃ f : PpCompFit 2 3, Spec.IsThinSvd cmpX (cmpSvd.flat cmpX) ∧ ((cmpConf true).fit none cmpSvd pinv rg φ cmpX y).2 = .ok (.compressed f) ∧
      f.transform cmpX ≠ .ok (.mat (ppT f.comps)) := by
  obtain ⟨f, hf⟩ := cmp_compressed true pinv rg φ y
  refine ⟨f, cmpSvd_ok, hf, ?_⟩
  obtain ⟨-, -, -, hq⟩ := PpConf.fit_compressed hf
  obtain ⟨-, g, hg, -, ic, fit, -, -, -, -, rfl⟩ := ppCompressed_inv hq
  obtain ⟨g', c, hg', hc, hw, ht, hl⟩ := cmp_fit true pinv rg φ y
  rw [cmpX_eq] at hg
  have hgg : g = g' := by
    have : (.ok g : Except Err (PpFit 2 2)) = .ok g' := hg.symm.trans hg'
    simpa using this
  subst hgg
  obtain ⟨-, -, -, -, -, -, -, -, -, -, -, -, hrot, -⟩ := ppFit_inv hg
  clear hg hg' hf hq
  obtain ⟨comps, rot, cs, co, ic', ics, fit', res, xl, xs, yl, ysc, sl, ss, lm⟩ := g
  simp only at hc hrot
  subst hc
  subst hrot
  have h1 : (ppP [c]).transpose * ppW [c] * pinv ((ppP [c]).transpose * ppW [c]) * ((ppP [c]).transpose * ppW [c]) = (ppP [c]).transpose * ppW [c] :=
    hp _
  have hR : ppR pinv [c] = ppW [c] * pinv ((ppP [c]).transpose * ppW [c]) := rfl
  generalize pinv ((ppP [c]).transpose * ppW [c]) = A at h1 hR
  have h2 := congrFun (congrFun h1 (⟨0, by simp⟩ : Fin [c].length)) (⟨0, by simp⟩ : Fin [c].length)
  have hsum : ∀ g : Fin [c].length → ℝ, ∑ i, g i = g ⟨0, by simp⟩ := fun g => Fin.sum_univ_one g
  simp only [Matrix.mul_apply, hsum, Fin.sum_univ_two, Matrix.transpose_apply, ppP, ppW, Matrix.of_apply, List.get_eq_getElem, List.getElem_cons_zero, hw, hl,
    Matrix.cons_val_zero, Matrix.cons_val_one, mul_zero, add_zero, mul_one, one_mul] at h2
  intro he
  unfold PpCompFit.transform at he
  have hcd : ((cmpConf true).withComponents none).base.centerData = true := rfl
  simp only [hcd, if_true, Except.ok.injEq, Scores.mat.injEq] at he
  have h3 := congrFun (congrFun he 0) (⟨0, by simp⟩ : Fin [c].length)
  have hsca : ∀ k, ((cmpConf true).withComponents none).base.centre.sca ((cmpConf true).withComponents none).base.scaleData
      ((cmpConf true).withComponents none).base.trimming (fun i => cmpX i k) = ![3 / 5, 4 / 5, 1 / 2] k := by
    intro k
    show ppStd 0 _ = _
    rw [ppStd_two]
    fin_cases k <;> simp [cmpX] <;> norm_num
  have hloc : ∀ k, ((cmpConf true).withComponents none).base.centre.loc
      ((cmpConf true).withComponents none).base.trimming (fun i => cmpX i k) = ![3 / 5, 4 / 5, 1 / 2] k := by
    intro k
    show ppMean 0 _ = _
    rw [ppMean_two]
    fin_cases k <;> simp [cmpX] <;> norm_num
  rw [hR] at h3
  simp only [Matrix.mul_apply, hsum, Fin.sum_univ_two, Fin.sum_univ_three, Matrix.of_apply, scaleMat, hsca, hloc, ppT, ppW, List.get_eq_getElem,
    List.getElem_cons_zero, hw, ht, h2] at h3
  simp [cmpX, cmpSvd] at h3
  norm_num at h3

end Direpack
