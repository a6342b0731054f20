import Mathlib.Algebra.BigOperators.Field
import Verif.Dicomo
import Verif.Energy
import Verif.NumLemmas
import Verif.ScalerLemmas
import Verif.Spec.Dicomo
import Verif.Props.Preproc

/-! Helper lemmas about the (co-)moment statistics. -/

namespace Direpack

open scoped BigOperators
open Spec

/-- A column as a matrix. -/
def colMat {n : ℕ} (x : Fin n → ℝ) : DMat := ⟨n, 1, fun i _ => x i⟩

/-- A data matrix. -/
def dmat {n p : ℕ} (x : Fin n → Fin p → ℝ) : DMat := ⟨n, p, x⟩

/-- `dicomo(est, mode, center).fit(X, y=Y, **a)`: what a freshly constructed object returns. -/
noncomputable def run (est : Est) (m : Mode) (c : Loc) (a : FitArgs) (X Y : DMat) : Except Err ℝ :=
  ((Dicomo.mk est m c none).fit { a with y := some Y } X).2

lemma pyRound_nat (n : ℕ) : pyRound (n : ℝ) = n := by
  simp [pyRound]

lemma pyRound_nat0 (n : ℕ) : pyRound ((n : ℝ) * (1 - 0)) = n := by
  rw [sub_zero, mul_one, pyRound_nat]

lemma meanL_ofFn {n : ℕ} (v : Fin n → ℝ) : meanL (List.ofFn v) = avg v := mean_eq v

lemma meanT0 {n : ℕ} (v : Fin n → ℝ) : meanT 0 (List.ofFn v) = .ok (avg v) := by
  simp [meanT, meanL_ofFn]

lemma meanT_affine {n : ℕ} (hn : 0 < n) (t a b : ℝ) (v : Fin n → ℝ) :
    meanT t (List.ofFn fun i => a * v i + b) = (meanT t (List.ofFn v)).map (fun m => a * m + b) := by
  rw [← C11_trim_affine _ (ofFn_ne_nil hn v), List.map_ofFn]
  rfl

/-- Exponents of the two variables in a co-moment. -/
def exps (order option : ℕ) : ℕ × ℕ :=
  (if 2 < order then order - option else 1, if 2 < order then option else 1)

lemma trimMom_ge2 {n : ℕ} (c : Loc) (x y : Fin n → ℝ) (order : ℕ) (ho : 2 ≤ order) (t : ℝ) (opt : ℕ)
    (b : Bool) : trimMom c x y order t opt b =
      match c with
      | .mean => momMean x y (exps order opt).1 (exps order opt).2 order t b
      | .median => .ok (momMedian x y (exps order opt).1 (exps order opt).2 order) := by
  unfold trimMom exps
  rw [if_neg (by omega), if_neg (by omega)]
  cases c <;> rfl

lemma momMean_affine {n : ℕ} (hn : 0 < n) (x y : Fin n → ℝ) (s1 s2 order : ℕ) (t : ℝ) (b : Bool)
    (a c a' c' : ℝ) :
    momMean (fun i => a * x i + c) (fun i => a' * y i + c') s1 s2 order t b =
      (momMean x y s1 s2 order t b).map (fun m => a ^ s1 * a' ^ s2 * m) := by
  unfold momMean
  rw [meanT_affine hn, meanT_affine hn]
  cases hx : meanT t (List.ofFn x) with
  | error e => rfl
  | ok mx =>
    cases hy : meanT t (List.ofFn y) with
    | error e => rfl
    | ok my =>
      simp only [bind, Except.bind, Except.map]
      have e : (fun i => (a * x i + c - (a * mx + c)) ^ s1 * (a' * y i + c' - (a' * my + c')) ^ s2) =
          fun i => (a ^ s1 * a' ^ s2) * ((x i - mx) ^ s1 * (y i - my) ^ s2) + 0 := by
        funext i
        rw [show a * x i + c - (a * mx + c) = a * (x i - mx) by ring,
          show a' * y i + c' - (a' * my + c') = a' * (y i - my) by ring, mul_pow, mul_pow]
        ring
      rw [e, meanT_affine hn]
      cases meanT t (List.ofFn fun i => (x i - mx) ^ s1 * (y i - my) ^ s2) with
      | error e => rfl
      | ok m => simp only [Except.map, Except.ok.injEq]; ring

lemma momMean0 {n : ℕ} (x y : Fin n → ℝ) (s1 s2 order : ℕ) (b : Bool) :
    momMean x y s1 s2 order 0 b = .ok (cmom x y s1 s2 * momFactor n 0 order b) := by
  unfold momMean
  simp only [meanT0, bind, Except.bind]
  rfl

lemma trimMom_mean0 {n : ℕ} (x y : Fin n → ℝ) (order : ℕ) (ho : 2 ≤ order) (opt : ℕ) (b : Bool) :
    trimMom .mean x y order 0 opt b =
      .ok (cmom x y (exps order opt).1 (exps order opt).2 * momFactor n 0 order b) := by
  rw [trimMom_ge2 _ _ _ _ ho]
  exact momMean0 _ _ _ _ _ _

lemma med_shift {n : ℕ} (hn : 0 < n) (x : Fin n → ℝ) (b : ℝ) : med (fun i => x i + b) = med x + b := by
  have := med_affine hn 1 b x
  simpa using this

lemma momMedian_shift {n : ℕ} (hn : 0 < n) (x y : Fin n → ℝ) (s1 s2 order : ℕ) (b c : ℝ)
    (h : (∀ i, x i + b = y i + c) ↔ ∀ i, x i = y i) :
    momMedian (fun i => x i + b) (fun i => y i + c) s1 s2 order = momMedian x y s1 s2 order := by
  unfold momMedian
  rw [med_shift hn, med_shift hn]
  have e1 : ∀ i, x i + b - (med x + b) = x i - med x := fun i => by ring
  have e2 : ∀ i, y i + c - (med y + c) = y i - med y := fun i => by ring
  simp only [e1, e2]
  by_cases hxy : ∀ i, x i = y i
  · rw [if_pos hxy, if_pos (h.mpr hxy)]
  · rw [if_neg hxy, if_neg (fun h' => hxy (h.mp h'))]

@[simp] lemma col0_colMat {n : ℕ} (x : Fin n → ℝ) : col0 (colMat x).e = x := by
  funext i; simp [col0, colMat]

lemma getY_dmat {n q : ℕ} (hn : 0 < n) (y : Fin n → Fin q → ℝ) :
    getY n (some (dmat y)) = .ok ⟨q, y⟩ := by
  unfold getY dmat
  simp [hn.ne']

lemma colMat_eq {n : ℕ} (x : Fin n → ℝ) : colMat x = dmat (fun i (_ : Fin 1) => x i) := rfl

lemma getY_colMat {n : ℕ} (hn : 0 < n) (y : Fin n → ℝ) :
    getY n (some (colMat y)) = .ok ⟨1, fun i _ => y i⟩ := by
  rw [colMat_eq, getY_dmat hn]

lemma col0_fun {n : ℕ} (y : Fin n → ℝ) : col0 (fun i (_ : Fin 1) => y i) = y := by
  funext i; simp [col0]

/-- What `fit` returns, in terms of `compute`. -/
lemma run_eq (est : Est) (m : Mode) (c : Loc) (a : FitArgs) (X Y : DMat) :
    run est m c a X Y = (match Dicomo.compute est m (if forcesMean m then Loc.mean else c) { a with y := some Y } X with
      | .error e => .error e
      | .ok (some v) => .ok v
      | .ok none => .error .attributeError) := by
  unfold run Dicomo.fit
  simp only
  cases Dicomo.compute est m (if forcesMean m then Loc.mean else c) { a with y := some Y } X with
  | error e => rfl
  | ok o => cases o <;> rfl

/-- The arithmetic branch for columns. -/
noncomputable def arithCol {n : ℕ} (m : Mode) (inner : Inner) (c : Loc) (order : ℕ) (a : FitArgs) (x y : Fin n → ℝ) :
    Except Err Pre :=
  if inner = .com then arithXY m inner c order a 0 x y
  else
    match arithX m c order a x with
    | .error e => .error e
    | .ok xm => if inner = .mom then .ok { moment := some xm, xmom := xm } else arithXY m inner c order a xm x y

lemma arithStage_col {n : ℕ} (hn : 0 < n) (m : Mode) (inner : Inner) (c : Loc) (order : ℕ) (a : FitArgs) (x y : Fin n → ℝ) :
    arithStage m inner c order { a with y := some (colMat y) } (fun i (_ : Fin 1) => x i) =
      arithCol m inner c order a x y := by
  unfold arithStage arithCol
  have e1 : arithX m c order { a with y := some (colMat y) } x = arithX m c order a x := rfl
  have e2 : ∀ xm, arithXY m inner c order { a with y := some (colMat y) } xm x y =
    arithXY m inner c order a xm x y := fun _ => rfl
  simp only [getY_colMat hn, col0_fun, bind, Except.bind, e1, e2]
  by_cases hc : inner = .com
  · subst hc; rfl
  · simp only [hc, if_false]
    cases arithX m c order a x <;> rfl

lemma compute_arith {n : ℕ} (hn : 0 < n) (m : Mode) (c : Loc) (a : FitArgs) (x y : Fin n → ℝ) :
    Dicomo.compute .arithmetic m c { a with y := some (colMat y) } (colMat x) =
      match arithCol m (modeTable m a.order).1 c (modeTable m a.order).2 a x y with
      | .error e => .error e
      | .ok pre => finalStage m (modeTable m a.order).1 (modeTable m a.order).2 a pre := by
  rw [← arithStage_col hn]
  unfold Dicomo.compute
  have hn' : (colMat x).n ≠ 0 := hn.ne'
  simp only [hn', if_false]
  rfl

end Direpack

namespace Direpack

open scoped BigOperators
open Spec

lemma arithCol_congr {n : ℕ} {x y x' y' : Fin n → ℝ} (m : Mode) (inner : Inner) (c : Loc) (order : ℕ) (ho : 2 ≤ order)
    (a : FitArgs)
    (hxx : ∀ k o b, 2 ≤ k → trimMom c x x k a.trimming o b = trimMom c x' x' k a.trimming o b)
    (hxy : ∀ k o b, 2 ≤ k → trimMom c x y k a.trimming o b = trimMom c x' y' k a.trimming o b)
    (hyy : ∀ k o b, 2 ≤ k → trimMom c y y k a.trimming o b = trimMom c y' y' k a.trimming o b) :
    arithCol m inner c order a x y = arithCol m inner c order a x' y' := by
  unfold arithCol arithX arithXY
  simp only [hxx 2 _ _ (le_refl 2), hxx order _ _ ho, hxy order _ _ ho, hyy 2 _ _ (le_refl 2), hyy order _ _ ho]

lemma modeTable_ge2 (m : Mode) (order : ℕ) (ho : 2 ≤ order) : 2 ≤ (modeTable m order).2 := by
  cases m <;> simp [modeTable, ho]

lemma except_map_id {α : Type} (e : Except Err α) : e.map (fun m => m) = e := by cases e <;> rfl

lemma trimMom_mean_affine {n : ℕ} (hn : 0 < n) (x y : Fin n → ℝ) (order : ℕ) (ho : 2 ≤ order) (t : ℝ) (opt : ℕ)
    (b : Bool) (a c a' c' : ℝ) :
    trimMom .mean (fun i => a * x i + c) (fun i => a' * y i + c') order t opt b =
      (trimMom .mean x y order t opt b).map
        (fun m => a ^ (exps order opt).1 * a' ^ (exps order opt).2 * m) := by
  rw [trimMom_ge2 _ _ _ _ ho, trimMom_ge2 _ _ _ _ ho]
  exact momMean_affine hn _ _ _ _ _ _ _ _ _ _ _

lemma trimMom_mean_shift {n : ℕ} (hn : 0 < n) (x y : Fin n → ℝ) (order : ℕ) (ho : 2 ≤ order) (t : ℝ) (opt : ℕ)
    (b : Bool) (c c' : ℝ) :
    trimMom .mean (fun i => x i + c) (fun i => y i + c') order t opt b = trimMom .mean x y order t opt b := by
  have := trimMom_mean_affine hn x y order ho t opt b 1 c 1 c'
  simp only [one_mul, one_pow] at this
  rw [this, except_map_id]

lemma trimMom_median_shift {n : ℕ} (hn : 0 < n) (x y : Fin n → ℝ) (order : ℕ) (ho : 2 ≤ order) (t : ℝ) (opt : ℕ)
    (b : Bool) (c c' : ℝ) (h : (∀ i, x i + c = y i + c') ↔ ∀ i, x i = y i) :
    trimMom .median (fun i => x i + c) (fun i => y i + c') order t opt b = trimMom .median x y order t opt b := by
  rw [trimMom_ge2 _ _ _ _ ho, trimMom_ge2 _ _ _ _ ho]
  simp only [momMedian_shift hn x y _ _ _ c c' h]

/-- Modes that return a moment of one variable. -/
lemma run_mom {n : ℕ} (hn : 0 < n) (m : Mode) (hm : m = .mom ∨ m = .var) (c : Loc) (a : FitArgs) (x y : Fin n → ℝ) :
    run .arithmetic m c a (colMat x) (colMat y) =
      trimMom c x x (modeTable m a.order).2 a.trimming
        (if 2 < (modeTable m a.order).2 then a.option else 0) a.biascorr := by
  have h1 : forcesMean m = false := by rcases hm with h | h <;> subst h <;> rfl
  have h2 : (modeTable m a.order).1 = .mom := by rcases hm with h | h <;> subst h <;> rfl
  have h3 : isStdMode m = false := by rcases hm with h | h <;> subst h <;> rfl
  have h4 : isCoMode m = false := by rcases hm with h | h <;> subst h <;> rfl
  rw [run_eq, h1, compute_arith hn]
  unfold arithCol arithX finalStage
  rw [h2]
  simp only [h3, h4, bind, Except.bind, reduceCtorEq, if_false, if_true, Bool.false_eq_true, false_and]
  cases trimMom c x x (modeTable m a.order).2 a.trimming
        (if 2 < (modeTable m a.order).2 then a.option else 0) a.biascorr <;> rfl

/-- Modes that return a co-moment of two variables. -/
lemma run_com {n : ℕ} (hn : 0 < n) (m : Mode) (hm : m = .com ∨ m = .cov) (c : Loc) (a : FitArgs) (x y : Fin n → ℝ) :
    run .arithmetic m c a (colMat x) (colMat y) =
      (trimMom c x y (modeTable m a.order).2 a.trimming
        (if 2 < (modeTable m a.order).2 then a.option else 0) a.biascorr).map
        (fun v => if a.biascorr ∧ 2 < (modeTable m a.order).2 then v * ((pyRound (n * (1 - a.trimming)) : ℤ) : ℝ) else v) := by
  have h1 : forcesMean m = false := by rcases hm with h | h <;> subst h <;> rfl
  have h2 : (modeTable m a.order).1 = .com := by rcases hm with h | h <;> subst h <;> rfl
  have h4 : isCoMode m = false := by rcases hm with h | h <;> subst h <;> rfl
  rw [run_eq, h1, compute_arith hn]
  unfold arithCol arithXY finalStage
  rw [h2]
  simp only [h4, bind, Except.bind, reduceCtorEq, if_false, if_true, Bool.false_eq_true, false_and, or_self]
  cases trimMom c x y (modeTable m a.order).2 a.trimming
        (if 2 < (modeTable m a.order).2 then a.option else 0) a.biascorr <;> rfl

lemma run_var {n : ℕ} (hn : 0 < n) (c : Loc) (a : FitArgs) (x y : Fin n → ℝ) :
    run .arithmetic .var c a (colMat x) (colMat y) = trimMom c x x 2 a.trimming 0 a.biascorr :=
  run_mom hn .var (Or.inr rfl) c a x y

lemma run_momk {n : ℕ} (hn : 0 < n) (c : Loc) (a : FitArgs) (x y : Fin n → ℝ) :
    run .arithmetic .mom c a (colMat x) (colMat y) =
      trimMom c x x a.order a.trimming (if 2 < a.order then a.option else 0) a.biascorr :=
  run_mom hn .mom (Or.inl rfl) c a x y

lemma run_cov {n : ℕ} (hn : 0 < n) (c : Loc) (a : FitArgs) (x y : Fin n → ℝ) :
    run .arithmetic .cov c a (colMat x) (colMat y) = trimMom c x y 2 a.trimming 0 a.biascorr := by
  refine (run_com hn .cov (Or.inr rfl) c a x y).trans ?_
  have : (fun v : ℝ => if a.biascorr ∧ 2 < (modeTable .cov a.order).2 then
      v * ((pyRound (n * (1 - a.trimming)) : ℤ) : ℝ) else v) = fun v => v := by
    funext v; exact if_neg (fun h => absurd h.2 (lt_irrefl 2))
  rw [this]
  exact except_map_id _

lemma run_comk {n : ℕ} (hn : 0 < n) (c : Loc) (a : FitArgs) (x y : Fin n → ℝ) :
    run .arithmetic .com c a (colMat x) (colMat y) =
      (trimMom c x y a.order a.trimming (if 2 < a.order then a.option else 0) a.biascorr).map
        (fun v => if a.biascorr ∧ 2 < a.order then v * ((pyRound (n * (1 - a.trimming)) : ℤ) : ℝ) else v) :=
  run_com hn .com (Or.inl rfl) c a x y

/-- The mode `corr`. -/
lemma run_corr {n : ℕ} (hn : 0 < n) (c : Loc) (a : FitArgs) (ho : a.order = 2) (x y : Fin n → ℝ) (xm co ym : ℝ)
    (hx : trimMom c x x 2 a.trimming 0 a.biascorr = .ok xm)
    (hco : trimMom c x y 2 a.trimming 0 a.biascorr = .ok co)
    (hy : trimMom c y y 2 a.trimming 0 a.biascorr = .ok ym) (hx0 : 0 ≤ xm) (hy0 : 0 ≤ ym) :
    run .arithmetic .corr c a (colMat x) (colMat y) = .ok (co / (√xm * √ym)) := by
  rw [run_eq]
  simp only [forcesMean, Bool.false_eq_true, if_false]
  rw [compute_arith hn]
  simp only [modeTable, ho]
  unfold arithCol arithX arithXY finalStage
  simp only [hx, hco, hy, isStdMode, isCoMode, bind, Except.bind, reduceCtorEq, if_false, if_true, lt_irrefl,
    or_self, decide_false, Bool.false_eq_true, and_false, false_and, sqrtE, not_lt.mpr hx0, not_lt.mpr hy0, or_false]

/-- The mode `continuum`. -/
lemma run_continuum {n : ℕ} (hn : 0 < n) (c : Loc) (a : FitArgs) (ho : a.order = 2) (x y : Fin n → ℝ) (xm co ym : ℝ)
    (hx : trimMom c x x 2 a.trimming 0 a.biascorr = .ok xm)
    (hco : trimMom c x y 2 a.trimming 0 a.biascorr = .ok co)
    (hy : trimMom c y y 2 a.trimming 0 a.biascorr = .ok ym) (hx0 : 0 ≤ xm) :
    run .arithmetic .continuum c a (colMat x) (colMat y) = .ok (co * (co * √xm ^ (a.alpha - 1))) := by
  rw [run_eq]
  simp only [forcesMean, Bool.false_eq_true, if_false]
  rw [compute_arith hn]
  simp only [modeTable, ho]
  unfold arithCol arithX arithXY finalStage
  simp only [hx, hco, hy, isStdMode, isCoMode, bind, Except.bind, reduceCtorEq, if_false, if_true, lt_irrefl,
    or_self, decide_false, Bool.false_eq_true, and_false, false_and, sqrtE, not_lt.mpr hx0, false_or, or_true]

/-- The modes `std`, `skew`, `kurt`. -/
lemma run_std {n : ℕ} (hn : 0 < n) (m : Mode) (hm : m = .std ∨ m = .skew ∨ m = .kurt) (c : Loc) (a : FitArgs)
    (x y : Fin n → ℝ) (xm x2 : ℝ)
    (hx : trimMom .mean x x (modeTable m a.order).2 a.trimming
      (if 2 < (modeTable m a.order).2 then a.option else 0) a.biascorr = .ok xm)
    (hx2 : trimMom .mean x x 2 a.trimming (if 2 < (modeTable m a.order).2 then a.option else 0) false = .ok x2) :
    run .arithmetic m c a (colMat x) (colMat y) =
      .ok (standardizeMom m a.biascorr a.fisher (pyRound (n * (1 - a.trimming)) : ℤ) xm x2) := by
  have h1 : forcesMean m = true := by rcases hm with h | h | h <;> subst h <;> rfl
  have h2 : (modeTable m a.order).1 = .mom := by rcases hm with h | h | h <;> subst h <;> rfl
  have h3 : isStdMode m = true := by rcases hm with h | h | h <;> subst h <;> rfl
  have h4 : isCoMode m = false := by rcases hm with h | h | h <;> subst h <;> rfl
  rw [run_eq, h1]
  simp only [if_true]
  rw [compute_arith hn]
  unfold arithCol arithX finalStage
  rw [h2]
  simp only [h3, h4, hx, hx2, bind, Except.bind, reduceCtorEq, if_false, if_true, Bool.false_eq_true, false_and]

/-- The modes `cos`, `cok` without bias correction. -/
lemma run_co {n : ℕ} (hn : 0 < n) (m : Mode) (hm : m = .cos ∨ m = .cok) (c : Loc) (a : FitArgs)
    (hb : a.biascorr = false) (hs : a.standardized = true)
    (x y : Fin n → ℝ) (co x2 y2 : ℝ)
    (hco : trimMom .mean x y (modeTable m a.order).2 a.trimming a.option false = .ok co)
    (hx2 : trimMom .mean x x 2 a.trimming a.option false = .ok x2)
    (hy2 : trimMom .mean y y 2 a.trimming a.option false = .ok y2) (hx0 : 0 ≤ x2) (hy0 : 0 ≤ y2) :
    run .arithmetic m c a (colMat x) (colMat y) =
      .ok (if m = .cok ∧ a.fisher = false
        then co / √x2 ^ ((modeTable m a.order).2 - a.option) / √y2 ^ a.option + 3
        else co / √x2 ^ ((modeTable m a.order).2 - a.option) / √y2 ^ a.option) := by
  have h1 : forcesMean m = true := by rcases hm with h | h <;> subst h <;> rfl
  have h2 : (modeTable m a.order).1 = .com := by rcases hm with h | h <;> subst h <;> rfl
  have h4 : isCoMode m = true := by rcases hm with h | h <;> subst h <;> rfl
  have h5 : 2 < (modeTable m a.order).2 := by rcases hm with h | h <;> subst h <;> simp [modeTable]
  rw [run_eq, h1]
  simp only [if_true]
  rw [compute_arith hn]
  unfold arithCol arithXY finalStage
  rw [h2]
  simp only [h4, h5, hb, hs, hco, hx2, hy2, bind, Except.bind, reduceCtorEq, if_false, if_true, Bool.false_eq_true,
    false_and, and_false, sqrtE, not_lt.mpr hx0, not_lt.mpr hy0, or_self, and_self]

/-! Moments at trimming 0 -/

lemma momFactor_two (n : ℕ) (b : Bool) : momFactor n 0 2 b = if b then (n : ℝ) / (n - 1) else 1 := by
  unfold momFactor
  rw [pyRound_nat0]
  simp [Finset.prod_Ico_eq_prod_range]

lemma momFactor_three (n : ℕ) : momFactor n 0 3 true = (n : ℝ) / ((n - 1) * (n - 2)) := by
  unfold momFactor
  rw [pyRound_nat0]
  simp [Finset.prod_Ico_eq_prod_range, Finset.prod_range_succ]
  norm_num

lemma momFactor_four (n : ℕ) : momFactor n 0 4 true = (n : ℝ) / ((n - 2) * (n - 3)) := by
  unfold momFactor
  rw [pyRound_nat0]
  simp [Finset.prod_Ico_eq_prod_range, Finset.prod_range_succ]
  norm_num

lemma momFactor_false (n : ℕ) (t : ℝ) (o : ℕ) : momFactor n t o false = 1 := by simp [momFactor]

lemma cmom_self {n : ℕ} (x : Fin n → ℝ) (a b : ℕ) : cmom x x a b = avg fun i => (x i - avg x) ^ (a + b) := by
  unfold cmom
  congr 1; funext i; rw [pow_add]

lemma cmom_self_nonneg {n : ℕ} (x : Fin n → ℝ) : 0 ≤ cmom x x 1 1 := by
  rw [cmom_self]
  exact div_nonneg (Finset.sum_nonneg fun i _ => Even.pow_nonneg (by decide) _) (Nat.cast_nonneg n)

lemma cmom_self_eq_zero {n : ℕ} (hn : 0 < n) (x : Fin n → ℝ) : cmom x x 1 1 = 0 ↔ ∀ i j, x i = x j := by
  rw [cmom_self]
  have hn' : (n : ℝ) ≠ 0 := by exact_mod_cast hn.ne'
  constructor
  · intro h i j
    unfold avg at h
    rw [div_eq_zero_iff, or_iff_left hn', Finset.sum_eq_zero_iff_of_nonneg (fun i _ => Even.pow_nonneg (by decide) _)] at h
    have hi := h i (Finset.mem_univ i)
    have hj := h j (Finset.mem_univ j)
    have hi := pow_eq_zero_iff (n := 1 + 1) (by norm_num) |>.mp hi
    have hj := pow_eq_zero_iff (n := 1 + 1) (by norm_num) |>.mp hj
    unfold avg at hi hj
    linarith
  · intro h
    have : ∀ i, x i - avg x = 0 := by
      intro i
      unfold avg
      rw [Finset.sum_congr rfl fun j _ => h j i]
      simp only [Finset.sum_const, Finset.card_univ, Fintype.card_fin, nsmul_eq_mul]
      field_simp
      ring
    simp [avg] at this ⊢
    simp [this]

end Direpack
