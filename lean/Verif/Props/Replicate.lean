import Mathlib.Tactic.Linarith
import Mathlib.Tactic.FieldSimp
import Mathlib.Tactic.FinCases
import Verif.Props.Snipls
import Verif.Props.SniplsNaN
import Verif.Props.DicomoDist2
import Verif.Props.Dicomo2

/-! C165: entering every case several times. -/

namespace Direpack

open scoped BigOperators
open Spec

/-! ### Specification -/

/-- `r` lists the cases `0, …, n-1` of a data set in such a way that each of them occurs `k` times: the row `I` of the long data set is the row `r I` of the short one. -/
def Spec.Repeats {N n : ℕ} (r : Fin N → Fin n) (k : ℕ) : Prop := 0 < k ∧ ∀ i, Nat.card {I // r I = i} = k

variable {N n p : ℕ} {r : Fin N → Fin n} {k : ℕ}

/-! ### Sums and order statistics -/

lemma Spec.Repeats.card_filter (h : Repeats r k) (i : Fin n) : (Finset.univ.filter fun I => r I = i).card = k := by
  rw [← h.2 i, Nat.card_eq_fintype_card, Fintype.card_subtype]

lemma Spec.Repeats.sum (h : Repeats r k) {M : Type} [AddCommMonoid M] (F : Fin n → M) : ∑ I, F (r I) = k • ∑ i, F i := by
  rw [← Finset.sum_fiberwise_of_maps_to (s := Finset.univ) (t := Finset.univ) (g := r) fun k _ => Finset.mem_univ _, Finset.smul_sum]
  refine Finset.sum_congr rfl fun i _ => ?_
  rw [Finset.sum_congr rfl (g := fun _ => F i) fun I hI => by rw [(Finset.mem_filter.mp hI).2], Finset.sum_const, h.card_filter]

lemma Spec.Repeats.sumR (h : Repeats r k) (F : Fin n → ℝ) : ∑ I, F (r I) = k * ∑ i, F i := by
  rw [h.sum, nsmul_eq_mul]

lemma Spec.Repeats.size (h : Repeats r k) : N = n * k := by
  have := h.sum (fun _ => (1 : ℕ))
  simpa [mul_comm] using this

lemma Spec.Repeats.k0 (h : Repeats r k) : (k : ℝ) ≠ 0 := by exact_mod_cast h.1.ne'

lemma count_ofFn {N : ℕ} (f : Fin N → ℝ) (v : ℝ) : (List.ofFn f).count v = ∑ i, if f i = v then 1 else 0 := by
  have e : ∀ l : List ℝ, l.count v = (l.map fun u => if u = v then 1 else 0).sum := by
    intro l
    induction l with
    | nil => rfl
    | cons a l ih => rw [List.count_cons, ih, List.map_cons, List.sum_cons, add_comm]; simp
  rw [e, List.map_ofFn, List.sum_ofFn]
  rfl

lemma Spec.Repeats.perm (h : Repeats r k) (x : Fin n → ℝ) : (List.ofFn fun I => x (r I)).Perm ((List.ofFn x).flatMap (List.replicate k)) := by
  rw [List.perm_iff_count]
  intro v
  rw [count_ofFn, h.sum fun i => if x i = v then 1 else 0]
  have e : ∀ l : List ℝ, (l.flatMap (List.replicate k)).count v = k * l.count v := by
    intro l
    induction l with
    | nil => rfl
    | cons a l ih =>
      rw [List.flatMap_cons, List.count_append, ih, List.count_replicate, List.count_cons]
      by_cases ha : a = v <;> simp [ha]; ring
  rw [e, count_ofFn, smul_eq_mul]

lemma sorted_repeat (l : List ℝ) (k : ℕ) : sortL (l.flatMap (List.replicate k)) = (sortL l).flatMap (List.replicate k) := by
  refine sortL_unique ((sortL_perm l).flatMap_right _) ?_
  rw [List.pairwise_flatMap]
  refine ⟨fun a _ => List.pairwise_replicate.mpr (Or.inr le_rfl), ?_⟩
  refine (sortL_sorted l).imp fun {a b} hab x hx y hy => ?_
  rw [(List.mem_replicate.mp hx).2, (List.mem_replicate.mp hy).2]
  exact hab

lemma getD_repeat {k : ℕ} (hk : 0 < k) (L : List ℝ) (i : ℕ) : (L.flatMap (List.replicate k)).getD i 0 = L.getD (i / k) 0 := by
  induction L generalizing i with
  | nil => simp
  | cons a L ih =>
    rw [List.flatMap_cons]
    by_cases hi : i < k
    · rw [List.getD_append _ _ _ _ (by simpa using hi), Nat.div_eq_of_lt hi]
      simp [List.getD_eq_getElem?_getD, hi]
    · push Not at hi
      rw [List.getD_append_right _ _ _ _ (by simpa using hi), List.length_replicate, ih]
      obtain ⟨j, rfl⟩ := Nat.exists_eq_add_of_le hi
      rw [Nat.add_sub_cancel_left, Nat.add_div_left _ hk]
      rfl

lemma medL_repeat {k : ℕ} (hk : 0 < k) (l : List ℝ) : medL (l.flatMap (List.replicate k)) = medL l := by
  have hlen : (l.flatMap (List.replicate k)).length = l.length * k := by
    induction l with
    | nil => simp
    | cons a l ih => rw [List.flatMap_cons, List.length_append, ih, List.length_replicate, List.length_cons]; ring
  unfold medL
  rw [hlen, sorted_repeat]
  simp only [getD_repeat hk]
  set m := l.length
  rcases Nat.even_or_odd m with ⟨a, ha⟩ | ⟨a, ha⟩
  · have e1 : m % 2 = 0 := by omega
    have e2 : m * k = 2 * (a * k) := by rw [ha]; ring
    have e3 : m / 2 = a := by omega
    rw [e2, e1, if_neg (by omega), if_neg (by omega), e3, Nat.mul_div_cancel_left _ (by norm_num), Nat.mul_div_cancel _ hk]
    congr 3
    rcases Nat.eq_zero_or_pos a with h0 | h0
    · subst h0; simp
    · obtain ⟨b, rfl⟩ := Nat.exists_eq_add_of_le h0
      rw [Nat.add_sub_cancel_left]
      rw [show (1 + b) * k - 1 = (k - 1) + k * b by
        have : (1 + b) * k = k + k * b := by ring
        omega, Nat.add_mul_div_left _ _ hk, Nat.div_eq_of_lt (by omega), zero_add]
  · have e1 : m % 2 = 1 := by omega
    have e3 : m / 2 = a := by omega
    rw [e1, if_pos rfl, e3]
    have e2 : m * k = 2 * (a * k) + k := by rw [ha]; ring
    have e4 : m * k / 2 / k = a := by
      rw [e2, Nat.mul_add_div (by norm_num), add_comm, Nat.add_mul_div_right _ _ hk, Nat.div_eq_of_lt (Nat.div_lt_self hk (by norm_num)), zero_add]
    rw [e4]
    split
    · rfl
    · rename_i h1
      have h2 : k % 2 = 0 := by
        rw [e2] at h1
        omega
      have e5 : (m * k / 2 - 1) / k = a := by
        obtain ⟨c, rfl⟩ : ∃ c, k = 2 * c := ⟨k / 2, by omega⟩
        have : m * (2 * c) / 2 - 1 = (c - 1) + (2 * c) * a := by
          rw [show m * (2 * c) = 2 * (m * c) by ring, Nat.mul_div_cancel_left _ (by norm_num), ha]
          have : (2 * a + 1) * c = 2 * c * a + c := by ring
          omega
        rw [this, Nat.add_mul_div_left _ _ hk, Nat.div_eq_of_lt (by omega), zero_add]
      rw [e5]
      ring

lemma Spec.Repeats.med (h : Repeats r k) (x : Fin n → ℝ) : med (fun I => x (r I)) = med x := by
  unfold Direpack.med
  rw [medL_perm' (h.perm x), medL_repeat h.1]

lemma Spec.Repeats.mean (h : Repeats r k) (x : Fin n → ℝ) : Direpack.mean (fun I => x (r I)) = Direpack.mean x := by
  unfold Direpack.mean meanL
  rw [List.sum_ofFn, List.sum_ofFn, List.length_ofFn, List.length_ofFn, h.sumR, h.size]
  push_cast
  rw [mul_comm (n : ℝ), mul_div_mul_left _ _ h.k0]

lemma Spec.Repeats.var (h : Repeats r k) (x : Fin n → ℝ) : Direpack.var (fun I => x (r I)) = Direpack.var x := by
  have e : ∀ {M : ℕ} (z : Fin M → ℝ), Direpack.var z = Direpack.mean fun i => (z i - Direpack.mean z) ^ 2 := by
    intro M z
    unfold Direpack.var varL Direpack.mean
    rw [List.map_ofFn]
    rfl
  rw [e, e, h.mean x, h.mean fun i => (x i - Direpack.mean x) ^ 2]

lemma Spec.Repeats.mad (h : Repeats r k) (x : Fin n → ℝ) : Direpack.mad (fun I => x (r I)) = Direpack.mad x := by
  have e : ∀ {M : ℕ} (z : Fin M → ℝ), Direpack.mad z = Direpack.med (fun i => |z i - Direpack.med z|) / madConst := by
    intro M z
    unfold Direpack.mad madL Direpack.med
    rw [List.map_ofFn]
    rfl
  rw [e, e, h.med x, h.med fun i => |x i - Direpack.med x|]

/-! ### SNIPLS -/

/-- A component of the fit to the short data, with the scores of the rows of the long data. -/
def repComp (r : Fin N → Fin n) (c : SnComp n p) : SnComp N p := ⟨c.w, c.load, c.c, fun I => c.t (r I), c.good⟩

lemma maxAbs_congr' {p : ℕ} {u v : Fin p → ℝ} (h : u = v) : maxAbs u = maxAbs v := by rw [h]

lemma Spec.Repeats.snWeights (h : Repeats r k) (eta : ℝ) (X : Fin n → Fin p → ℝ) (y : Fin n → ℝ) :
    Direpack.snWeights eta (fun I => X (r I)) (fun I => y (r I)) = Direpack.snWeights eta X y := by
  have hk : (0 : ℝ) < k := by exact_mod_cast h.1
  have e1 : ∀ j, ∑ I, X (r I) j * y (r I) = k * ∑ i, X i j * y i := fun j => h.sumR fun i => X i j * y i
  have e2 : (fun j => (∑ I, X (r I) j * y (r I)) / Real.sqrt (∑ j, (∑ I, X (r I) j * y (r I)) ^ 2)) =
      fun j => (∑ i, X i j * y i) / Real.sqrt (∑ j, (∑ i, X i j * y i) ^ 2) := by
    funext j
    simp only [e1]
    have : ∑ j, ((k : ℝ) * ∑ i, X i j * y i) ^ 2 = (k : ℝ) ^ 2 * ∑ j, (∑ i, X i j * y i) ^ 2 := by
      rw [Finset.mul_sum]; exact Finset.sum_congr rfl fun j _ => by ring
    rw [this, Real.sqrt_mul (by positivity), Real.sqrt_sq hk.le, mul_div_mul_left _ _ hk.ne']
  unfold Direpack.snWeights
  simp only
  rw [e2]
  simp only [congrFun e2]

theorem Spec.Repeats.snLoop (h : Repeats r k) (eta : ℝ) (m : ℕ) : ∀ (X : Fin n → Fin p → ℝ) (y : Fin n → ℝ) (old : Finset (Fin p)),
    Direpack.snLoop eta m (fun I => X (r I)) (fun I => y (r I)) old = (Direpack.snLoop eta m X y old).map fun l => l.map (repComp r) := by
  induction m with
  | zero => intro X y old; rfl
  | succ m ih =>
    intro X y old
    simp only [Direpack.snLoop, h.snWeights]
    have hcov : (∀ j, ∑ I, X (r I) j * y (r I) = 0) ↔ ∀ j, ∑ i, X i j * y i = 0 :=
      forall_congr' fun j => by rw [h.sumR fun i => X i j * y i, mul_eq_zero, or_iff_right h.k0]
    by_cases hc : ∀ j, ∑ i, X i j * y i = 0
    · rw [if_pos hc, if_pos (hcov.2 hc)]
      split <;> rfl
    · rw [if_neg hc, if_neg (fun e => hc (hcov.1 e))]
      set good := old ∪ Finset.univ.filter fun j => 0 < (Direpack.snWeights eta X y).1 j with hgood
      by_cases hgn : good = ∅
      · rw [if_pos hgn, if_pos hgn]; rfl
      · rw [if_neg hgn, if_neg hgn]
        set w : Fin p → ℝ := fun j => if j ∈ good then (Direpack.snWeights eta X y).2 j else 0 with hw
        have hwj : ∀ j, (if j ∈ good then (Direpack.snWeights eta X y).2 j else 0) = w j := fun _ => rfl
        set t : Fin n → ℝ := fun i => ∑ j, X i j * w j with ht
        have htj : ∀ i, ∑ j, X i j * w j = t i := fun _ => rfl
        simp only [hwj, htj]
        have hn2 : ∑ I, t (r I) ^ 2 = k * ∑ i, t i ^ 2 := h.sumR fun i => t i ^ 2
        rw [hn2]
        by_cases hz : ∑ i, t i ^ 2 = 0
        · rw [if_pos hz, if_pos (by rw [hz, mul_zero])]; rfl
        · rw [if_neg hz, if_neg (mul_ne_zero h.k0 hz)]
          have hcc : (∑ I, y (r I) * t (r I)) / (k * ∑ i, t i ^ 2) = (∑ i, y i * t i) / ∑ i, t i ^ 2 := by
            rw [h.sumR fun i => y i * t i, mul_div_mul_left _ _ h.k0]
          have hph : ∀ j, (∑ I, X (r I) j * t (r I)) / (k * ∑ i, t i ^ 2) = (∑ i, X i j * t i) / ∑ i, t i ^ 2 := by
            intro j
            rw [h.sumR fun i => X i j * t i, mul_div_mul_left _ _ h.k0]
          simp only [hcc, hph]
          rw [ih (fun i j => X i j - t i * ((∑ i, X i j * t i) / ∑ i, t i ^ 2)) (fun i => y i - t i * ((∑ i, y i * t i) / ∑ i, t i ^ 2)) good]
          generalize Direpack.snLoop eta m _ _ good = z
          cases z <;> rfl

lemma npInv_scale {m : ℕ} {a : ℝ} (ha : a ≠ 0) (A : Matrix (Fin m) (Fin m) ℝ) : npInv (a • A) = (npInv A).map fun M => a⁻¹ • M := by
  unfold npInv
  have hd : (a • A).det = 0 ↔ A.det = 0 := by
    rw [Matrix.det_smul, mul_eq_zero, or_iff_right (pow_ne_zero _ ha)]
  by_cases h : A.det = 0
  · rw [if_pos h, if_pos (hd.2 h)]; rfl
  · rw [if_neg h, if_neg (fun e => h (hd.1 e))]
    have : (a • A)⁻¹ = a⁻¹ • A⁻¹ := by
      apply Matrix.inv_eq_right_inv
      rw [Matrix.smul_mul, Matrix.mul_smul, smul_smul, Matrix.mul_nonsing_inv _ (isUnit_iff_ne_zero.2 h), mul_inv_cancel₀ ha, one_smul]
    rw [this]; rfl

lemma coefOf_scale {p m : ℕ} {a : ℝ} (ha : a ≠ 0) (W P : Matrix (Fin p) (Fin m) ℝ) (S : Matrix (Fin p) (Fin p) ℝ) (s0 : Fin p → ℝ) :
    coefOf m W P (a • S) (a • s0) = coefOf m W P S s0 := by
  unfold coefOf
  split_ifs
  · rfl
  · have e : W.transpose * (a • S) * W = a • (W.transpose * S * W) := by
      rw [Matrix.mul_smul, Matrix.smul_mul]
    rw [e, npInv_scale ha]
    cases npInv (P.transpose * W) with
    | error e => rfl
    | ok M1 =>
      cases npInv (W.transpose * S * W) with
      | error e => rfl
      | ok M2 =>
        simp only [bind, Except.bind, Except.map]
        congr 2
        rw [Matrix.smul_mul, Matrix.mul_smul, Matrix.smul_mulVec, Matrix.mulVec_smul, smul_smul, inv_mul_cancel₀ ha, one_smul]

lemma coefOf_cast' {p m m' : ℕ} (h : m' = m) {W P : Matrix (Fin p) (Fin m) ℝ} {W' P' : Matrix (Fin p) (Fin m') ℝ} {S : Matrix (Fin p) (Fin p) ℝ}
    {s0 : Fin p → ℝ} (hW : ∀ j a, W' j a = W j (Fin.cast h a)) (hP : ∀ j a, P' j a = P j (Fin.cast h a)) {R' B'} {R B}
    (h1 : coefOf m' W' P' S s0 = .ok (R', B')) (h2 : coefOf m W P S s0 = .ok (R, B)) : B' = B ∧ ∀ j a, R' j a = R j (Fin.cast h a) := by
  subst h
  have e1 : W' = W := by funext j a; exact hW j a
  have e2 : P' = P := by funext j a; exact hP j a
  subst e1 e2
  rw [h1] at h2
  simp only [Except.ok.injEq, Prod.mk.injEq] at h2
  exact ⟨h2.2, fun j a => by rw [h2.1]; rfl⟩

lemma Spec.Repeats.snCoef (h : Repeats r k) (X : Fin n → Fin p → ℝ) (y : Fin n → ℝ) (l : List (SnComp n p)) {R' B'} {R B}
    (h1 : Direpack.snCoef (fun I => X (r I)) (fun I => y (r I)) (l.map (repComp r)) = .ok (R', B')) (h2 : Direpack.snCoef X y l = .ok (R, B)) :
    B' = B ∧ ∀ j a, R' j a = R j (Fin.cast (List.length_map _) a) := by
  have e1 : (Matrix.of fun j j' => ∑ I, X (r I) j * X (r I) j') = (k : ℝ) • (Matrix.of fun j j' => ∑ i, X i j * X i j') := by
    ext j j'
    exact h.sumR fun i => X i j * X i j'
  have e2 : (fun j => ∑ I, X (r I) j * y (r I)) = (k : ℝ) • fun j => ∑ i, X i j * y i := by
    funext j
    exact h.sumR fun i => X i j * y i
  have h1' : coefOf (l.map (repComp r)).length (compW (l.map (repComp r))) (compP (l.map (repComp r)))
      (Matrix.of fun j j' => ∑ I, X (r I) j * X (r I) j') (fun j => ∑ I, X (r I) j * y (r I)) = .ok (R', B') := h1
  rw [e1, e2, coefOf_scale h.k0] at h1'
  refine coefOf_cast' (List.length_map _) ?_ ?_ h1' h2
  · intro j a
    simp [compW, repComp]
  · intro j a
    simp [compP, repComp]

/-! ### Location and scale -/

/-- The estimators of location and of scale offered by name. -/
lemma Spec.Repeats.centre (h : Repeats r k) {c : Centre} (hc : c = .mean ∨ c = .median ∨ c = .noneOpt) {q : ℕ} (X : Fin n → Fin q → ℝ) :
    c.run (fun I => X (r I)) = c.run X := by
  rcases hc with rfl | rfl | rfl
  · funext j; exact h.mean fun i => X i j
  · funext j; exact h.med fun i => X i j
  · rfl

lemma Spec.Repeats.scale (h : Repeats r k) {s : ScaleOpt} (hs : s = .std ∨ s = .mad ∨ s = .noneOpt) {q : ℕ} (X : Fin n → Fin q → ℝ) :
    s.run (fun I => X (r I)) = s.run X := by
  rcases hs with rfl | rfl | rfl
  · funext j; exact congrArg Real.sqrt (h.var fun i => X i j)
  · funext j; exact h.mad fun i => X i j
  · rfl

lemma Spec.Repeats.intercept (h : Repeats r k) (c : Centre) (x : Fin n → ℝ) : snIntercept c (fun I => x (r I)) = snIntercept c x := by
  cases c
  · exact h.mean x
  · exact h.med x
  · rfl
  · exact h.med x

/-- C165: a SNIPLS model fitted to data in which every case is entered `k` times has the same coefficients, intercept, weights, retained variables, location and
scale; it fits each copy of a case as the model of the original data fits the case, and predicts the same for new data. -/
theorem C165_snipls {pr : SnParams} (hc : pr.centre = .mean ∨ pr.centre = .median ∨ pr.centre = .noneOpt)
    (hs : pr.scale = .std ∨ pr.scale = .mad ∨ pr.scale = .noneOpt) (hr : Repeats r k) {X : Fin n → Fin p → ℝ} {y : Fin n → ℝ} {f : SnFit n p}
    (h : snFit pr X y = .ok f) :
    ∃ f', snFit pr (fun I => X (r I)) (fun I => y (r I)) = .ok f' ∧
      f'.coef = f.coef ∧ f'.intercept = f.intercept ∧ f'.coefScaled = f.coefScaled ∧
      (∀ I, f'.fitted I = f.fitted (r I)) ∧ (∀ I, f'.residuals I = f.residuals (r I)) ∧
      f'.xLoc = f.xLoc ∧ f'.xSca = f.xSca ∧ f'.yLoc = f.yLoc ∧ f'.ySca = f.ySca ∧ colret f'.comps = colret f.comps ∧
      (∃ e : f'.comps.length = f.comps.length, ∀ a, (∀ j, f'.R j a = f.R j (Fin.cast e a)) ∧
        (∀ j, compW f'.comps j a = compW f.comps j (Fin.cast e a)) ∧ (∀ j, compP f'.comps j a = compP f.comps j (Fin.cast e a)) ∧
        ∀ I, compT f'.comps I a = compT f.comps (r I) (Fin.cast e a)) ∧
      ∀ {m q : ℕ} (Xn : Fin m → Fin q → ℝ), f'.predict Xn = f.predict Xn := by
  obtain ⟨hpar, e1, e2, e3, e4, hne, hl, hcf, hco, hint, hfit, hres⟩ := snFit_inv h
  have c1 := hr.centre hc X
  have c2 := hr.scale hs X
  have c3 : pr.centre.run (asCol fun I => y (r I)) = pr.centre.run (asCol y) := hr.centre hc (asCol y)
  have c4 : pr.scale.run (asCol fun I => y (r I)) = pr.scale.run (asCol y) := hr.scale hs (asCol y)
  have hl' := hr.snLoop pr.eta pr.nComponents (stdMat X f.xLoc f.xSca) (stdVec y f.yLoc f.ySca) ∅
  rw [hl, e1, e2, e3, e4, ← c1, ← c2, ← c3, ← c4] at hl'
  obtain ⟨f', hf', hfl⟩ := snFit_of_loop pr (fun I => X (r I)) (fun I => y (r I)) hpar.1 hpar.2.1 hpar.2.2
    (fun j => by rw [c2, ← e2]; exact hne j) (f.comps.map (repComp r)) hl'
  obtain ⟨_, e1', e2', e3', e4', _, _, hcf', hco', hint', hfit', hres'⟩ := snFit_inv hf'
  rw [c1, ← e1] at e1'
  rw [c2, ← e2] at e2'
  rw [c3, ← e3] at e3'
  rw [c4, ← e4] at e4'
  rw [e1', e2', e3', e4'] at hcf'
  have hB : f'.coefScaled = f.coefScaled ∧ ∃ e : f'.comps.length = f.comps.length, ∀ j a, f'.R j a = f.R j (Fin.cast e a) := by
    have aux : ∀ (l' : List (SnComp N p)) (R' : Matrix (Fin p) (Fin l'.length) ℝ) (B' : Fin p → ℝ), l' = f.comps.map (repComp r) →
        snCoef (fun I => stdMat X f.xLoc f.xSca (r I)) (fun I => stdVec y f.yLoc f.ySca (r I)) l' = .ok (R', B') →
        B' = f.coefScaled ∧ ∃ e : l'.length = f.comps.length, ∀ j a, R' j a = f.R j (Fin.cast e a) := by
      intro l' R' B' hl' hc'
      subst hl'
      obtain ⟨hB, hR⟩ := hr.snCoef _ _ _ hc' hcf
      exact ⟨hB, List.length_map _, hR⟩
    exact aux f'.comps f'.R f'.coefScaled hfl hcf'
  have hcoef : f'.coef = f.coef := by
    funext j
    rw [hco', hco, e4', e2', hB.1]
  have hi : f'.intercept = f.intercept := by
    rw [hint', hint, hcoef]
    exact hr.intercept pr.centre fun i => y i - lin X f.coef i
  have hft : ∀ I, f'.fitted I = f.fitted (r I) := by
    intro I
    rw [hfit', hfit, hcoef, hi]
    rfl
  refine ⟨f', hf', hcoef, hi, hB.1, hft, fun I => by rw [hres', hres, hft], e1', e2', e3', e4', ?_, ?_, ?_⟩
  · rw [hfl]
    simp [colret, List.getLast?_map, repComp, Option.map_map, Function.comp_def]
  · obtain ⟨e, hR⟩ := hB.2
    have aux : ∀ (l' : List (SnComp N p)), l' = f.comps.map (repComp r) → ∀ (e : l'.length = f.comps.length) a,
        (∀ j, compW l' j a = compW f.comps j (Fin.cast e a)) ∧ (∀ j, compP l' j a = compP f.comps j (Fin.cast e a)) ∧
        ∀ I, compT l' I a = compT f.comps (r I) (Fin.cast e a) := by
      intro l' hl' e a
      subst hl'
      exact ⟨fun j => by simp [compW, repComp], fun j => by simp [compP, repComp], fun I => by simp [compT, repComp]⟩
    exact ⟨e, fun a => ⟨fun j => hR j a, aux _ hfl e a⟩⟩
  · intro m q Xn
    unfold SnFit.predict
    rw [hcoef, hi]

/-- C165: and it can be fitted exactly if the model of the original data can. -/
theorem C165_snipls_iff {pr : SnParams} (hc : pr.centre = .mean ∨ pr.centre = .median ∨ pr.centre = .noneOpt)
    (hs : pr.scale = .std ∨ pr.scale = .mad ∨ pr.scale = .noneOpt) (hr : Repeats r k) (X : Fin n → Fin p → ℝ) (y : Fin n → ℝ) :
    (∃ f', snFit pr (fun I => X (r I)) (fun I => y (r I)) = .ok f') ↔ ∃ f, snFit pr X y = .ok f := by
  refine ⟨?_, fun ⟨f, hf⟩ => let ⟨f', hf', _⟩ := C165_snipls hc hs hr hf; ⟨f', hf'⟩⟩
  rintro ⟨f', hf'⟩
  obtain ⟨hpar, e1, e2, e3, e4, hne, hl, _⟩ := snFit_inv hf'
  rw [hr.centre hc X] at e1
  rw [hr.scale hs X] at e2
  rw [show pr.centre.run (asCol fun I => y (r I)) = pr.centre.run (asCol y) from hr.centre hc (asCol y)] at e3
  rw [show pr.scale.run (asCol fun I => y (r I)) = pr.scale.run (asCol y) from hr.scale hs (asCol y)] at e4
  have hl' := hr.snLoop pr.eta pr.nComponents (stdMat X f'.xLoc f'.xSca) (stdVec y f'.yLoc f'.ySca) ∅
  have hl2 : snLoop pr.eta pr.nComponents (fun I => stdMat X f'.xLoc f'.xSca (r I)) (fun I => stdVec y f'.yLoc f'.ySca (r I)) ∅ = .ok f'.comps := hl
  rw [hl2] at hl'
  cases hz : snLoop pr.eta pr.nComponents (stdMat X f'.xLoc f'.xSca) (stdVec y f'.yLoc f'.ySca) ∅ with
  | error e => rw [hz] at hl'; cases hl'
  | ok l =>
    rw [e1, e2, e3, e4] at hz
    obtain ⟨f, hf, _⟩ := snFit_of_loop pr X y hpar.1 hpar.2.1 hpar.2.2 (fun j => by rw [← e2]; exact hne j) l hz
    exact ⟨f, hf⟩

end Direpack
