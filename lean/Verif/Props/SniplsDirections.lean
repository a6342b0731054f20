import Verif.Props.Snipls

/-! Property C149: what the directions of SNIPLS maximise. -/

namespace Direpack

open scoped BigOperators
open Matrix Spec

variable {n p : ℕ}

/-- Covariance (up to a factor) of the combination `v` of the variables with `r`, minus a penalty on the absolute values of the weights. -/
def Spec.penalisedCov (X : Fin n → Fin p → ℝ) (r : Fin n → ℝ) (pen : ℝ) (v : Fin p → ℝ) : ℝ := dot (lin X v) r - pen * ∑ j, |v j|

/-- `w` has a larger penalised covariance with `r` than any other direction that is not longer. -/
def Spec.IsBestDirection (X : Fin n → Fin p → ℝ) (r : Fin n → ℝ) (pen : ℝ) (w : Fin p → ℝ) : Prop :=
  ∀ v, ∑ j, v j ^ 2 ≤ ∑ j, w j ^ 2 → v ≠ w → penalisedCov X r pen v < penalisedCov X r pen w

/-- What the components `l` leave unexplained of `y`. -/
def Spec.unexplained (y : Fin n → ℝ) (l : List (SnComp n p)) : Fin n → ℝ := fun i => y i - (l.map fun a => a.c * a.t i).sum

/-- The weights of component `k` come from the covariances of the original variables with the unexplained part of the response. -/
lemma SnRun.direction {eta : ℝ} {X : Matrix (Fin n) (Fin p) ℝ} {y : Fin n → ℝ} {old : Finset (Fin p)} {l : List (SnComp n p)} (h : SnRun eta X y old l)
    (k : ℕ) (a : SnComp n p) (ha : l[k]? = some a) :
    ∃ prev, (k = 0 → prev = old) ∧ (∀ b, 0 < k → l[k - 1]? = some b → prev = b.good) ∧
      (¬ ∀ j, ∑ i, X i j * unexplained y (l.take k) i = 0) ∧
      a.good = prev ∪ Finset.univ.filter (fun j => 0 < (snWeights eta X (unexplained y (l.take k))).1 j) ∧
      a.w = fun j => if j ∈ a.good then (snWeights eta X (unexplained y (l.take k))).2 j else 0 := by
  induction h generalizing k with
  | stop => simp at ha
  | step X y old good w t c ld l hcov hg hne hw ht hnz hc hld hrun ih =>
    cases k with
    | zero =>
      simp only [List.getElem?_cons_zero, Option.some.injEq] at ha
      subst ha
      have hy : unexplained y ((⟨w, ld, c, t, good⟩ :: l : List (SnComp n p)).take 0) = y := by
        funext i; simp [unexplained]
      rw [hy]
      exact ⟨old, fun _ => rfl, fun b hb => absurd hb (lt_irrefl _), hcov, hg, hw⟩
    | succ k =>
      rw [List.getElem?_cons_succ] at ha
      obtain ⟨prev, h0, h1, h2, h3, h4⟩ := ih k ha
      have hr : unexplained y ((⟨w, ld, c, t, good⟩ :: l : List (SnComp n p)).take (k + 1)) = unexplained (y - c • t) (l.take k) := by
        funext i
        simp only [unexplained, List.take_succ_cons, List.map_cons, List.sum_cons, Pi.sub_apply, Pi.smul_apply, smul_eq_mul]
        ring
      rw [hr]
      have horth : t ⬝ᵥ unexplained (y - c • t) (l.take k) = 0 := by
        have hz : ∀ b ∈ l, t ⬝ᵥ b.t = 0 := hrun.orth_of t (defl_orth X t hnz)
        have e1 : t ⬝ᵥ (y - c • t) = 0 := by
          rw [dotProduct_sub, dotProduct_smul, smul_eq_mul, hc, div_mul_cancel₀ _ hnz, dotProduct_comm, sub_self]
        have e2 : ∀ m : List (SnComp n p), (∀ b ∈ m, t ⬝ᵥ b.t = 0) → t ⬝ᵥ (fun i => (m.map fun b => b.c * b.t i).sum) = 0 := by
          intro m
          induction m with
          | nil => intro _; simp [dotProduct]
          | cons b m ihm =>
            intro hb
            have e3 : (fun i => ((b :: m).map fun b => b.c * b.t i).sum) = b.c • b.t + fun i => (m.map fun b => b.c * b.t i).sum := by
              funext i; simp
            rw [e3, dotProduct_add, dotProduct_smul, hb b (by simp), ihm fun b' hb' => hb b' (by simp [hb']), smul_zero, add_zero]
        have e4 : unexplained (y - c • t) (l.take k) = (y - c • t) - fun i => ((l.take k).map fun b => b.c * b.t i).sum := rfl
        rw [e4, dotProduct_sub, e1, e2 _ fun b hb => hz b (List.mem_of_mem_take hb), sub_zero]
      have hX : ∀ j, ∑ i, (X - vecMulVec t (fun j => (t ᵥ* X) j / (t ⬝ᵥ t))) i j * unexplained (y - c • t) (l.take k) i =
          ∑ i, X i j * unexplained (y - c • t) (l.take k) i := by
        intro j
        have := congrFun (vecMul_defl (X := X) (u := unexplained (y - c • t) (l.take k)) (t := t) (q := fun j => (t ᵥ* X) j / (t ⬝ᵥ t))
          (by rw [dotProduct_comm]; exact horth)) j
        simp only [vecMul, dotProduct] at this
        simp only [mul_comm _ (unexplained _ _ _)]
        exact this
      have hsn : snWeights eta (X - vecMulVec t (fun j => (t ᵥ* X) j / (t ⬝ᵥ t))) (unexplained (y - c • t) (l.take k)) =
          snWeights eta X (unexplained (y - c • t) (l.take k)) := by
        unfold snWeights
        simp only [hX]
      rw [hsn] at h3 h4
      refine ⟨prev, fun h => absurd h (by omega), fun b _ hb => ?_, ?_, h3, h4⟩
      · cases k with
        | zero =>
          simp only [Nat.zero_add, Nat.sub_self, List.getElem?_cons_zero, Option.some.injEq] at hb
          rw [← hb, h0 rfl]
        | succ k =>
          simp only [Nat.add_sub_cancel, List.getElem?_cons_succ] at hb
          exact h1 b (by omega) (by simpa using hb)
      · intro hall
        exact h2 fun j => by rw [hX]; exact hall j

/-- Soft thresholding gives the best direction. -/
lemma soft_best (X : Fin n → Fin p → ℝ) (r : Fin n → ℝ) {pen : ℝ} (hpen : 0 ≤ pen) (w : Fin p → ℝ) {nrm : ℝ} (hn : 0 < nrm)
    (hsoft : ∀ j, (pen ≤ |dot (fun i => X i j) r| → nrm * w j = (|dot (fun i => X i j) r| - pen) * npSign (dot (fun i => X i j) r)) ∧
      (|dot (fun i => X i j) r| < pen → w j = 0)) : IsBestDirection X r pen w := by
  set s : Fin p → ℝ := fun j => dot (fun i => X i j) r with hs
  have hF : ∀ v, penalisedCov X r pen v = ∑ j, (s j * v j - pen * |v j|) := by
    intro v
    unfold penalisedCov
    rw [Finset.sum_sub_distrib, ← Finset.mul_sum]
    congr 1
    simp only [dot, lin, hs, Finset.sum_mul]
    rw [Finset.sum_comm]
    exact Finset.sum_congr rfl fun j _ => Finset.sum_congr rfl fun i _ => by ring
  have hw : ∀ j, s j * w j - pen * |w j| = nrm * w j ^ 2 := by
    intro j
    rcases le_or_gt pen |s j| with h | h
    · have e := (hsoft j).1 h
      change nrm * w j = (|s j| - pen) * npSign (s j) at e
      have hww : w j = (|s j| - pen) * npSign (s j) / nrm := by rw [← e]; field_simp
      rcases lt_trichotomy (s j) 0 with hneg | h0 | hpos
      · have h1 : npSign (s j) = -1 := by simp [npSign, hneg, hneg.le]
        rw [h1, abs_of_neg hneg] at e
        rw [abs_of_neg hneg] at h
        have h2 : w j ≤ 0 := by nlinarith
        rw [abs_of_nonpos h2, sq, ← mul_assoc, e]
        ring
      · have : w j = 0 := by rw [hww, h0]; simp [npSign]
        rw [this]; simp
      · have h1 : npSign (s j) = 1 := by simp [npSign, hpos]
        rw [h1, abs_of_pos hpos] at e
        rw [abs_of_pos hpos] at h
        have h2 : 0 ≤ w j := by nlinarith
        rw [abs_of_nonneg h2, sq, ← mul_assoc, e]
        ring
    · rw [(hsoft j).2 h]; simp
  have hv : ∀ (v : Fin p → ℝ) (j : Fin p), s j * v j - pen * |v j| ≤ nrm * (w j * v j) := by
    intro v j
    rcases le_or_gt pen |s j| with h | h
    · have e := (hsoft j).1 h
      change nrm * w j = (|s j| - pen) * npSign (s j) at e
      rw [← mul_assoc, e]
      rcases lt_trichotomy (s j) 0 with hneg | h0 | hpos
      · have h1 : npSign (s j) = -1 := by simp [npSign, hneg, hneg.le]
        rw [h1, abs_of_neg hneg]
        nlinarith [neg_abs_le (v j)]
      · rw [h0]; simp [npSign]; positivity
      · have h1 : npSign (s j) = 1 := by simp [npSign, hpos]
        rw [h1, abs_of_pos hpos]
        nlinarith [le_abs_self (v j)]
    · rw [(hsoft j).2 h]
      have h1 : s j * v j ≤ |s j| * |v j| := by rw [← abs_mul]; exact le_abs_self _
      nlinarith [abs_nonneg (v j)]
  intro v hlen hne
  rw [hF, hF]
  have h1 : ∑ j, (s j * v j - pen * |v j|) ≤ nrm * ∑ j, w j * v j := by
    rw [Finset.mul_sum]; exact Finset.sum_le_sum fun j _ => hv v j
  have h2 : ∑ j, (s j * w j - pen * |w j|) = nrm * ∑ j, w j ^ 2 := by
    rw [Finset.mul_sum]; exact Finset.sum_congr rfl fun j _ => hw j
  have h3 : 0 < ∑ j, (v j - w j) ^ 2 := by
    obtain ⟨j, hj⟩ := Function.ne_iff.mp hne
    refine Finset.sum_pos' (fun _ _ => sq_nonneg _) ⟨j, Finset.mem_univ j, ?_⟩
    have : v j - w j ≠ 0 := sub_ne_zero.mpr hj
    positivity
  have h4 : ∑ j, (v j - w j) ^ 2 = ∑ j, v j ^ 2 + ∑ j, w j ^ 2 - 2 * ∑ j, w j * v j := by
    rw [Finset.mul_sum, ← Finset.sum_add_distrib, ← Finset.sum_sub_distrib]
    exact Finset.sum_congr rfl fun j _ => by ring
  rw [h2]
  nlinarith

/-- The weights in terms of the covariances. -/
lemma snWeights_cov (eta : ℝ) (X : Fin n → Fin p → ℝ) (r : Fin n → ℝ) (hcov : ¬ ∀ j, ∑ i, X i j * r i = 0) :
    ∃ nrm : ℝ, 0 < nrm ∧ ∀ j, nrm * (snWeights eta X r).1 j = |dot (fun i => X i j) r| - eta * maxAbs (fun j => dot (fun i => X i j) r) ∧
      nrm * (snWeights eta X r).2 j =
        (|dot (fun i => X i j) r| - eta * maxAbs (fun j => dot (fun i => X i j) r)) * npSign (dot (fun i => X i j) r) := by
  set s : Fin p → ℝ := fun j => dot (fun i => X i j) r with hs
  have hpos : 0 < ∑ j, s j ^ 2 := by
    push Not at hcov
    obtain ⟨j, hj⟩ := hcov
    refine Finset.sum_pos' (fun _ _ => sq_nonneg _) ⟨j, Finset.mem_univ j, ?_⟩
    have : s j ≠ 0 := hj
    positivity
  have hn : 0 < Real.sqrt (∑ j, s j ^ 2) := Real.sqrt_pos.mpr hpos
  refine ⟨Real.sqrt (∑ j, s j ^ 2), hn, fun j => ?_⟩
  set N := Real.sqrt (∑ j, s j ^ 2) with hN
  have hM : maxAbs (fun j => s j / N) = maxAbs s / N := by
    obtain ⟨j0, h1, h2⟩ := maxAbs_attained s (by push Not at hcov; exact hcov)
    obtain ⟨j1, h3, h4⟩ := maxAbs_attained (fun j => s j / N) (by
      push Not at hcov
      obtain ⟨j, hj⟩ := hcov
      exact ⟨j, div_ne_zero hj hn.ne'⟩)
    apply le_antisymm
    · rw [← h3, abs_div, abs_of_pos hn]
      exact (div_le_div_iff_of_pos_right hn).mpr (abs_le_maxAbs s j1)
    · rw [← h1]
      have := abs_le_maxAbs (fun j => s j / N) j0
      rwa [abs_div, abs_of_pos hn] at this
  have hsg : ∀ x : ℝ, npSign (x / N) = npSign x := by
    intro x
    unfold npSign
    by_cases h1 : 0 < x
    · simp [h1, div_pos h1 hn]
    · have h1' : ¬ 0 < x / N := by rw [div_pos_iff]; push Not; exact ⟨fun h => absurd h h1, fun _ => hn.le⟩
      by_cases h2 : x < 0
      · simp [h1, h1', h2, div_neg_of_neg_of_pos h2 hn]
      · have : x = 0 := le_antisymm (not_lt.mp h1) (not_lt.mp h2)
        simp [this]
  have e1 : N * (snWeights eta X r).1 j = |s j| - eta * maxAbs s := by
    show N * (|s j / N| - eta * maxAbs fun j => s j / N) = _
    rw [hM, abs_div, abs_of_pos hn]
    field_simp
  refine ⟨e1, ?_⟩
  have e2 : (snWeights eta X r).2 j = (snWeights eta X r).1 j * npSign (s j / N) := rfl
  rw [e2, hsg, ← mul_assoc, e1]

/-- The largest absolute value. -/
lemma maxAbs_isGreatest {s : Fin p → ℝ} {M : ℝ} (hs : ∃ j, s j ≠ 0) (hM : IsGreatest (Set.range fun j => |s j|) M) : maxAbs s = M := by
  obtain ⟨j, h1, -⟩ := maxAbs_attained s hs
  obtain ⟨⟨j', h2⟩, h3⟩ := hM
  apply le_antisymm
  · rw [← h1]; exact h3 ⟨j, rfl⟩
  · rw [← h2]; exact abs_le_maxAbs s j'

/-- C149: the weights of component `k` are the best direction for the unexplained part of the response, with the penalty `eta` times the largest absolute covariance, if every
variable that was retained earlier still has a covariance of at least that size (or none at all); this is so for the first component and for `eta = 0`.  Missing: the other
components (`C149_dropped_violated`). -/
theorem C149_direction_partial {pr : SnParams} {X : Fin n → Fin p → ℝ} {y : Fin n → ℝ} {f : SnFit n p} (h : snFit pr X y = .ok f) (k : ℕ) (a : SnComp n p)
    (ha : f.comps[k]? = some a) (r : Fin n → ℝ) (hr : r = unexplained (stdVec y f.yLoc f.ySca) (f.comps.take k)) (M : ℝ)
    (hM : IsGreatest (Set.range fun j => |dot (fun i => stdMat X f.xLoc f.xSca i j) r|) M)
    (hk : ∀ b, 0 < k → f.comps[k - 1]? = some b → ∀ j ∈ b.good, pr.eta * M ≤ |dot (fun i => stdMat X f.xLoc f.xSca i j) r|) :
    IsBestDirection (stdMat X f.xLoc f.xSca) r (pr.eta * M) a.w := by
  obtain ⟨prev, h0, h1, h2, h3, h4⟩ := (snFit_run h).direction k a ha
  have hr' : unexplained (stdVec y f.yLoc f.ySca) (f.comps.take k) = r := hr.symm
  rw [hr'] at h2 h3 h4
  obtain ⟨nrm, hn, hsw⟩ := snWeights_cov pr.eta (stdMat X f.xLoc f.xSca) r h2
  have hMM : maxAbs (fun j => dot (fun i => stdMat X f.xLoc f.xSca i j) r) = M := maxAbs_isGreatest (by push Not at h2; exact h2) hM
  rw [hMM] at hsw
  have heta : 0 ≤ pr.eta := (snFit_inv h).1.1
  have hM0 : 0 ≤ M := by obtain ⟨⟨j, hj⟩, -⟩ := hM; rw [← hj]; exact abs_nonneg _
  refine soft_best _ r (by positivity) a.w hn fun j => ?_
  have hprev : j ∈ prev → pr.eta * M ≤ |dot (fun i => stdMat X f.xLoc f.xSca i j) r| := by
    intro hj
    rcases Nat.eq_zero_or_pos k with hk0 | hk0
    · rw [h0 hk0] at hj; simp at hj
    · obtain ⟨b, hb⟩ : ∃ b, f.comps[k - 1]? = some b := by
        have := (List.getElem?_eq_some_iff.mp ha).1
        exact ⟨_, List.getElem?_eq_getElem (by omega)⟩
      rw [h1 b hk0 hb] at hj
      exact hk b hk0 hb j hj
  have hmem : j ∈ a.good ↔ j ∈ prev ∨ pr.eta * M < |dot (fun i => stdMat X f.xLoc f.xSca i j) r| := by
    rw [h3, Finset.mem_union, Finset.mem_filter]
    have : 0 < (snWeights pr.eta (Matrix.of (stdMat X f.xLoc f.xSca)) r).1 j ↔ pr.eta * M < |dot (fun i => stdMat X f.xLoc f.xSca i j) r| := by
      rw [← sub_pos (a := |dot (fun i => stdMat X f.xLoc f.xSca i j) r|), ← (hsw j).1]
      exact (mul_pos_iff_of_pos_left hn).symm
    simp [this]
  have hwj : a.w j = if j ∈ a.good then (snWeights pr.eta (stdMat X f.xLoc f.xSca) r).2 j else 0 := congrFun h4 j
  constructor
  · intro hge
    by_cases hg : j ∈ a.good
    · rw [hwj, if_pos hg, (hsw j).2]
    · rw [hwj, if_neg hg]
      rw [hmem] at hg
      push Not at hg
      have : |dot (fun i => stdMat X f.xLoc f.xSca i j) r| = pr.eta * M := le_antisymm hg.2 hge
      rw [this]; simp
  · intro hlt
    rw [hwj, if_neg]
    rw [hmem]
    push Not
    exact ⟨fun hj => absurd (hprev hj) (not_le.mpr hlt), hlt.le⟩

/-- C149 for the first component. -/
theorem C149_first {pr : SnParams} {X : Fin n → Fin p → ℝ} {y : Fin n → ℝ} {f : SnFit n p} (h : snFit pr X y = .ok f) (a : SnComp n p)
    (ha : f.comps[0]? = some a) (M : ℝ) (hM : IsGreatest (Set.range fun j => |dot (fun i => stdMat X f.xLoc f.xSca i j) (stdVec y f.yLoc f.ySca)|) M) :
    IsBestDirection (stdMat X f.xLoc f.xSca) (stdVec y f.yLoc f.ySca) (pr.eta * M) a.w :=
  C149_direction_partial h 0 a ha _ (by funext i; simp [unexplained]) M hM fun _ h0 => absurd h0 (lt_irrefl _)

/-- C149 without sparsity: every direction is the one of largest covariance with the unexplained part of the response. -/
theorem C149_pls {pr : SnParams} {X : Fin n → Fin p → ℝ} {y : Fin n → ℝ} {f : SnFit n p} (h : snFit pr X y = .ok f) (he : pr.eta = 0) (k : ℕ) (a : SnComp n p)
    (ha : f.comps[k]? = some a) (v : Fin p → ℝ) (hv : ∑ j, v j ^ 2 ≤ ∑ j, a.w j ^ 2) (hne : v ≠ a.w) :
    dot (lin (stdMat X f.xLoc f.xSca) v) (unexplained (stdVec y f.yLoc f.ySca) (f.comps.take k)) <
      dot (lin (stdMat X f.xLoc f.xSca) a.w) (unexplained (stdVec y f.yLoc f.ySca) (f.comps.take k)) := by
  obtain ⟨prev, h0, h1, h2, h3, h4⟩ := (snFit_run h).direction k a ha
  obtain ⟨j, h5, -⟩ := maxAbs_attained (fun j => dot (fun i => stdMat X f.xLoc f.xSca i j) (unexplained (stdVec y f.yLoc f.ySca) (f.comps.take k)))
    (by push Not at h2; exact h2)
  have := C149_direction_partial h k a ha _ rfl _ ⟨⟨j, h5⟩, by rintro _ ⟨j', rfl⟩; exact abs_le_maxAbs (fun j => dot (fun i => stdMat X f.xLoc f.xSca i j) _) j'⟩
    (fun b _ _ j _ => by rw [he, zero_mul]; exact abs_nonneg _) v hv hne
  simpa [penalisedCov, he] using this

/-- C149 is violated by later components: a variable that was retained before and whose covariance (not zero) has fallen below the threshold gets a weight of the wrong sign, and the
direction without this variable is better. -/
theorem C149_dropped_violated {pr : SnParams} {X : Fin n → Fin p → ℝ} {y : Fin n → ℝ} {f : SnFit n p} (h : snFit pr X y = .ok f) (k : ℕ) (a b : SnComp n p)
    (hb : f.comps[k]? = some b) (ha : f.comps[k + 1]? = some a) (r : Fin n → ℝ) (hr : r = unexplained (stdVec y f.yLoc f.ySca) (f.comps.take (k + 1)))
    (M : ℝ) (hM : IsGreatest (Set.range fun j => |dot (fun i => stdMat X f.xLoc f.xSca i j) r|) M) (j : Fin p) (hj : j ∈ b.good)
    (hlt : |dot (fun i => stdMat X f.xLoc f.xSca i j) r| < pr.eta * M) (hne : dot (fun i => stdMat X f.xLoc f.xSca i j) r ≠ 0) :
    a.w j * dot (fun i => stdMat X f.xLoc f.xSca i j) r < 0 ∧ ¬ IsBestDirection (stdMat X f.xLoc f.xSca) r (pr.eta * M) a.w := by
  obtain ⟨prev, h0, h1, h2, h3, h4⟩ := (snFit_run h).direction (k + 1) a ha
  have hr' : unexplained (stdVec y f.yLoc f.ySca) (f.comps.take (k + 1)) = r := hr.symm
  rw [hr'] at h2 h3 h4
  obtain ⟨nrm, hn, hsw⟩ := snWeights_cov pr.eta (stdMat X f.xLoc f.xSca) r h2
  have hMM : maxAbs (fun j => dot (fun i => stdMat X f.xLoc f.xSca i j) r) = M := maxAbs_isGreatest (by push Not at h2; exact h2) hM
  rw [hMM] at hsw
  have heta : 0 ≤ pr.eta := (snFit_inv h).1.1
  have hM0 : 0 ≤ M := by obtain ⟨⟨j, hj⟩, -⟩ := hM; rw [← hj]; exact abs_nonneg _
  have hg : j ∈ a.good := by
    rw [h3, h1 b (by omega) (by simpa using hb)]
    exact Finset.mem_union_left _ hj
  have hwj : a.w j = (snWeights pr.eta (stdMat X f.xLoc f.xSca) r).2 j := by
    have := congrFun h4 j
    rw [if_pos hg] at this
    exact this
  have e := (hsw j).2
  rw [← hwj] at e
  set s := dot (fun i => stdMat X f.xLoc f.xSca i j) r with hs
  have hneg : a.w j * s < 0 := by
    have hsg : npSign s * s = |s| := by
      rcases lt_or_gt_of_ne hne with h | h
      · simp [npSign, h, h.le, abs_of_neg h]
      · simp [npSign, h, abs_of_pos h]
    have h5 : nrm * (a.w j * s) = (|s| - pr.eta * M) * |s| := by rw [← mul_assoc, e, mul_assoc, hsg]
    have h6 : 0 < |s| := abs_pos.mpr hne
    have h7 : (|s| - pr.eta * M) * |s| < 0 := mul_neg_of_neg_of_pos (by linarith) h6
    rw [← h5] at h7
    nlinarith
  refine ⟨hneg, fun hbest => ?_⟩
  have hw0 : a.w j ≠ 0 := by rintro h; rw [h] at hneg; simp at hneg
  have hlen : ∑ i, (Function.update a.w j 0) i ^ 2 ≤ ∑ i, a.w i ^ 2 := Finset.sum_le_sum fun i _ => by
    by_cases hi : i = j
    · subst hi; simp; positivity
    · simp [Function.update_of_ne hi]
  have hlt2 := hbest (Function.update a.w j 0) hlen (fun hh => hw0 (by have := congrFun hh j; simpa using this.symm))
  have hsplit : ∀ v : Fin p → ℝ, penalisedCov (stdMat X f.xLoc f.xSca) r (pr.eta * M) v =
      ∑ i, (dot (fun c => stdMat X f.xLoc f.xSca c i) r * v i - pr.eta * M * |v i|) := by
    intro v
    unfold penalisedCov
    rw [Finset.sum_sub_distrib, ← Finset.mul_sum]
    congr 1
    simp only [dot, lin, Finset.sum_mul]
    rw [Finset.sum_comm]
    exact Finset.sum_congr rfl fun j _ => Finset.sum_congr rfl fun i _ => by ring
  rw [hsplit, hsplit] at hlt2
  have hge : ∑ i, (dot (fun c => stdMat X f.xLoc f.xSca c i) r * a.w i - pr.eta * M * |a.w i|) ≤
      ∑ i, (dot (fun c => stdMat X f.xLoc f.xSca c i) r * Function.update a.w j 0 i - pr.eta * M * |Function.update a.w j 0 i|) :=
    Finset.sum_le_sum fun i _ => by
      by_cases hi : i = j
      · subst hi
        simp only [Function.update_self, mul_zero, abs_zero, sub_zero]
        have : 0 ≤ pr.eta * M * |a.w i| := by positivity
        have h8 : dot (fun c => stdMat X f.xLoc f.xSca c i) r * a.w i < 0 := by rw [mul_comm]; exact hneg
        linarith
      · simp [Function.update_of_ne hi]
  linarith

/-! ### Concrete data -/

/-- Two uncorrelated predictors. -/
def sdX : Fin 2 → Fin 2 → ℝ := ![![1, 0], ![0, 1]]

/-- Response for `sdX`. -/
def sdY : Fin 2 → ℝ := ![4, 3]

/-- Two components with `eta = 4/7`. -/
noncomputable def sdPr : SnParams := ⟨4 / 7, 2, .noneOpt, .noneOpt⟩

theorem sdLoop : snLoop (4 / 7) 2 sdX sdY ∅ = .ok
    [⟨![12 / 35, 1 / 7], ![420 / 169, 175 / 169], 2205 / 169, ![12 / 35, 1 / 7], {0, 1}⟩,
     ⟨![1 / 7, 36 / 91], ![-(455 / 367), 1092 / 367], 1456 / 367, ![-(1835 / 15379), 4404 / 15379], {0, 1}⟩] := by
  have hw1 : snWeights (4 / 7) sdX sdY = (![12 / 35, 1 / 7], ![12 / 35, 1 / 7]) := by
    have hs : ∀ j, ∑ i, sdX i j * sdY i = ![4, 3] j := by
      intro j; fin_cases j <;> simp [sdX, sdY, Fin.sum_univ_two]
    have hn : Real.sqrt (∑ j : Fin 2, (![4, 3] j : ℝ) ^ 2) = 5 := by
      rw [Fin.sum_univ_two, show ((![4, 3] : Fin 2 → ℝ) 0) ^ 2 + (![4, 3] : Fin 2 → ℝ) 1 ^ 2 = 5 ^ 2 by simp; norm_num]
      exact Real.sqrt_sq (by norm_num)
    have hm : maxAbs (fun j => (![4, 3] j : ℝ) / 5) = 4 / 5 := by
      rw [maxAbs_two]; norm_num [abs_of_pos, max_eq_left, max_eq_right]
    simp only [snWeights, hs, hn, hm]
    refine Prod.ext ?_ ?_ <;> funext j <;> fin_cases j <;> norm_num [abs_of_pos, npSign]
  have hw2 : snWeights (4 / 7) (![![25 / 169, -(60 / 169)], ![-(60 / 169), 144 / 169]] : Fin 2 → Fin 2 → ℝ) ![-(80 / 169), 192 / 169] =
      (![-(1 / 7), 36 / 91], ![1 / 7, 36 / 91]) := by
    have hs : ∀ j, ∑ i, (![![25 / 169, -(60 / 169)], ![-(60 / 169), 144 / 169]] : Fin 2 → Fin 2 → ℝ) i j * (![-(80 / 169), 192 / 169] : Fin 2 → ℝ) i =
        ![-(80 / 169), 192 / 169] j := by
      intro j; fin_cases j <;> simp [Fin.sum_univ_two] <;> norm_num
    have hn : Real.sqrt (∑ j : Fin 2, (![-(80 / 169), 192 / 169] j : ℝ) ^ 2) = 16 / 13 := by
      rw [Fin.sum_univ_two, show ((![-(80 / 169), 192 / 169] : Fin 2 → ℝ) 0) ^ 2 + (![-(80 / 169), 192 / 169] : Fin 2 → ℝ) 1 ^ 2 = (16 / 13) ^ 2 by
        simp; norm_num]
      exact Real.sqrt_sq (by norm_num)
    have hm : maxAbs (fun j => (![-(80 / 169), 192 / 169] j : ℝ) / (16 / 13)) = 12 / 13 := by
      rw [maxAbs_two]; norm_num [abs_of_pos, abs_of_neg, max_eq_left, max_eq_right]
    simp only [snWeights, hs, hn, hm]
    refine Prod.ext ?_ ?_ <;> funext j <;> fin_cases j <;> norm_num [abs_of_pos, abs_of_neg, npSign]
  have h2 := snLoop_step (eta := 4 / 7) (h := 0) (X := ![![25 / 169, -(60 / 169)], ![-(60 / 169), 144 / 169]]) (y := ![-(80 / 169), 192 / 169]) (old := {0, 1})
    (good := {0, 1}) (w := ![1 / 7, 36 / 91]) (t := ![-(1835 / 15379), 4404 / 15379]) (q := 134689 / 1399489) (c := 1456 / 367)
    (ph := ![-(455 / 367), 1092 / 367]) (l := []) (X' := fun _ _ => 0) (y' := fun _ => 0)
    (by intro h; have := h 1; simp [Fin.sum_univ_two] at this; norm_num at this) hw2
    (by ext j; fin_cases j <;> simp) (by simp)
    (by funext j; fin_cases j <;> simp)
    (by funext i; fin_cases i <;> simp [Fin.sum_univ_two] <;> norm_num)
    (by simp [Fin.sum_univ_two]; norm_num) (by norm_num) (by simp [Fin.sum_univ_two]; norm_num)
    (by funext j; fin_cases j <;> simp [Fin.sum_univ_two] <;> norm_num)
    (by funext i j; fin_cases i <;> fin_cases j <;> simp <;> norm_num)
    (by funext i; fin_cases i <;> simp <;> norm_num) rfl
  have h1 := snLoop_step (eta := 4 / 7) (h := 1) (X := sdX) (y := sdY) (old := ∅)
    (good := {0, 1}) (w := ![12 / 35, 1 / 7]) (t := ![12 / 35, 1 / 7]) (q := 169 / 1225) (c := 2205 / 169) (ph := ![420 / 169, 175 / 169])
    (X' := ![![25 / 169, -(60 / 169)], ![-(60 / 169), 144 / 169]]) (y' := ![-(80 / 169), 192 / 169])
    (by intro h; have := h 0; simp [sdX, sdY, Fin.sum_univ_two] at this) hw1
    (by ext j; fin_cases j <;> simp) (by simp)
    (by funext j; fin_cases j <;> simp)
    (by funext i; fin_cases i <;> simp [sdX, Fin.sum_univ_two])
    (by simp [Fin.sum_univ_two]; norm_num) (by norm_num) (by simp [sdY, Fin.sum_univ_two]; norm_num)
    (by funext j; fin_cases j <;> simp [sdX, Fin.sum_univ_two] <;> norm_num)
    (by funext i j; fin_cases i <;> fin_cases j <;> simp [sdX] <;> norm_num)
    (by funext i; fin_cases i <;> simp [sdY] <;> norm_num) h2
  rw [h1]
  simp only [Except.ok.injEq, List.cons.injEq, SnComp.mk.injEq, true_and, and_true]
  constructor <;> funext j <;> fin_cases j <;> simp

theorem sdFit_ex : ∃ f, snFit sdPr sdX sdY = .ok f ∧ stdMat sdX f.xLoc f.xSca = sdX ∧ stdVec sdY f.yLoc f.ySca = sdY ∧ f.comps =
    [⟨![12 / 35, 1 / 7], ![420 / 169, 175 / 169], 2205 / 169, ![12 / 35, 1 / 7], {0, 1}⟩,
     ⟨![1 / 7, 36 / 91], ![-(455 / 367), 1092 / 367], 1456 / 367, ![-(1835 / 15379), 4404 / 15379], {0, 1}⟩] := by
  have e1 : stdMat sdX (sdPr.centre.run sdX) (sdPr.scale.run sdX) = sdX := by
    funext i j; simp [stdMat, std1, sdPr, Centre.run, ScaleOpt.run]
  have e2 : stdVec sdY (sdPr.centre.run (asCol sdY) 0) (sdPr.scale.run (asCol sdY) 0) = sdY := by
    funext i; simp [stdVec, std1, sdPr, Centre.run, ScaleOpt.run]
  obtain ⟨f, hf, hc⟩ := snFit_of_loop sdPr sdX sdY (by norm_num [sdPr]) (by norm_num [sdPr]) (by simp [sdPr])
    (fun j => by simp [sdPr, ScaleOpt.run]) _ (by rw [e1, e2]; exact sdLoop)
  obtain ⟨_, g1, g2, g3, g4, _⟩ := snFit_inv hf
  exact ⟨f, hf, by rw [g1, g2]; exact e1, by rw [g3, g4]; exact e2, hc⟩

/-- The hypotheses of `C149_dropped_violated` are met: on these data the second component gives the first predictor a positive weight although its covariance with what is left of
the response is negative. -/
example : ∃ f a b, snFit sdPr sdX sdY = .ok f ∧ f.comps[0]? = some b ∧ f.comps[1]? = some a ∧
    ∃ r, r = unexplained (stdVec sdY f.yLoc f.ySca) (f.comps.take 1) ∧ IsGreatest (Set.range fun j => |dot (fun i => stdMat sdX f.xLoc f.xSca i j) r|) (192 / 169) ∧
      (0 : Fin 2) ∈ b.good ∧ |dot (fun i => stdMat sdX f.xLoc f.xSca i 0) r| < sdPr.eta * (192 / 169) ∧ dot (fun i => stdMat sdX f.xLoc f.xSca i 0) r ≠ 0 := by
  obtain ⟨f, hf, hX, hY, hc⟩ := sdFit_ex
  have hr : unexplained sdY (f.comps.take 1) = ![-(80 / 169), 192 / 169] := by
    rw [hc]; funext i; fin_cases i <;> simp [unexplained, sdY] <;> norm_num
  have hd : ∀ j, dot (fun i => sdX i j) ![-(80 / 169), 192 / 169] = ![-(80 / 169), 192 / 169] j := by
    intro j; fin_cases j <;> simp [dot, sdX, Fin.sum_univ_two]
  refine ⟨f, _, _, hf, by rw [hc]; rfl, by rw [hc]; rfl, ![-(80 / 169), 192 / 169], by rw [hY, hr], ?_, by simp, ?_, ?_⟩
  · rw [hX]
    simp only [hd]
    refine ⟨⟨1, by norm_num [abs_of_pos]⟩, ?_⟩
    rintro _ ⟨j, rfl⟩
    fin_cases j <;> norm_num [abs_of_pos, abs_of_neg]
  · rw [hX, hd]; norm_num [abs_of_neg, sdPr]
  · rw [hX, hd]; norm_num

/-- The hypotheses of `C149_first` are met. -/
example : ∃ f a, snFit sdPr sdX sdY = .ok f ∧ f.comps[0]? = some a ∧
    IsBestDirection (stdMat sdX f.xLoc f.xSca) (stdVec sdY f.yLoc f.ySca) (sdPr.eta * 4) a.w := by
  obtain ⟨f, hf, hX, hY, hc⟩ := sdFit_ex
  refine ⟨f, _, hf, by rw [hc]; rfl, C149_first hf _ (by rw [hc]; rfl) 4 ?_⟩
  have hd : ∀ j, dot (fun i => sdX i j) sdY = ![4, 3] j := by
    intro j; fin_cases j <;> simp [dot, sdX, sdY, Fin.sum_univ_two]
  rw [hX, hY]
  simp only [hd]
  refine ⟨⟨0, by norm_num⟩, ?_⟩
  rintro _ ⟨j, rfl⟩
  fin_cases j <;> norm_num

/-- Two components without sparsity (ordinary partial least squares). -/
theorem sdLoop_pls : snLoop 0 2 (![![2, 0], ![0, 1]] : Fin 2 → Fin 2 → ℝ) ![2, 3] ∅ = .ok
    [⟨![4 / 5, 3 / 5], ![80 / 73, 15 / 73], 125 / 73, ![8 / 5, 3 / 5], {0, 1}⟩,
     ⟨![-(3 / 5), 4 / 5], ![-(3 / 5), 4 / 5], 9 / 5, ![-(30 / 73), 80 / 73], {0, 1}⟩] := by
  have hw1 : snWeights 0 (![![2, 0], ![0, 1]] : Fin 2 → Fin 2 → ℝ) ![2, 3] = (![4 / 5, 3 / 5], ![4 / 5, 3 / 5]) := by
    have hs : ∀ j, ∑ i, (![![2, 0], ![0, 1]] : Fin 2 → Fin 2 → ℝ) i j * (![2, 3] : Fin 2 → ℝ) i = ![4, 3] j := by
      intro j; fin_cases j <;> simp [Fin.sum_univ_two]; norm_num
    have hn : Real.sqrt (∑ j : Fin 2, (![4, 3] j : ℝ) ^ 2) = 5 := by
      rw [Fin.sum_univ_two, show ((![4, 3] : Fin 2 → ℝ) 0) ^ 2 + (![4, 3] : Fin 2 → ℝ) 1 ^ 2 = 5 ^ 2 by simp; norm_num]
      exact Real.sqrt_sq (by norm_num)
    simp only [snWeights, hs, hn]
    refine Prod.ext ?_ ?_ <;> funext j <;> fin_cases j <;> norm_num [abs_of_pos, npSign]
  have hw2 : snWeights 0 (![![18 / 73, -(24 / 73)], ![-(48 / 73), 64 / 73]] : Fin 2 → Fin 2 → ℝ) ![-(54 / 73), 144 / 73] =
      (![3 / 5, 4 / 5], ![-(3 / 5), 4 / 5]) := by
    have hs : ∀ j, ∑ i, (![![18 / 73, -(24 / 73)], ![-(48 / 73), 64 / 73]] : Fin 2 → Fin 2 → ℝ) i j * (![-(54 / 73), 144 / 73] : Fin 2 → ℝ) i =
        ![-(108 / 73), 144 / 73] j := by
      intro j; fin_cases j <;> simp [Fin.sum_univ_two] <;> norm_num
    have hn : Real.sqrt (∑ j : Fin 2, (![-(108 / 73), 144 / 73] j : ℝ) ^ 2) = 180 / 73 := by
      rw [Fin.sum_univ_two, show ((![-(108 / 73), 144 / 73] : Fin 2 → ℝ) 0) ^ 2 + (![-(108 / 73), 144 / 73] : Fin 2 → ℝ) 1 ^ 2 = (180 / 73) ^ 2 by
        simp; norm_num]
      exact Real.sqrt_sq (by norm_num)
    simp only [snWeights, hs, hn]
    refine Prod.ext ?_ ?_ <;> funext j <;> fin_cases j <;> norm_num [abs_of_pos, abs_of_neg, npSign]
  have h2 := snLoop_step (eta := 0) (h := 0) (X := ![![18 / 73, -(24 / 73)], ![-(48 / 73), 64 / 73]]) (y := ![-(54 / 73), 144 / 73]) (old := {0, 1})
    (good := {0, 1}) (w := ![-(3 / 5), 4 / 5]) (t := ![-(30 / 73), 80 / 73]) (q := 100 / 73) (c := 9 / 5)
    (ph := ![-(3 / 5), 4 / 5]) (l := []) (X' := fun _ _ => 0) (y' := fun _ => 0)
    (by intro h; have := h 1; simp [Fin.sum_univ_two] at this; norm_num at this) hw2
    (by ext j; fin_cases j <;> simp) (by simp)
    (by funext j; fin_cases j <;> simp)
    (by funext i; fin_cases i <;> simp [Fin.sum_univ_two] <;> norm_num)
    (by simp [Fin.sum_univ_two]; norm_num) (by norm_num) (by simp [Fin.sum_univ_two]; norm_num)
    (by funext j; fin_cases j <;> simp [Fin.sum_univ_two] <;> norm_num)
    (by funext i j; fin_cases i <;> fin_cases j <;> simp <;> norm_num)
    (by funext i; fin_cases i <;> simp <;> norm_num) rfl
  have h1 := snLoop_step (eta := 0) (h := 1) (X := (![![2, 0], ![0, 1]] : Fin 2 → Fin 2 → ℝ)) (y := ![2, 3]) (old := ∅)
    (good := {0, 1}) (w := ![4 / 5, 3 / 5]) (t := ![8 / 5, 3 / 5]) (q := 73 / 25) (c := 125 / 73) (ph := ![80 / 73, 15 / 73])
    (X' := ![![18 / 73, -(24 / 73)], ![-(48 / 73), 64 / 73]]) (y' := ![-(54 / 73), 144 / 73])
    (by intro h; have := h 0; simp [Fin.sum_univ_two] at this) hw1
    (by ext j; fin_cases j <;> simp) (by simp)
    (by funext j; fin_cases j <;> simp)
    (by funext i; fin_cases i <;> simp [Fin.sum_univ_two]; norm_num)
    (by simp [Fin.sum_univ_two]; norm_num) (by norm_num) (by simp [Fin.sum_univ_two]; norm_num)
    (by funext j; fin_cases j <;> simp [Fin.sum_univ_two] <;> norm_num)
    (by funext i j; fin_cases i <;> fin_cases j <;> simp <;> norm_num)
    (by funext i; fin_cases i <;> simp <;> norm_num) h2
  rw [h1]
  simp only [Except.ok.injEq, List.cons.injEq, SnComp.mk.injEq, true_and, and_true]
  constructor <;> funext j <;> fin_cases j <;> simp

/-- The hypotheses of `C149_pls` are met for a second component. -/
example : ∃ (f : SnFit 2 2) (a : SnComp 2 2), snFit ⟨0, 2, .noneOpt, .noneOpt⟩ (![![2, 0], ![0, 1]] : Fin 2 → Fin 2 → ℝ) ![2, 3] = .ok f ∧ f.comps[1]? = some a ∧
    a.w = (![-(3 / 5), 4 / 5] : Fin 2 → ℝ) := by
  obtain ⟨f, hf, hc⟩ := snFit_of_loop ⟨0, 2, .noneOpt, .noneOpt⟩ (![![2, 0], ![0, 1]] : Fin 2 → Fin 2 → ℝ) ![2, 3] (by norm_num) (by norm_num) (by simp)
    (fun j => by simp [ScaleOpt.run]) _ (by
      have e1 : stdMat (![![2, 0], ![0, 1]] : Fin 2 → Fin 2 → ℝ) (Centre.noneOpt.run ![![2, 0], ![0, 1]]) (ScaleOpt.noneOpt.run ![![2, 0], ![0, 1]]) =
          ![![2, 0], ![0, 1]] := by
        funext i j; simp [stdMat, std1, Centre.run, ScaleOpt.run]
      have e2 : stdVec (![2, 3] : Fin 2 → ℝ) (Centre.noneOpt.run (asCol ![2, 3]) 0) (ScaleOpt.noneOpt.run (asCol ![2, 3]) 0) = ![2, 3] := by
        funext i; simp [stdVec, std1, Centre.run, ScaleOpt.run]
      rw [e1, e2]; exact sdLoop_pls)
  exact ⟨f, _, hf, by rw [hc]; rfl, rfl⟩

end Direpack
