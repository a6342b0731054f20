import Verif.Props.Replicate

/-! C165: entering every case several times, the statistics of `dicomo`. -/

namespace Direpack

open scoped BigOperators
open Spec

variable {N n p q : ℕ} {r : Fin N → Fin n} {k : ℕ}

lemma Spec.Repeats.pos (h : Repeats r k) (hn : 0 < n) : 0 < N := by rw [h.size]; exact Nat.mul_pos hn h.1

lemma Spec.Repeats.surj (h : Repeats r k) (i : Fin n) : ∃ I, r I = i := by
  have := h.card_filter i
  by_contra hcon
  push Not at hcon
  rw [Finset.filter_false_of_mem fun I _ => hcon I] at this
  have := h.1
  simp at *
  omega

lemma Spec.Repeats.avg (h : Repeats r k) (x : Fin n → ℝ) : Spec.avg (fun I => x (r I)) = Spec.avg x := by
  unfold Spec.avg
  rw [h.sumR, h.size]
  push_cast
  rw [mul_comm (n : ℝ), mul_div_mul_left _ _ h.k0]

/-! ### Product moments -/

lemma Spec.Repeats.cmom (h : Repeats r k) (x y : Fin n → ℝ) (a b : ℕ) : Spec.cmom (fun I => x (r I)) (fun I => y (r I)) a b = Spec.cmom x y a b := by
  unfold Spec.cmom
  rw [h.avg x, h.avg y]
  exact h.avg fun i => (x i - Spec.avg x) ^ a * (y i - Spec.avg y) ^ b

lemma Spec.Repeats.momMedian (h : Repeats r k) (x y : Fin n → ℝ) (a b order : ℕ) :
    Direpack.momMedian (fun I => x (r I)) (fun I => y (r I)) a b order = Direpack.momMedian x y a b order := by
  have e : (∀ I, x (r I) = y (r I)) ↔ ∀ i, x i = y i :=
    ⟨fun hh i => by obtain ⟨I, rfl⟩ := h.surj i; exact hh I, fun hh I => hh (r I)⟩
  unfold Direpack.momMedian
  rw [h.med x, h.med y, h.med fun i => (|x i - Direpack.med x| ^ a * |y i - Direpack.med y| ^ b) ^ ((1 : ℝ) / order),
    h.med fun i => (x i - Direpack.med x) ^ a * (y i - Direpack.med y) ^ b]
  by_cases hc : ∀ i, x i = y i
  · rw [if_pos hc, if_pos (e.2 hc)]
  · rw [if_neg hc, if_neg (fun hh => hc (e.1 hh))]

lemma Spec.Repeats.trimMom (h : Repeats r k) (c : Loc) (x y : Fin n → ℝ) (order option : ℕ) :
    Direpack.trimMom c (fun I => x (r I)) (fun I => y (r I)) order 0 option false = Direpack.trimMom c x y order 0 option false := by
  by_cases ho : 2 ≤ order
  · rw [trimMom_ge2 _ _ _ _ ho, trimMom_ge2 _ _ _ _ ho]
    cases c with
    | mean => simp only [momMean0, h.cmom, momFactor_false]
    | median => simp only [h.momMedian]
  · unfold Direpack.trimMom
    by_cases h0 : order = 0
    · rw [if_pos h0, if_pos h0]
    · have h1 : order = 1 := by omega
      simp only [if_neg h0, if_pos h1]
      cases c with
      | mean => simp only [meanT0, h.avg]
      | median => simp only [h.med]

/-- C165: every product statistic of `dicomo`, for both centres, without trimming and bias correction. -/
theorem C165_dicomo_arithmetic (hr : Repeats r k) (m : Mode) (c : Loc) (a : FitArgs) (ht : a.trimming = 0) (hb : a.biascorr = false) (x y : Fin n → ℝ) :
    run .arithmetic m c a (colMat fun I => x (r I)) (colMat fun I => y (r I)) = run .arithmetic m c a (colMat x) (colMat y) := by
  rcases Nat.eq_zero_or_pos n with hn | hn
  · have hN : N = 0 := by rw [hr.size, hn, zero_mul]
    rw [run_eq, run_eq]
    unfold Dicomo.compute
    have e1 : (colMat fun I => x (r I)).n = 0 := hN
    have e2 : (colMat x).n = 0 := hn
    simp only [if_pos e1, if_pos e2]
  · have hN := hr.pos hn
    rw [run_eq, run_eq]
    have e1 : ¬ (colMat fun I => x (r I)).n = 0 := hN.ne'
    have e2 : ¬ (colMat x).n = 0 := hn.ne'
    have g1 : getY N (some (colMat fun I => y (r I))) = .ok ⟨1, fun i _ => y (r i)⟩ := by
      unfold getY; simp [colMat, hN.ne']
    have g2 : getY n (some (colMat y)) = .ok ⟨1, fun i _ => y i⟩ := by
      unfold getY; simp [colMat, hn.ne']
    have f3 : ∀ {M : ℕ} (z : Fin M → ℝ), col0 (fun i (_ : Fin 1) => z i) = z := fun z => by funext i; simp [col0]
    have key : ∀ c inner order, arithStage m inner c order { a with y := some (colMat fun I => y (r I)) } (fun I (_ : Fin 1) => x (r I)) =
        arithStage m inner c order { a with y := some (colMat y) } (fun i (_ : Fin 1) => x i) := by
      intro c inner order
      unfold arithStage arithX arithXY standardizeMom
      simp only [f3 x, f3 y, f3 fun I => x (r I), f3 fun I => y (r I), ht, hb, Bool.false_eq_true, if_false, false_and, and_false, g1, g2, bind, Except.bind,
        hr.trimMom c x x, hr.trimMom c x y, hr.trimMom c y y]
    have key' : ∀ c inner order, arithStage m inner c order { a with y := some (colMat fun I => y (r I)) } (colMat fun I => x (r I)).e =
        arithStage m inner c order { a with y := some (colMat y) } (colMat x).e := key
    unfold Dicomo.compute
    simp only [if_neg e1, if_neg e2, key']
    rfl

/-! ### Distances -/

/-- Mean or median of a list. -/
noncomputable def locL (c : Loc) (l : List ℝ) : ℝ :=
  match c with
  | .mean => meanL l
  | .median => medL l

lemma meanL_repeat {k : ℕ} (hk : 0 < k) (l : List ℝ) : meanL (l.flatMap (List.replicate k)) = meanL l := by
  have h1 : (l.flatMap (List.replicate k)).length = l.length * k := by
    induction l with
    | nil => simp
    | cons a l ih => rw [List.flatMap_cons, List.length_append, ih, List.length_replicate, List.length_cons]; ring
  have h2 : (l.flatMap (List.replicate k)).sum = l.sum * k := by
    induction l with
    | nil => simp
    | cons a l ih => rw [List.flatMap_cons, List.sum_append, ih (by simp [mul_comm]), List.sum_replicate, List.sum_cons, nsmul_eq_mul]; ring
  have hk' : (k : ℝ) ≠ 0 := by exact_mod_cast hk.ne'
  unfold meanL
  rw [h1, h2]
  push_cast
  rw [mul_div_mul_right _ _ hk']

lemma locL_perm (c : Loc) {l l' : List ℝ} (h : l.Perm l') : locL c l = locL c l' := by
  cases c with
  | mean => unfold locL meanL; rw [h.sum_eq, h.length_eq]
  | median => exact medL_perm' h

lemma locL_repeat (c : Loc) {k : ℕ} (hk : 0 < k) (l : List ℝ) : locL c (l.flatMap (List.replicate k)) = locL c l := by
  cases c with
  | mean => exact meanL_repeat hk l
  | median => exact medL_repeat hk l

lemma count_repeat (k : ℕ) (l : List ℝ) (v : ℝ) : (l.flatMap (List.replicate k)).count v = k * l.count v := by
  induction l with
  | nil => rfl
  | cons a l ih =>
    rw [List.flatMap_cons, List.count_append, ih, List.count_replicate, List.count_cons]
    by_cases ha : a = v <;> simp [ha]; ring

lemma count_flat {M : ℕ} (a : Fin M → Fin M → ℝ) (v : ℝ) : (flat a).count v = ∑ i, ∑ j, if a i j = v then 1 else 0 := by
  unfold flat
  rw [List.count_flatMap]
  have e : ∀ i, List.count v ((List.finRange M).map fun j => a i j) = ∑ j, if a i j = v then 1 else 0 := by
    intro i
    rw [← List.ofFn_eq_map, count_ofFn]
  have e2 : (List.count v ∘ fun i => (List.finRange M).map fun j => a i j) = fun i => ∑ j, if a i j = v then 1 else 0 := funext e
  rw [e2, ← List.ofFn_eq_map, List.sum_ofFn]

lemma Spec.Repeats.loc (h : Repeats r k) (c : Loc) (x : Fin n → ℝ) : locL c (List.ofFn fun I => x (r I)) = locL c (List.ofFn x) := by
  rw [locL_perm c (h.perm x), locL_repeat c h.1]

lemma Spec.Repeats.flat (h : Repeats r k) (c : Loc) (a : Fin n → Fin n → ℝ) :
    locL c (Direpack.flat fun I J => a (r I) (r J)) = locL c (Direpack.flat a) := by
  have hp : (Direpack.flat fun I J => a (r I) (r J)).Perm ((Direpack.flat a).flatMap (List.replicate (k * k))) := by
    rw [List.perm_iff_count]
    intro v
    rw [count_repeat, count_flat, count_flat]
    have e : ∀ I, (∑ J, if a (r I) (r J) = v then 1 else 0) = k • ∑ j, if a (r I) j = v then 1 else 0 := fun I => h.sum fun j => if a (r I) j = v then 1 else 0
    simp only [e]
    rw [h.sum fun i => k • ∑ j, if a i j = v then 1 else 0, ← Finset.smul_sum]
    simp only [smul_eq_mul]
    ring
  rw [locL_perm c hp, locL_repeat c (Nat.mul_pos h.1 h.1)]

/-- Centring around rows, columns and all entries. -/
noncomputable def cenOf {M : ℕ} (c : Loc) (a : Fin M → Fin M → ℝ) : Fin M → Fin M → ℝ := fun i j =>
  a i j - locL c (List.ofFn fun j => a i j) - locL c (List.ofFn fun i => a i j) + locL c (flat a)

lemma doubleCenter_cen {M : ℕ} (c : Loc) (a : Fin M → Fin M → ℝ) : doubleCenter c 0 false a = .ok (cenOf c a, M) := by
  unfold doubleCenter cenOf
  cases c with
  | mean =>
    have e : ∀ l : List ℝ, meanT 0 l = .ok (meanL l) := fun l => by simp [meanT]
    simp only [e, seqE_ok, bind, Except.bind, Bool.false_eq_true, if_false, false_and]
    rfl
  | median =>
    simp only [Bool.false_eq_true, if_false, false_and]
    rfl

lemma Spec.Repeats.cen (h : Repeats r k) (c : Loc) (a : Fin n → Fin n → ℝ) :
    cenOf c (fun I J => a (r I) (r J)) = fun I J => cenOf c a (r I) (r J) := by
  funext I J
  unfold cenOf
  rw [h.flat c a, h.loc c fun j => a (r I) j, h.loc c fun i => a i (r J)]

lemma distanceMoment_val {M : ℕ} (same : Bool) (c : Loc) (n1 : ℝ) (order option : ℕ) (A B : Fin M → Fin M → ℝ) :
    distanceMoment same c 0 false n1 order option A B =
      if c = .mean ∧ order = 0 then .error .zeroDivision else
      .ok ((match c with
        | .mean => (-1 : ℝ) ^ order * |locL c (flat fun i j => (dmSquared same order option A B).1 i j * (dmSquared same order option A B).2 i j)| ^ ((1 : ℝ) / order)
        | .median => locL c (flat fun i j => (dmSquared same order option A B).1 i j * (dmSquared same order option A B).2 i j)),
        (dmSquared same order option A B).1, (dmSquared same order option A B).2) := by
  unfold distanceMoment
  cases c with
  | mean =>
    have e : ∀ l : List ℝ, meanT 0 l = .ok (meanL l) := fun l => by simp [meanT]
    simp only [e, bind, Except.bind, corr4bias, Bool.false_eq_true, if_false, mul_one, true_and]
    rfl
  | median => simp; rfl

lemma Spec.Repeats.distanceMoment (h : Repeats r k) (same : Bool) (c : Loc) (n1 n2 : ℝ) (order option : ℕ) (A B : Fin n → Fin n → ℝ) :
    Direpack.distanceMoment same c 0 false n1 order option (fun I J => A (r I) (r J)) (fun I J => B (r I) (r J)) =
      (Direpack.distanceMoment same c 0 false n2 order option A B).map
        fun q => (q.1, (fun I J => q.2.1 (r I) (r J)), fun I J => q.2.2 (r I) (r J)) := by
  have hs : ∀ (m : ℕ) (A : Fin n → Fin n → ℝ), sqIter m (fun I J => A (r I) (r J)) = fun I J => sqIter m A (r I) (r J) := by
    intro m
    induction m with
    | zero => intro A; rfl
    | succ m ih =>
      intro A
      change sqIter m (fun I J => A (r I) (r J) * A (r I) (r J)) = fun I J => sqIter m (fun i j => A i j * A i j) (r I) (r J)
      exact ih fun i j => A i j * A i j
  have hd : dmSquared same order option (fun I J => A (r I) (r J)) (fun I J => B (r I) (r J)) =
      ((fun I J => (dmSquared same order option A B).1 (r I) (r J)), fun I J => (dmSquared same order option A B).2 (r I) (r J)) := by
    unfold dmSquared
    split_ifs <;> simp only [hs]
  rw [distanceMoment_val, distanceMoment_val, hd]
  simp only [h.flat c fun i j => (dmSquared same order option A B).1 i j * (dmSquared same order option A B).2 i j]
  split_ifs <;> rfl

lemma edist_rep (r : Fin N → Fin n) (x : Fin n → Fin p → ℝ) : edist (fun I => x (r I)) = fun I J => edist x (r I) (r J) := rfl

lemma Spec.Repeats.naiveStage (h : Repeats r k) (hn : 0 < n) (m : Mode) (inner : Inner) (c : Loc) (order : ℕ) (a : FitArgs) (ht : a.trimming = 0) (hb : a.biascorr = false)
    (x : Fin n → Fin p → ℝ) (y : Fin n → Fin q → ℝ) :
    Direpack.naiveStage m inner c order { a with y := some (dmat fun I => y (r I)) } (fun I => x (r I)) =
      Direpack.naiveStage m inner c order { a with y := some (dmat y) } x := by
  have hD : ∀ same n1 order option A B, Direpack.distanceMoment same c 0 false n1 order option (fun I J => A (r I) (r J)) (fun I J => B (r I) (r J)) =
      (Direpack.distanceMoment same c 0 false n order option A B).map
        fun q => (q.1, (fun I J => q.2.1 (r I) (r J)), fun I J => q.2.2 (r I) (r J)) := fun same n1 order option A B => h.distanceMoment same c n1 n order option A B
  unfold Direpack.naiveStage
  simp only [getY_dmat hn, getY_dmat (h.pos hn), bind, Except.bind, distMatCentered, edist_rep, ht, hb, doubleCenter_cen, h.cen c (edist x), h.cen c (edist y), hD]
  set opt := if 2 < order then a.option else 0
  by_cases hi : inner = .com
  · simp only [hi, if_true]
    by_cases h1 : a.y1d = true
    · simp only [h1, if_true]
    simp only [h1]
    cases Direpack.distanceMoment false c 0 false n order opt (cenOf c (edist x)) (cenOf c (edist y)) with
    | error e => rfl
    | ok co =>
      simp only [Except.map, hD]
      cases Direpack.distanceMoment true c 0 false n 2 opt co.2.1 co.2.1 <;>
        cases Direpack.distanceMoment true c 0 false n 2 opt co.2.2 co.2.2 <;> rfl
  · simp only [hi, if_false]
    cases Direpack.distanceMoment true c 0 false n order opt (cenOf c (edist x)) (cenOf c (edist x)) with
    | error e => rfl
    | ok xr =>
      simp only [Except.map, hD]
      by_cases h1 : a.y1d = true
      · simp only [h1, if_true]
        cases Direpack.distanceMoment true c 0 false n 2 opt xr.2.1 xr.2.1 <;> rfl
      simp only [h1]
      cases Direpack.distanceMoment false c 0 false n order opt xr.2.1 (cenOf c (edist y)) with
      | error e => cases Direpack.distanceMoment true c 0 false n 2 opt xr.2.1 xr.2.1 <;> rfl
      | ok co =>
        simp only [Except.map, hD]
        cases Direpack.distanceMoment true c 0 false n 2 opt co.2.1 co.2.1 <;>
          cases Direpack.distanceMoment true c 0 false n 2 opt co.2.2 co.2.2 <;>
          cases Direpack.distanceMoment true c 0 false n order opt co.2.2 co.2.2 <;>
          cases Direpack.distanceMoment true c 0 false n 2 opt xr.2.1 xr.2.1 <;> rfl

lemma Spec.Repeats.sum2 (h : Repeats r k) (F : Fin n → Fin n → ℝ) : (∑ I, ∑ J, F (r I) (r J)) / (N : ℝ) ^ 2 = (∑ i, ∑ j, F i j) / (n : ℝ) ^ 2 := by
  have e : ∀ I, ∑ J, F (r I) (r J) = k * ∑ j, F (r I) j := fun I => h.sumR fun j => F (r I) j
  simp only [e]
  rw [h.sumR fun i => (k : ℝ) * ∑ j, F i j, ← Finset.mul_sum, h.size]
  push_cast
  rw [mul_pow, ← mul_assoc, ← sq, mul_comm ((n : ℝ) ^ 2), mul_div_mul_left _ _ (pow_ne_zero 2 h.k0)]

lemma Spec.Repeats.dcovSqr (h : Repeats r k) (x : Fin n → Fin p → ℝ) (y : Fin n → Fin q → ℝ) :
    Direpack.dcovSqr (fun I => x (r I)) (fun I => y (r I)) = Direpack.dcovSqr x y := by
  have e1 : ∀ F : Fin n → ℝ, (∑ I, F (r I)) / (N : ℝ) = (∑ i, F i) / n := fun F => h.avg F
  have hc : ∀ (a : Fin n → Fin n → ℝ) (I J : Fin N),
      a (r I) (r J) - (∑ K, a (r I) (r K)) / (N : ℝ) - (∑ K, a (r K) (r J)) / (N : ℝ) + (∑ K, ∑ L, a (r K) (r L)) / (N : ℝ) ^ 2 =
      a (r I) (r J) - (∑ k, a (r I) k) / n - (∑ k, a k (r J)) / n + (∑ k, ∑ l, a k l) / (n : ℝ) ^ 2 := by
    intro a I J
    rw [e1 fun k => a (r I) k, e1 fun k => a k (r J), h.sum2 a]
  unfold Direpack.dcovSqr
  simp only [edist_rep, hc]
  exact h.sum2 fun i j => (edist x i j - (∑ k, edist x i k) / n - (∑ k, edist x k j) / n + (∑ k, ∑ l, edist x k l) / (n : ℝ) ^ 2) *
    (edist y i j - (∑ k, edist y i k) / n - (∑ k, edist y k j) / n + (∑ k, ∑ l, edist y k l) / (n : ℝ) ^ 2)

lemma Spec.Repeats.divergence (h : Repeats r k) (hn : 0 < n) (c : Loc) (x : Fin n → Fin p → ℝ) (y : Fin n → ℝ) :
    differenceDivergence c 0 false (fun I => x (r I)) (fun I => y (r I)) = differenceDivergence c 0 false x y := by
  have e2 : ∀ {M : ℕ} (z : Fin M → ℝ), edist (fun i (_ : Fin 1) => z i) = fun i k => edist (fun i (_ : Fin 1) => z i) i k := fun z => rfl
  unfold differenceDivergence
  simp only [distMatCentered, edist_rep, doubleCenter_cen, bind, Except.bind, innerProd0 hn, innerProd0 (h.pos hn), h.cen c (edist x)]
  have e3 : cenOf c (fun I J => 1 / 2 * edist (fun I (_ : Fin 1) => y (r I)) I J ^ 2) =
      fun I J => cenOf c (fun i j => 1 / 2 * edist (fun i (_ : Fin 1) => y i) i j ^ 2) (r I) (r J) := h.cen c fun i j => 1 / 2 * edist (fun i (_ : Fin 1) => y i) i j ^ 2
  rw [e3, h.sum2 fun i j => cenOf c (edist x) i j * cenOf c (fun i j => 1 / 2 * edist (fun i (_ : Fin 1) => y i) i j ^ 2) i j]

/-- C165: every distance statistic of `dicomo`, by both algorithms and for both centres, without trimming and bias correction. -/
theorem C165_dicomo_distance (hr : Repeats r k) (hn : 0 < n) (m : Mode) (c : Loc) (a : FitArgs) (ht : a.trimming = 0) (hb : a.biascorr = false)
    (x : Fin n → Fin p → ℝ) (y : Fin n → Fin q → ℝ) :
    run .distance m c a (dmat fun I => x (r I)) (dmat fun I => y (r I)) = run .distance m c a (dmat x) (dmat y) := by
  have hm : ∀ inner c, mddStage inner c { a with y := some (dmat fun I => y (r I)) } (fun I => x (r I)) = mddStage inner c { a with y := some (dmat y) } x := by
    intro inner c
    unfold mddStage
    simp only [getY_dmat hn, getY_dmat (hr.pos hn), bind, Except.bind, ht, hb]
    have e : col0 (fun I => y (r I)) = fun I => col0 y (r I) := rfl
    rw [e, hr.divergence hn c x (col0 y)]
  have hf : ∀ inner, fastStage inner { a with y := some (dmat fun I => y (r I)) } (fun I => x (r I)) = fastStage inner { a with y := some (dmat y) } x := by
    intro inner
    unfold fastStage
    simp only [getY_dmat hn, getY_dmat (hr.pos hn), bind, Except.bind, hb, Bool.false_eq_true, if_false, hr.dcovSqr]
  rw [run_eq, run_eq, compute_distance_all hn m _ a, compute_distance_all (hr.pos hn) m _ a, hf, hr.naiveStage hn _ _ _ _ _ ht hb, hm]
  rfl

/-! ### Examples -/

/-- The cases one after the other, each `k` times. -/
lemma repeats_divNat (n k : ℕ) (hk : 0 < k) : Repeats (fun I : Fin (n * k) => I.divNat) k := by
  refine ⟨hk, fun i => ?_⟩
  rw [Nat.card_congr (β := Fin k)]
  · simp
  · exact
    { toFun := fun I => I.1.modNat
      invFun := fun j => ⟨finProdFinEquiv (i, j), by
        have := finProdFinEquiv.symm_apply_apply (i, j)
        rw [finProdFinEquiv_symm_apply] at this
        exact congrArg Prod.fst this⟩
      left_inv := fun ⟨I, hI⟩ => by
        apply Subtype.ext
        subst hI
        have := finProdFinEquiv.apply_symm_apply I
        rw [finProdFinEquiv_symm_apply] at this
        exact this
      right_inv := fun j => by
        have := finProdFinEquiv.symm_apply_apply (i, j)
        rw [finProdFinEquiv_symm_apply] at this
        exact congrArg Prod.snd this }

/-- The whole data set twice. -/
lemma repeats_two : Repeats (![0, 1, 0, 1] : Fin 4 → Fin 2) 2 := by
  refine ⟨by norm_num, fun i => ?_⟩
  rw [Nat.card_eq_fintype_card]
  fin_cases i <;> decide

lemma repeats_three : Repeats (![0, 1, 2, 0, 1, 2] : Fin 6 → Fin 3) 2 := by
  refine ⟨by norm_num, fun i => ?_⟩
  rw [Nat.card_eq_fintype_card]
  fin_cases i <;> decide

example (a : FitArgs) (ht : a.trimming = 0) (hb : a.biascorr = false) :
    run .arithmetic .var .mean a (colMat ![0, 1, 0, 1]) (colMat ![0, 1, 0, 1]) = .ok (1 / 4) := by
  have := C165_dicomo_arithmetic repeats_two .var .mean a ht hb ![0, 1] ![0, 1]
  have e : (fun I => (![0, 1] : Fin 2 → ℝ) ((![0, 1, 0, 1] : Fin 4 → Fin 2) I)) = ![0, 1, 0, 1] := by
    funext I; fin_cases I <;> rfl
  rw [e] at this
  rw [this, (C31_var_cov_uncorrected (by norm_num) a ht hb _ _).1]
  congr 1
  simp [Spec.avg, Fin.sum_univ_two]
  norm_num

/-- Non-vacuity of `C165_snipls`: the worked fit with every case entered twice has the same two components. -/
example : ∃ f f', snFit snPr snX snY = .ok f ∧ snFit snPr (fun I => snX ((I : Fin (2 * 2)).divNat)) (fun I => snY (I.divNat)) = .ok f' ∧
    f'.coef = f.coef ∧ f'.comps.length = 2 := by
  obtain ⟨f, hf, hc⟩ := snExFit
  obtain ⟨f', hf', h1, -, -, -, -, -, -, -, -, -, ⟨e, -⟩, -⟩ := C165_snipls (by simp [snPr]) (by simp [snPr]) (repeats_divNat 2 2 (by norm_num)) hf
  exact ⟨f, f', hf, hf', h1, by rw [e, hc]; rfl⟩

/-- C165 (violated with bias correction): the corrected variance of `0, 1` is `1/2`, that of `0, 1, 0, 1` is `1/3`. -/
theorem C165_biascorr_violated :
    ∃ (x : Fin 2 → ℝ) (r : Fin 4 → Fin 2), Repeats r 2 ∧
      run .arithmetic .var .mean { biascorr := true } (colMat x) (colMat x) = .ok (1 / 2) ∧
      run .arithmetic .var .mean { biascorr := true } (colMat fun I => x (r I)) (colMat fun I => x (r I)) = .ok (1 / 3) := by
  refine ⟨![0, 1], ![0, 1, 0, 1], repeats_two, ?_, ?_⟩
  · rw [(C31_var_cov_corrected (by norm_num) {} rfl ![0, 1] ![0, 1]).1, (C31_var_cov_uncorrected (by norm_num) _ rfl rfl _ _).1]
    simp only [Except.map]
    congr 1
    simp [Spec.avg, Fin.sum_univ_two]
    norm_num
  · rw [(C31_var_cov_corrected (by norm_num) {} rfl _ _).1, (C31_var_cov_uncorrected (by norm_num) _ rfl rfl _ _).1]
    simp only [Except.map]
    congr 1
    simp [Spec.avg, Fin.sum_univ_four]
    norm_num

end Direpack
