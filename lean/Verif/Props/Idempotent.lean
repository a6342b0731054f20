import Mathlib.Tactic.Linarith
import Mathlib.Tactic.FieldSimp
import Verif.Props.Scaler
import Verif.Props.SpatialMedian

/-! Property C168: standardising standardised data changes nothing. -/

namespace Direpack

open scoped BigOperators
open Spec

section
variable {K : Type} [Field K] [LinearOrder K] [IsStrictOrderedRing K] [FloorSemiring K]

/-- The column estimator behind a location option that works column by column, `'None'` included. -/
def locColN (c : LocOpt K) (t : K) : List K → Except Err K :=
  match c with
  | .mean => meanT t
  | .median => fun l => .ok (medL l)
  | _ => fun _ => .ok 0

/-- The column estimator behind a scale option that works column by column, `'None'` included. -/
def scaColN (s : ScaOpt K) (sq : K → K) (t : K) : List K → Except Err K :=
  match s with
  | .std => stdT sq t
  | .mad => fun l => .ok (madL l)
  | _ => fun _ => .ok 1

/-- Unfolding of `fit` for the column-wise estimators and `'None'` on a matrix. -/
lemma fit_matrixN (c : LocOpt K) (s : ScaOpt K) (sq : K → K) (t : K) (x : NDArray K) {n p : ℕ}
    (hs : x.shape = [n, p]) (hn : n ≠ 1 ∨ p < 2) (hc : ∀ f, c ≠ .other f) (hsc : ∀ f, s ≠ .other f) :
    Scaler.fit c s sq t x = (do
      checkTrimming t
      let m ← mapE (fun j => locColN c t (x.col n p j)) (List.range p)
      let v ← mapE (fun j => scaColN s sq t (x.col n p j)) (List.range p)
      .ok ⟨m, v⟩) := by
  have h0 : mapE (fun _ => (.ok 0 : Except Err K)) (List.range p) = .ok (List.replicate p 0) := by
    rw [mapE_oks]; simp [List.map_const']
  have h1 : mapE (fun _ => (.ok 1 : Except Err K)) (List.range p) = .ok (List.replicate p 1) := by
    rw [mapE_oks]; simp [List.map_const']
  unfold Scaler.fit
  rw [checkInput_matrix x hs hn]
  simp only [bind, Except.bind, hs]
  cases c with
  | other f => exact absurd rfl (hc f)
  | mean => cases s with
    | other f => exact absurd rfl (hsc f)
    | std => rfl
    | mad => rfl
    | noneOpt => simp only [LocOpt.run, ScaOpt.run, locColN, scaColN, h1]
  | median => cases s with
    | other f => exact absurd rfl (hsc f)
    | std => rfl
    | mad => rfl
    | noneOpt => simp only [LocOpt.run, ScaOpt.run, locColN, scaColN, h1]
  | noneOpt => cases s with
    | other f => exact absurd rfl (hsc f)
    | std => simp only [LocOpt.run, ScaOpt.run, locColN, scaColN, h0]
    | mad => simp only [LocOpt.run, ScaOpt.run, locColN, scaColN, h0]
    | noneOpt => simp only [LocOpt.run, ScaOpt.run, locColN, scaColN, h0, h1]

lemma locColN_standardised (c : LocOpt K) (t a m : K) {l : List K} (hl : l ≠ []) (h : locColN c t l = .ok m) :
    locColN c t (l.map fun x => 1 / a * x + -m / a) = .ok 0 := by
  have hz : 1 / a * m + -m / a = 0 := by ring
  cases c with
  | mean =>
    have := locCol_affine (.mean : LocOpt K) t (1 / a) (-m / a) hl
    simp only [locCol] at this
    simp only [locColN] at h ⊢
    rw [this, h]; simp only [Except.map, hz]
  | median =>
    have := locCol_affine (.median : LocOpt K) t (1 / a) (-m / a) hl
    simp only [locCol] at this
    simp only [locColN] at h ⊢
    rw [this, h]; simp only [Except.map, hz]
  | noneOpt => rfl
  | other f => rfl

lemma scaColN_standardised (s : ScaOpt K) {sq : K → K} (hsq : IsSqrt sq) (t v b : K) {l : List K} (hl : l ≠ []) (h : scaColN s sq t l = .ok v) :
    scaColN s sq t (l.map fun x => 1 / (if v = 0 then 1 else v) * x + b) = .ok (if v = 0 then 0 else 1) := by
  have key : ∀ s' : ScaOpt K, scaCol s' sq t l = .ok v → scaCol s' sq t (l.map fun x => 1 / (if v = 0 then 1 else v) * x + b) = .ok (if v = 0 then 0 else 1) := by
    intro s' h'
    rw [scaCol_affine s' hsq t _ _ hl, h']
    simp only [Except.map, Except.ok.injEq]
    split_ifs with h0
    · rw [h0, mul_zero]
    · have hpos : 0 < v := lt_of_le_of_ne (scaCol_nonneg s' hsq t hl _ h') (Ne.symm h0)
      rw [abs_of_pos (by positivity)]
      field_simp
  cases s with
  | std => exact key .std h
  | mad => exact key .mad h
  | noneOpt => simp only [scaColN, Except.ok.injEq] at h ⊢; subst h; simp
  | other f => simp only [scaColN, Except.ok.injEq] at h ⊢; subst h; simp

/-- The standardised data have location 0 and scale 1, or 0 where the scale was 0. -/
lemma standardised_named (c : LocOpt K) (s : ScaOpt K) (sq : K → K) (hsq : IsSqrt sq) (t : K)
    (hc : ∀ f, c ≠ .other f) (hsc : ∀ f, s ≠ .other f)
    (x : NDArray K) (n p : ℕ) (hs : x.shape = [n, p]) (hwf : x.Wf) (hn : 2 ≤ n) (hp : 1 ≤ p)
    (sc : Scaler K) (hfit : Scaler.fit c s sq t x = .ok sc) :
    sc.scale.length = p ∧ ∃ z, sc.transform x = .ok z ∧ z.shape = [n, p] ∧ z.Wf ∧
      Scaler.fit c s sq t z = .ok ⟨List.replicate p 0, sc.scale.map (fun v => if v = 0 then 0 else 1)⟩ := by
  have hn1 : n ≠ 1 ∨ p < 2 := Or.inl (by omega)
  have hxlen : x.data.length = n * p := by
    have := hwf; unfold NDArray.Wf at this; rw [this, hs]; simp
  rw [fit_matrixN c s sq t x hs hn1 hc hsc] at hfit
  cases htr : checkTrimming t with
  | error e => simp [htr, bind, Except.bind] at hfit
  | ok u =>
  cases hm : mapE (fun j => locColN c t (x.col n p j)) (List.range p) with
  | error e => simp [htr, hm, bind, Except.bind] at hfit
  | ok m =>
  cases hv : mapE (fun j => scaColN s sq t (x.col n p j)) (List.range p) with
  | error e => simp [htr, hm, hv, bind, Except.bind] at hfit
  | ok v =>
  simp only [htr, hm, hv, bind, Except.bind, Except.ok.injEq] at hfit
  obtain ⟨hm1, hm2⟩ := mapE_inv _ _ _ hm
  obtain ⟨hv1, hv2⟩ := mapE_inv _ _ _ hv
  rw [List.length_range] at hm1 hv1
  have hcl : sc.center.length = p := by rw [← hfit]; exact hm1
  have hsl : sc.scale.length = p := by rw [← hfit]; exact hv1
  refine ⟨hsl, ?_⟩
  obtain ⟨z, hz1, hz2, hz3⟩ := transform_matrix sc x hs hn1 hp hcl hsl
  refine ⟨z, hz1, hz2, ?_, ?_⟩
  · unfold NDArray.Wf; rw [hz3, hz2]; simp [hxlen]
  rw [fit_matrixN c s sq t z hz2 hn1 hc hsc]
  have hcol : ∀ j, j < p → z.col n p j = (x.col n p j).map (fun a =>
      (1 / (if v.getD j 0 = 0 then 1 else v.getD j 0)) * a +
        (-(m.getD j 0) / (if v.getD j 0 = 0 then 1 else v.getD j 0))) := by
    intro j hj
    have hzz : z = NDArray.mk z.shape (x.data.zipIdx.map fun a =>
        (fun k b => (b - m.getD k 0) / (if v.getD k 0 = 0 then 1 else v.getD k 0)) (a.2 % p) a.1) := by
      cases z with
      | mk sh d =>
        simp only at hz3
        rw [hz3, ← hfit]
    rw [hzz, zipIdx_map_col (fun k b => (b - m.getD k 0) / (if v.getD k 0 = 0 then 1 else v.getD k 0))
      x.data z.shape n p j hj, col_shape_irrel]
    apply List.map_congr_left
    intro a _
    ring
  have hne : ∀ j, j < p → x.col n p j ≠ [] := by
    intro j hj h0
    have := NDArray.col_length x hxlen hj
    rw [h0] at this; simp at this; omega
  have hmj : ∀ j (hj : j < p), locColN c t (x.col n p j) = .ok (m.getD j 0) := by
    intro j hj
    have := hm2 j (by simpa using hj) (by omega)
    rw [List.getElem_range] at this
    rw [this, List.getD_eq_getElem _ _ (by omega)]
  have hvj : ∀ j (hj : j < p), scaColN s sq t (x.col n p j) = .ok (v.getD j 0) := by
    intro j hj
    have := hv2 j (by simpa using hj) (by omega)
    rw [List.getElem_range] at this
    rw [this, List.getD_eq_getElem _ _ (by omega)]
  have hloc : mapE (fun j => locColN c t (z.col n p j)) (List.range p) = .ok ((List.range p).map fun _ => 0) := by
    apply mapE_ok
    intro j hj
    have hj := List.mem_range.mp hj
    rw [hcol j hj]
    exact locColN_standardised c t _ _ (hne j hj) (hmj j hj)
  have hsca : mapE (fun j => scaColN s sq t (z.col n p j)) (List.range p) = .ok ((List.range p).map fun j => if v.getD j 0 = 0 then 0 else 1) := by
    apply mapE_ok
    intro j hj
    have hj := List.mem_range.mp hj
    rw [hcol j hj]
    exact scaColN_standardised s hsq t _ _ (hne j hj) (hvj j hj)
  simp only [htr, hloc, hsca, bind, Except.bind, Except.ok.injEq, Scaler.mk.injEq]
  refine ⟨?_, ?_⟩
  · simp [List.map_const']
  · rw [← hfit]
    apply List.ext_getElem
    · simp [hv1]
    · intro j h1 h2
      simp only [List.getElem_map, List.getElem_range]
      rw [List.getD_eq_getElem]

/-- C168: for the locations mean (trimmed or not), median and 'None' and the scales standard deviation (trimmed or not), MAD and 'None', in every combination, `fit_transform`
of the result of `fit_transform` is that result.  Missing: the spatial median as centre, for which this is false (`C168_l1median_violated`), and the k-step LTS location. -/
theorem C168_idempotent_partial (c : LocOpt K) (s : ScaOpt K) (sq : K → K) (hsq : IsSqrt sq) (t : K) (hc : ∀ f, c ≠ .other f) (hsc : ∀ f, s ≠ .other f)
    (x : NDArray K) (n p : ℕ) (hs : x.shape = [n, p]) (hwf : x.Wf) (hn : 2 ≤ n) (hp : 1 ≤ p) (z : NDArray K) (hz : Scaler.fitTransform c s sq t x = .ok z) :
    Scaler.fitTransform c s sq t z = .ok z := by
  unfold Scaler.fitTransform at hz
  cases hfit : Scaler.fit c s sq t x with
  | error e => rw [hfit] at hz; simp [bind, Except.bind] at hz
  | ok sc =>
    rw [hfit] at hz
    simp only [bind, Except.bind] at hz
    obtain ⟨hlen, z', h1, h2, h3, h4⟩ := standardised_named c s sq hsq t hc hsc x n p hs hwf hn hp sc hfit
    rw [hz] at h1
    obtain rfl := Except.ok.inj h1
    unfold Scaler.fitTransform
    rw [h4]
    simp only [bind, Except.bind]
    obtain ⟨w, w1, w2, w3⟩ := transform_matrix ⟨List.replicate p 0, sc.scale.map (fun v => if v = 0 then 0 else 1)⟩ z h2 (Or.inl (by omega)) hp (by simp) (by simpa using hlen)
    rw [w1]
    congr 1
    cases w; cases z
    simp only at w2 w3 h2 ⊢
    subst w2 h2 w3
    congr 1
    have hg0 : ∀ k, (List.replicate p (0 : K)).getD k 0 = 0 := by
      intro k
      rw [List.getD_eq_getElem?_getD, List.getElem?_replicate]
      split <;> rfl
    have hg1 : ∀ k, (if (sc.scale.map (fun v => if v = 0 then (0 : K) else 1)).getD k 0 = 0 then (1 : K)
        else (sc.scale.map (fun v => if v = 0 then (0 : K) else 1)).getD k 0) = 1 := by
      intro k
      rw [List.getD_eq_getElem?_getD, List.getElem?_map]
      cases sc.scale[k]? with
      | none => simp
      | some v => by_cases hv : v = 0 <;> simp [hv]
    simp only [hg0, hg1, sub_zero, div_one]
    exact List.zipIdx_map_fst _ _
end

/-- `l1median` as the `center` of a `VersatileScaler` (`robcent.py:113-134` evaluates the name and calls the function with the checked data); the optimiser is a parameter. -/
noncomputable def locL1 (opt : (n p : ℕ) → (Fin n → Fin p → ℝ) → (Fin p → ℝ) → (Fin p → ℝ)) : LocOpt ℝ :=
  .other fun x =>
    match x.shape with
    | [n, p] => .ok (List.ofFn (l1median (opt n p) fun i j => x.data.getD (i * p + j) 0))
    | _ => .error .valueError

/-- The origin is the spatial median of itself and two further points exactly if the angle between these is at least 120 degrees. -/
lemma tri_iff {u v : ℝ} (hu : 0 < u) (hv : 0 < v) : IsSpatialMedian (![![0, 0], ![u, v], ![-u, v]] : Fin 3 → Fin 2 → ℝ) ![0, 0] ↔ 3 * v ^ 2 ≤ u ^ 2 := by
  classical
  have hR : 0 < u ^ 2 + v ^ 2 := by positivity
  have hs : 0 < Real.sqrt (u ^ 2 + v ^ 2) := Real.sqrt_pos.mpr hR
  have hj : ∀ j, l1mJacobian (![0, 0] : Fin 2 → ℝ) (![![0, 0], ![u, v], ![-u, v]] : Fin 3 → Fin 2 → ℝ) j = ![0, -(2 * v / Real.sqrt (u ^ 2 + v ^ 2))] j := by
    intro j
    fin_cases j
    · simp [l1mJacobian, diffmat, euclidnorm, Fin.sum_univ_succ, hs.ne']; ring
    · simp [l1mJacobian, diffmat, euclidnorm, Fin.sum_univ_succ, hs.ne']; ring
  have hc : (Finset.univ.filter fun i => (![![0, 0], ![u, v], ![-u, v]] : Fin 3 → Fin 2 → ℝ) i = ![0, 0]) = {0} := by
    ext i
    fin_cases i <;> simp [hu.ne']
  have hsq : ∑ j, l1mJacobian (![0, 0] : Fin 2 → ℝ) (![![0, 0], ![u, v], ![-u, v]] : Fin 3 → Fin 2 → ℝ) j ^ 2 = 4 * v ^ 2 / (u ^ 2 + v ^ 2) := by
    simp only [hj]
    rw [Fin.sum_univ_two]
    simp only [Matrix.cons_val_zero, Matrix.cons_val_one]
    rw [neg_sq, div_pow, Real.sq_sqrt hR.le]
    ring
  rw [C167_optimal_iff, hc, hsq, Finset.card_singleton, Nat.cast_one, Real.sqrt_le_left zero_le_one, one_pow, div_le_one hR]
  constructor <;> intro h <;> linarith

lemma tri_not_line {u v : ℝ} (hu : 0 < u) (hv : 0 < v) : ¬ OnOneLine (![![0, 0], ![u, v], ![-u, v]] : Fin 3 → Fin 2 → ℝ) := by
  rintro ⟨a, d, h⟩
  obtain ⟨t0, h0⟩ := h 0
  obtain ⟨t1, h1⟩ := h 1
  obtain ⟨t2, h2⟩ := h 2
  have a1 := h0 0; have a2 := h0 1; have b1 := h1 0; have b2 := h1 1; have c1 := h2 0; have c2 := h2 1
  simp at a1 a2 b1 b2 c1 c2
  have e1 : (t1 - t2) * d 0 = 2 * u := by linarith
  have e2 : (t1 - t2) * d 1 = 0 := by linarith
  have e3 : (t1 - t0) * d 1 = v := by linarith
  rcases mul_eq_zero.mp e2 with h | h
  · rw [h] at e1; linarith
  · rw [h] at e3; linarith

/-- Three cases: the origin is their spatial median. -/
def idemX : NDArray ℝ := ⟨[3, 2], [0, 0, 12, 5, -12, 5]⟩

lemma tri_fit (opt : (n p : ℕ) → (Fin n → Fin p → ℝ) → (Fin p → ℝ) → (Fin p → ℝ)) (u v : ℝ) :
    Scaler.fit (locL1 opt) .std Real.sqrt 0 ⟨[3, 2], [0, 0, u, v, -u, v]⟩ =
      .ok ⟨List.ofFn (l1median (opt 3 2) ![![0, 0], ![u, v], ![-u, v]]), [Real.sqrt (varL [0, u, -u]), Real.sqrt (varL [0, v, v])]⟩ := by
  have h1 : (fun (i : Fin 3) (j : Fin 2) => ([0, 0, u, v, -u, v] : List ℝ).getD (i * 2 + j) 0) = ![![0, 0], ![u, v], ![-u, v]] := by
    funext i j; fin_cases i <;> fin_cases j <;> rfl
  have h2 : mapE (fun j => stdT Real.sqrt 0 (NDArray.col ⟨[3, 2], [0, 0, u, v, -u, v]⟩ 3 2 j)) (List.range 2) =
      .ok [Real.sqrt (varL [0, u, -u]), Real.sqrt (varL [0, v, v])] := by
    simp [stdT, mapE, NDArray.col, List.range_succ]
  unfold Scaler.fit
  rw [checkInput_matrix _ rfl (Or.inl (by norm_num))]
  simp only [bind, Except.bind, checkTrimming, LocOpt.run, ScaOpt.run, locL1, h1, h2]
  norm_num

/-- C168 (violated for the spatial median): for every optimiser that finds the minimum, the standardised data of these three cases are changed when they are standardised again,
because scaling the columns moves the spatial median. -/
theorem C168_l1median_violated (opt : (n p : ℕ) → (Fin n → Fin p → ℝ) → (Fin p → ℝ) → (Fin p → ℝ)) (hopt : ∀ n p X x0, IsSpatialMedian X (opt n p X x0)) :
    ∃ z, Scaler.fitTransform (locL1 opt) .std Real.sqrt 0 idemX = .ok z ∧ Scaler.fitTransform (locL1 opt) .std Real.sqrt 0 z ≠ .ok z := by
  have hl : ∀ X : Fin 3 → Fin 2 → ℝ, IsSpatialMedian X (l1median (opt 3 2) X) := fun X => by
    simp only [l1median, show ¬ (2 : ℕ) < 2 by norm_num, if_false]; exact hopt _ _ _ _
  have ha0 : l1median (opt 3 2) ![![0, 0], ![12, 5], ![-12, 5]] = ![0, 0] :=
    C167_unique (tri_not_line (by norm_num) (by norm_num)) (hl _) ((tri_iff (by norm_num) (by norm_num)).mpr (by norm_num))
  have hv1 : varL [(0 : ℝ), 12, -12] = 96 := by norm_num [varL, meanL]
  have hv2 : varL [(0 : ℝ), 5, 5] = 50 / 9 := by norm_num [varL, meanL]
  have hp1 : 0 < Real.sqrt 96 := Real.sqrt_pos.mpr (by norm_num)
  have hp2 : 0 < Real.sqrt (50 / 9) := Real.sqrt_pos.mpr (by norm_num)
  have hfit := tri_fit opt 12 5
  rw [ha0, hv1, hv2] at hfit
  obtain ⟨z, z1, z2, z3⟩ := transform_matrix (K := ℝ) ⟨List.ofFn ![0, 0], [Real.sqrt 96, Real.sqrt (50 / 9)]⟩ idemX (n := 3) (p := 2) rfl (Or.inl (by norm_num)) (by norm_num)
    (by simp) (by simp)
  have hz : z = ⟨[3, 2], [0, 0, 12 / Real.sqrt 96, 5 / Real.sqrt (50 / 9), -(12 / Real.sqrt 96), 5 / Real.sqrt (50 / 9)]⟩ := by
    cases z
    simp only at z2 z3
    subst z2 z3
    simp [idemX, List.zipIdx, hp1.ne', neg_div]
  refine ⟨z, ?_, ?_⟩
  · unfold Scaler.fitTransform
    rw [show idemX = ⟨[3, 2], [0, 0, 12, 5, -12, 5]⟩ from rfl, hfit]
    exact z1
  · intro hcon
    set u := 12 / Real.sqrt 96
    set v := 5 / Real.sqrt (50 / 9)
    have hu : 0 < u := by positivity
    have hv : 0 < v := by positivity
    have hu2 : u ^ 2 = 3 / 2 := by rw [div_pow, Real.sq_sqrt (by norm_num)]; norm_num
    have hv2 : v ^ 2 = 9 / 2 := by rw [div_pow, Real.sq_sqrt (by norm_num)]; norm_num
    unfold Scaler.fitTransform at hcon
    subst hz
    rw [tri_fit] at hcon
    simp only [bind, Except.bind] at hcon
    set b := l1median (opt 3 2) ![![0, 0], ![u, v], ![-u, v]] with hb
    obtain ⟨w, w1, w2, w3⟩ := transform_matrix (K := ℝ) ⟨List.ofFn b, [Real.sqrt (varL [0, u, -u]), Real.sqrt (varL [0, v, v])]⟩ ⟨[3, 2], [0, 0, u, v, -u, v]⟩ (n := 3) (p := 2)
      rfl (Or.inl (by norm_num)) (by norm_num) (by simp) (by simp)
    rw [w1] at hcon
    obtain rfl := Except.ok.inj hcon
    have hne : ∀ r : ℝ, (if r = 0 then 1 else r) ≠ 0 := fun r => by split <;> simp_all
    have e0 := congrArg (fun l => l[0]?) w3
    have e1 := congrArg (fun l => l[1]?) w3
    simp [List.zipIdx] at e0 e1
    have b0 : b 0 = 0 := neg_eq_zero.mp ((div_eq_zero_iff.mp e0.symm).resolve_right (hne _))
    have b1 : b 1 = 0 := neg_eq_zero.mp ((div_eq_zero_iff.mp e1.symm).resolve_right (hne _))
    have hb0 : b = ![0, 0] := by funext j; fin_cases j <;> simp [b0, b1]
    have := hl ![![0, 0], ![u, v], ![-u, v]]
    rw [← hb, hb0, tri_iff hu hv, hu2, hv2] at this
    norm_num at this

/-- Non-vacuity: optimisers that find the minimum exist. -/
example : ∃ z, Scaler.fitTransform (locL1 fun _ _ X _ => (C167_exists X).choose) .std Real.sqrt 0 idemX = .ok z :=
  let ⟨z, hz, _⟩ := C168_l1median_violated (fun _ _ X _ => (C167_exists X).choose) fun _ _ X _ => (C167_exists X).choose_spec
  ⟨z, hz⟩

/-- Non-vacuity of `C168_idempotent_partial`: the same data about their medians. -/
example : ∃ z, Scaler.fitTransform (.median : LocOpt ℝ) .mad Real.sqrt 0 idemX = .ok z ∧ Scaler.fitTransform (.median : LocOpt ℝ) .mad Real.sqrt 0 z = .ok z := by
  have hfit : ∃ sc, Scaler.fit (.median : LocOpt ℝ) .mad Real.sqrt 0 idemX = .ok sc := by
    rw [fit_matrix _ _ _ _ _ (n := 3) (p := 2) rfl (Or.inl (by norm_num)) (.inr rfl) (.inr rfl)]
    simp only [bind, Except.bind, checkTrimming, show ¬ ((0 : ℝ) > 99 / 100 ∨ (0 : ℝ) < 0) by norm_num, if_false, locCol, scaCol, mapE_oks]
    exact ⟨_, rfl⟩
  obtain ⟨sc, hsc⟩ := hfit
  obtain ⟨z, h1, -⟩ := C08_standardised (.median : LocOpt ℝ) .mad Real.sqrt (fun v hv => ⟨Real.sqrt_nonneg _, Real.mul_self_sqrt hv⟩) 0 (.inr rfl) (.inr rfl) idemX 3 2 rfl rfl
    (by norm_num) (by norm_num) sc hsc
  have hz : Scaler.fitTransform (.median : LocOpt ℝ) .mad Real.sqrt 0 idemX = .ok z := by
    unfold Scaler.fitTransform; rw [hsc]; exact h1
  exact ⟨z, hz, C168_idempotent_partial _ _ _ (fun v hv => ⟨Real.sqrt_nonneg _, Real.mul_self_sqrt hv⟩) 0 (fun f h => by cases h) (fun f h => by cases h) idemX 3 2 rfl rfl (by norm_num) (by norm_num) z hz⟩

end Direpack
