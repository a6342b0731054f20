import Mathlib.Tactic.NormNum
import Mathlib.Tactic.IntervalCases
import Mathlib.Data.Rat.Floor
import Mathlib.Data.Fin.VecNotation
import Mathlib.Analysis.Real.Sqrt
import Mathlib.Algebra.Order.Archimedean.Real.Basic
import Verif.Props.Preproc
import Verif.Spec.Scaler

/-!
Properties C08-C10 (VersatileScaler), C69 (input normalisation) and
C70 (NaN-tolerant products).
-/

set_option linter.unusedSectionVars false

namespace Direpack

open Spec (IsSqrt)

section
variable {K : Type} [Field K] [LinearOrder K] [IsStrictOrderedRing K] [FloorSemiring K]

/-! ### helper lemmas -/

lemma sqrt_sq_mul {sq : K → K} (hsq : IsSqrt sq) (a v : K) (hv : 0 ≤ v) :
    sq (a ^ 2 * v) = |a| * sq v := by
  have h1 := hsq (a ^ 2 * v) (by positivity)
  have h2 := hsq v hv
  have h3 : (|a| * sq v) * (|a| * sq v) = a ^ 2 * v := by
    rw [mul_mul_mul_comm, h2.2, abs_mul_abs_self]; ring
  nlinarith [mul_nonneg (abs_nonneg a) h2.1, mul_self_eq_mul_self_iff.mp (h1.2.trans h3.symm) |>.elim
    (fun e => e.le) (fun e => by nlinarith [mul_nonneg (abs_nonneg a) h2.1]),
    mul_self_eq_mul_self_iff.mp (h1.2.trans h3.symm) |>.elim
    (fun e => e.ge) (fun e => by nlinarith [mul_nonneg (abs_nonneg a) h2.1])]

lemma varL_map_affine (a b : K) {l : List K} (hl : l ≠ []) :
    varL (l.map fun x => a * x + b) = a ^ 2 * varL l := by
  unfold varL
  rw [meanL_map_affine a b hl, List.map_map]
  have : ((fun x => (x - (a * meanL l + b)) ^ 2) ∘ fun x => a * x + b) =
      (fun y => a ^ 2 * y + 0) ∘ fun x => (x - meanL l) ^ 2 := by
    funext x; simp only [Function.comp]; ring
  rw [this, ← List.map_map, meanL_map_affine _ _ (by simpa using hl), add_zero]

lemma meanL_nonneg {l : List K} (h : ∀ v ∈ l, 0 ≤ v) : 0 ≤ meanL l :=
  div_nonneg (List.sum_nonneg h) (Nat.cast_nonneg _)

lemma varL_nonneg (l : List K) : 0 ≤ varL l := by
  apply meanL_nonneg
  intro v hv
  obtain ⟨x, _, rfl⟩ := List.mem_map.mp hv
  exact sq_nonneg _

lemma stdT_map_affine {sq : K → K} (hsq : IsSqrt sq) (t a b : K) {l : List K} (hl : l ≠ []) :
    stdT sq t (l.map fun x => a * x + b) = (stdT sq t l).map (fun s => |a| * s) := by
  unfold stdT
  split_ifs with h
  · rw [varL_map_affine a b hl, sqrt_sq_mul hsq _ _ (varL_nonneg l)]; rfl
  · rw [trimMeanL_map_affine]
    cases hm : trimMeanL l t with
    | error e => rfl
    | ok o =>
      cases o with
      | none => rfl
      | some m =>
        simp only [Except.map, Option.map, ofNaN, List.map_map]
        have : ((fun v => (v - (a * m + b)) ^ 2) ∘ fun x => a * x + b) =
            (fun y => a ^ 2 * y + 0) ∘ fun v => (v - m) ^ 2 := by
          funext x; simp only [Function.comp]; ring
        rw [this, ← List.map_map, trimMeanL_map_affine]
        cases hv : trimMeanL (l.map fun v => (v - m) ^ 2) t with
        | error e => rfl
        | ok o =>
          cases o with
          | none => rfl
          | some v =>
            have hv0 : 0 ≤ v := by
              rw [trimMeanL_eq] at hv
              split_ifs at hv
              · simp at hv
              simp only [Except.ok.injEq, Option.some.injEq] at hv
              rw [← hv]
              apply meanL_nonneg
              intro w hw
              obtain ⟨x, _, rfl⟩ := List.mem_map.mp (keptL_sublist_perm hw)
              exact sq_nonneg _
            simp only [Except.map, Option.map, add_zero]
            rw [sqrt_sq_mul hsq _ _ hv0]

lemma madL_map_affine (a b : K) {l : List K} (hl : l ≠ []) :
    madL (l.map fun x => a * x + b) = |a| * madL l := by
  unfold madL
  rw [medL_map_affine a b hl, List.map_map]
  have : ((fun x => |x - (a * medL l + b)|) ∘ fun x => a * x + b) =
      (fun y => |a| * y + 0) ∘ fun x => |x - medL l| := by
    funext x; simp only [Function.comp, add_zero]; rw [← abs_mul]; congr 1; ring
  rw [this, ← List.map_map, medL_map_affine _ _ (by simpa using hl), add_zero, mul_div_assoc]

lemma checkInput_matrix {α : Type} (x : NDArray α) {n p : ℕ} (hs : x.shape = [n, p])
    (hn : n ≠ 1 ∨ p < 2) : checkInput x = .ok x := by
  unfold checkInput
  simp only [hs]
  rcases hn with h | h
  · simp [h]
  · by_cases h1 : n = 1
    · simp [h1, h]
    · simp [h1]

/-- What `transform` does to a matrix with at least two rows (or a single column). -/
lemma transform_matrix (sc : Scaler K) (x : NDArray K) {n p : ℕ} (hs : x.shape = [n, p])
    (hn : n ≠ 1 ∨ p < 2) (hp : 1 ≤ p) (hm : sc.center.length = p) (hsc : sc.scale.length = p) :
    ∃ z, sc.transform x = .ok z ∧ z.shape = [n, p] ∧
      z.data = x.data.zipIdx.map (fun a => (a.1 - sc.center.getD (a.2 % p) 0) /
        (if sc.scale.getD (a.2 % p) 0 = 0 then 1 else sc.scale.getD (a.2 % p) 0)) := by
  unfold Scaler.transform
  rw [checkInput_matrix x hs hn]
  simp only [bind, Except.bind]
  unfold scaleData
  have hz : ∀ k, k < p → (handleZeros sc.scale).getD k 0 =
      if sc.scale.getD k 0 = 0 then 1 else sc.scale.getD k 0 := by
    intro k hk
    unfold handleZeros
    rw [List.getD_eq_getElem _ _ (by simpa [hsc] using hk),
      List.getD_eq_getElem _ _ (by simpa [hsc] using hk), List.getElem_map]
  simp only [hs]
  by_cases h1 : p = 1
  · subst h1
    obtain ⟨m0, hm0⟩ := List.length_eq_one_iff.mp hm
    obtain ⟨s0, hs0⟩ := List.length_eq_one_iff.mp hsc
    rw [hm0, hs0]
    refine ⟨_, rfl, rfl, ?_⟩
    apply List.ext_getElem
    · simp
    · intro k h1 h2
      simp [Nat.mod_one]
  · simp only [h1, if_false]
    unfold bcast2
    have hl2 : (handleZeros sc.scale).length = p := by simp [handleZeros, hsc]
    simp only [hm, hl2, if_true, bind, Except.bind]
    refine ⟨_, rfl, rfl, ?_⟩
    apply List.ext_getElem
    · simp
    · intro k h1 h2
      simp only [List.getElem_map, List.getElem_zipIdx, zero_add]
      rw [hz _ (Nat.mod_lt _ (by omega))]

lemma zipIdx_map_col (f : ℕ → K → K) (data : List K) (sh : List ℕ) (n p j : ℕ) (hj : j < p) :
    (NDArray.mk sh (data.zipIdx.map fun a => f (a.2 % p) a.1)).col n p j =
      ((NDArray.mk sh data).col n p j).map (f j) := by
  unfold NDArray.col
  rw [List.map_filterMap]
  apply List.filterMap_congr
  intro i _
  have hmod : (i * p + j) % p = j := by
    rw [Nat.add_comm, Nat.add_mul_mod_self_right, Nat.mod_eq_of_lt hj]
  simp only [List.getElem?_map, List.getElem?_zipIdx]
  cases data[i * p + j]? <;> simp [hmod]

lemma col_shape_irrel {α : Type} (x : NDArray α) (sh : List ℕ) (n p j : ℕ) :
    (NDArray.mk sh x.data).col n p j = x.col n p j := rfl

/-- The column estimator behind a column-wise location option. -/
def locCol (c : LocOpt K) (t : K) : List K → Except Err K :=
  match c with
  | .mean => meanT t
  | _ => fun l => .ok (medL l)

/-- The column estimator behind a column-wise scale option. -/
def scaCol (s : ScaOpt K) (sq : K → K) (t : K) : List K → Except Err K :=
  match s with
  | .std => stdT sq t
  | _ => fun l => .ok (madL l)

lemma locCol_affine (c : LocOpt K) (t a b : K) {l : List K} (hl : l ≠ []) :
    locCol c t (l.map fun x => a * x + b) = (locCol c t l).map (fun m => a * m + b) := by
  cases c with
  | mean => exact C11_trim_affine l hl t a b
  | median => simp only [locCol, medL_map_affine a b hl]; rfl
  | noneOpt => simp only [locCol, medL_map_affine a b hl]; rfl
  | other f => simp only [locCol, medL_map_affine a b hl]; rfl

lemma scaCol_affine (s : ScaOpt K) {sq : K → K} (hsq : IsSqrt sq) (t a b : K) {l : List K}
    (hl : l ≠ []) :
    scaCol s sq t (l.map fun x => a * x + b) = (scaCol s sq t l).map (fun m => |a| * m) := by
  cases s with
  | std => exact stdT_map_affine hsq t a b hl
  | mad => simp only [scaCol, madL_map_affine a b hl]; rfl
  | noneOpt => simp only [scaCol, madL_map_affine a b hl]; rfl
  | other f => simp only [scaCol, madL_map_affine a b hl]; rfl

lemma scaCol_nonneg (s : ScaOpt K) {sq : K → K} (hsq : IsSqrt sq) (t : K) {l : List K}
    (hl : l ≠ []) (v : K) (h : scaCol s sq t l = .ok v) : 0 ≤ v := by
  have hmad : ∀ l : List K, l ≠ [] → 0 ≤ madL l := by
    intro l hl
    unfold madL
    apply div_nonneg _ madConst_pos.le
    apply le_medL_of_forall (by simpa using hl)
    intro v hv
    obtain ⟨x, _, rfl⟩ := List.mem_map.mp hv
    exact abs_nonneg _
  have hm0 : scaCol .mad sq t l = .ok v → 0 ≤ v := by
    intro h
    simp only [scaCol, Except.ok.injEq] at h
    rw [← h]; exact hmad l hl
  cases s with
  | mad => exact hm0 h
  | noneOpt => exact hm0 h
  | other f => exact hm0 h
  | std =>
    simp only [scaCol, stdT] at h
    split_ifs at h with ht
    · simp only [Except.ok.injEq] at h
      rw [← h]; exact (hsq _ (varL_nonneg l)).1
    · cases hm : ofNaN (trimMeanL l t) with
      | error e => simp [hm] at h
      | ok m =>
        simp only [hm] at h
        cases hv : trimMeanL (l.map fun v => (v - m) ^ 2) t with
        | error e => simp [hv, ofNaN] at h
        | ok o =>
          cases o with
          | none => simp [hv, ofNaN] at h
          | some w =>
            have hw0 : 0 ≤ w := by
              rw [trimMeanL_eq] at hv
              split_ifs at hv
              · simp at hv
              simp only [Except.ok.injEq, Option.some.injEq] at hv
              rw [← hv]
              apply meanL_nonneg
              intro w hw
              obtain ⟨x, _, rfl⟩ := List.mem_map.mp (keptL_sublist_perm hw)
              exact sq_nonneg _
            simp only [hv, ofNaN, Except.ok.injEq] at h
            rw [← h]; exact (hsq _ hw0).1

/-- Unfolding of `fit` for the column-wise estimators on a matrix. -/
lemma fit_matrix (c : LocOpt K) (s : ScaOpt K) (sq : K → K) (t : K) (x : NDArray K) {n p : ℕ}
    (hs : x.shape = [n, p]) (hn : n ≠ 1 ∨ p < 2) (hc : c = .mean ∨ c = .median)
    (hsc : s = .std ∨ s = .mad) :
    Scaler.fit c s sq t x = (do
      checkTrimming t
      let m ← mapE (fun j => locCol c t (x.col n p j)) (List.range p)
      let v ← mapE (fun j => scaCol s sq t (x.col n p j)) (List.range p)
      .ok ⟨m, v⟩) := by
  unfold Scaler.fit
  rw [checkInput_matrix x hs hn]
  simp only [bind, Except.bind, hs]
  rcases hc with rfl | rfl <;> rcases hsc with rfl | rfl <;> rfl

/-! ### C08 -/

/-- C08: fit a scaler with a column-wise location (mean, trimmed mean or median) and scale
(standard deviation, trimmed standard deviation or MAD) on a matrix with at least two rows.  Transforming the training
matrix succeeds, and fitting the same kind of scaler again on the result finds location 0 in every column, scale 1 in every column whose
estimated scale was nonzero, and scale 0 in the others. -/
theorem C08_standardised (c : LocOpt K) (s : ScaOpt K) (sq : K → K) (hsq : IsSqrt sq) (t : K)
    (hc : c = .mean ∨ c = .median) (hsc : s = .std ∨ s = .mad)
    (x : NDArray K) (n p : ℕ) (hs : x.shape = [n, p]) (hwf : x.Wf) (hn : 2 ≤ n) (hp : 1 ≤ p)
    (sc : Scaler K) (hfit : Scaler.fit c s sq t x = .ok sc) :
    ∃ z, sc.transform x = .ok z ∧ z.shape = [n, p] ∧ z.Wf ∧
      Scaler.fit c s sq t z =
        .ok ⟨List.replicate p 0, sc.scale.map (fun v => if v = 0 then 0 else 1)⟩ := by
  have hn1 : n ≠ 1 ∨ p < 2 := Or.inl (by omega)
  have hxlen : x.data.length = n * p := by
    have := hwf; unfold NDArray.Wf at this; rw [this, hs]; simp
  rw [fit_matrix c s sq t x hs hn1 hc hsc] at hfit
  -- decompose the successful fit
  cases htr : checkTrimming t with
  | error e => simp [htr, bind, Except.bind] at hfit
  | ok u =>
  cases hm : mapE (fun j => locCol c t (x.col n p j)) (List.range p) with
  | error e => simp [htr, hm, bind, Except.bind] at hfit
  | ok m =>
  cases hv : mapE (fun j => scaCol s sq t (x.col n p j)) (List.range p) with
  | error e => simp [htr, hm, hv, bind, Except.bind] at hfit
  | ok v =>
  simp only [htr, hm, hv, bind, Except.bind, Except.ok.injEq] at hfit
  obtain ⟨hm1, hm2⟩ := mapE_inv _ _ _ hm
  obtain ⟨hv1, hv2⟩ := mapE_inv _ _ _ hv
  rw [List.length_range] at hm1 hv1
  have hcl : sc.center.length = p := by rw [← hfit]; exact hm1
  have hsl : sc.scale.length = p := by rw [← hfit]; exact hv1
  obtain ⟨z, hz1, hz2, hz3⟩ := transform_matrix sc x hs hn1 hp hcl hsl
  refine ⟨z, hz1, hz2, ?_, ?_⟩
  · unfold NDArray.Wf; rw [hz3, hz2]; simp [hxlen]
  rw [fit_matrix c s sq t z hz2 hn1 hc hsc]
  -- the columns of the transformed matrix are affine images of the original ones
  have hcol : ∀ j, j < p → z.col n p j = (x.col n p j).map (fun a =>
      (1 / (if v.getD j 0 = 0 then 1 else v.getD j 0)) * a +
        (-(m.getD j 0) / (if v.getD j 0 = 0 then 1 else v.getD j 0))) := by
    intro j hj
    have hzz : z = NDArray.mk z.shape (x.data.zipIdx.map fun a =>
        (fun k b => (b - m.getD k 0) / (if v.getD k 0 = 0 then 1 else v.getD k 0)) (a.2 % p) a.1) := by
      cases z with
      | mk sh d =>
        simp only at hz3
        rw [hz3, ← hfit]
    rw [hzz, zipIdx_map_col (fun k b => (b - m.getD k 0) / (if v.getD k 0 = 0 then 1 else v.getD k 0))
      x.data z.shape n p j hj, col_shape_irrel]
    apply List.map_congr_left
    intro a _
    ring
  have hne : ∀ j, j < p → x.col n p j ≠ [] := by
    intro j hj h0
    have := NDArray.col_length x hxlen hj
    rw [h0] at this; simp at this; omega
  have hmj : ∀ j (hj : j < p), locCol c t (x.col n p j) = .ok (m.getD j 0) := by
    intro j hj
    have := hm2 j (by simpa using hj) (by omega)
    rw [List.getElem_range] at this
    rw [this, List.getD_eq_getElem _ _ (by omega)]
  have hvj : ∀ j (hj : j < p), scaCol s sq t (x.col n p j) = .ok (v.getD j 0) := by
    intro j hj
    have := hv2 j (by simpa using hj) (by omega)
    rw [List.getElem_range] at this
    rw [this, List.getD_eq_getElem _ _ (by omega)]
  have hloc : mapE (fun j => locCol c t (z.col n p j)) (List.range p) =
      .ok ((List.range p).map fun _ => 0) := by
    apply mapE_ok
    intro j hj
    have hj := List.mem_range.mp hj
    rw [hcol j hj, locCol_affine c t _ _ (hne j hj), hmj j hj]
    simp only [Except.map, Except.ok.injEq]
    ring
  have hsca : mapE (fun j => scaCol s sq t (z.col n p j)) (List.range p) =
      .ok ((List.range p).map fun j => if v.getD j 0 = 0 then 0 else 1) := by
    apply mapE_ok
    intro j hj
    have hj := List.mem_range.mp hj
    rw [hcol j hj, scaCol_affine s hsq t _ _ (hne j hj), hvj j hj]
    simp only [Except.map, Except.ok.injEq]
    split_ifs with h0
    · rw [h0, mul_zero]
    · have hpos : 0 < v.getD j 0 :=
        lt_of_le_of_ne (scaCol_nonneg s hsq t (hne j hj) _ (hvj j hj)) (Ne.symm h0)
      rw [abs_of_pos (by positivity)]
      field_simp
  simp only [htr, hloc, hsca, bind, Except.bind, Except.ok.injEq, Scaler.mk.injEq]
  refine ⟨?_, ?_⟩
  · simp [List.map_const']
  · rw [← hfit]
    apply List.ext_getElem
    · simp [hv1]
    · intro j h1 h2
      simp only [List.getElem_map, List.getElem_range]
      rw [List.getD_eq_getElem]

/-- C08: a column with estimated scale zero is only centred: the entry in row `i`, column `j` of
the result is the original entry minus the location; otherwise it is also divided by the scale. -/
theorem C08_entries (sc : Scaler K) (x : NDArray K) (n p : ℕ) (hs : x.shape = [n, p])
    (hwf : x.Wf) (hn : 2 ≤ n) (hp : 1 ≤ p)
    (hm : sc.center.length = p) (hsc : sc.scale.length = p) :
    ∃ z, sc.transform x = .ok z ∧ z.shape = [n, p] ∧ z.Wf ∧
      ∀ i < n, ∀ j < p, ∃ a s m, x.data[i * p + j]? = some a ∧ sc.scale[j]? = some s ∧
        sc.center[j]? = some m ∧
        z.data[i * p + j]? = some (if s = 0 then a - m else (a - m) / s) := by
  obtain ⟨z, hz1, hz2, hz3⟩ := transform_matrix sc x hs (Or.inl (by omega)) hp hm hsc
  have hxlen : x.data.length = n * p := by
    have := hwf; unfold NDArray.Wf at this; rw [this, hs]; simp
  refine ⟨z, hz1, hz2, ?_, ?_⟩
  · unfold NDArray.Wf; rw [hz3, hz2]; simp [hxlen]
  intro i hi j hj
  have hk : i * p + j < x.data.length := by rw [hxlen]; exact idx_lt hi hj
  refine ⟨x.data[i * p + j], sc.scale[j]'(by omega), sc.center[j]'(by omega),
    List.getElem?_eq_getElem hk, List.getElem?_eq_getElem _, List.getElem?_eq_getElem _, ?_⟩
  have hmod : (i * p + j) % p = j := by
    rw [Nat.add_comm, Nat.add_mul_mod_self_right, Nat.mod_eq_of_lt hj]
  rw [hz3, List.getElem?_map, List.getElem?_zipIdx, List.getElem?_eq_getElem hk]
  simp only [Option.map_some, zero_add, hmod]
  rw [List.getD_eq_getElem _ _ (by omega), List.getD_eq_getElem _ _ (by omega)]
  split_ifs <;> simp

/-! ### C09 -/

/-- C09 (partial).  Full claim: `inverse_transform(transform(X)) = X` for every `X` with the
training number of columns.  Proved: for every `X` with at least two rows, provided
that in each column whose estimated scale is zero all entries of `X` equal the estimated location.  Refuted otherwise: `C09_roundtrip_violated`
and `C09_roundtrip_one_row_violated`. -/
theorem C09_roundtrip_partial (sc : Scaler K) (x : NDArray K) (n p : ℕ) (hs : x.shape = [n, p])
    (hwf : x.Wf) (hn : 2 ≤ n) (hp : 1 ≤ p)
    (hm : sc.center.length = p) (hsc : sc.scale.length = p)
    (hconst : ∀ i < n, ∀ j < p, sc.scale[j]? = some 0 → x.data[i * p + j]? = sc.center[j]?) :
    ∃ z, sc.transform x = .ok z ∧ sc.inverse z = .ok x := by
  obtain ⟨z, hz1, hz2, hz3⟩ := transform_matrix sc x hs (Or.inl (by omega)) hp hm hsc
  refine ⟨z, hz1, ?_⟩
  have hxlen : x.data.length = n * p := by
    have := hwf; unfold NDArray.Wf at this; rw [this, hs]; simp
  unfold Scaler.inverse
  rw [checkInput_matrix z hz2 (Or.inl (by omega))]
  simp only [bind, Except.bind, hz2]
  unfold bcast2
  simp only [hm, hsc, if_true]
  cases hx : x with
  | mk sh d =>
    rw [hx] at hs hxlen hconst
    simp only at hs hxlen hconst
    simp only [Except.ok.injEq, NDArray.mk.injEq]
    refine ⟨hs.symm, ?_⟩
    rw [hz3, hx]
    apply List.ext_getElem
    · simp
    · intro k h1 h2
      simp only [List.getElem_map, List.getElem_zipIdx, zero_add]
      set j := k % p with hj
      have hjp : j < p := Nat.mod_lt _ (by omega)
      have hkk : k / p * p + j = k := Nat.div_add_mod' k p
      have hkn : k / p < n := by
        rw [Nat.div_lt_iff_lt_mul (by omega)]; rw [hxlen] at h2; exact h2
      have hcst := hconst (k / p) hkn j hjp
      rw [hkk, List.getElem?_eq_getElem h2] at hcst
      rw [List.getD_eq_getElem _ _ (by omega : j < sc.scale.length),
        List.getD_eq_getElem _ _ (by omega : j < sc.center.length)]
      rw [List.getElem?_eq_getElem (by omega : j < sc.scale.length),
        List.getElem?_eq_getElem (by omega : j < sc.center.length)] at hcst
      by_cases h0 : sc.scale[j] = 0
      · have := hcst (by rw [h0])
        simp only [Option.some.injEq] at this
        rw [h0, mul_zero, zero_add, this]
      · rw [if_neg h0]
        field_simp
        ring

/-! ### C10 -/

/-- C10 (partial).  Full claim: each row of `transform(X)` depends only on the same row of
`X`, for every `X` with the training number of columns.  Proved for `X` with at least two rows: entry
`(i,j)` is the standardised entry `(i,j)` whatever the other rows are.  Refuted for one-row matrices: `C10_one_row_violated`. -/
theorem C10_rowwise_partial (sc : Scaler K) (x y : NDArray K) (n n' p : ℕ)
    (hs : x.shape = [n, p]) (hs' : y.shape = [n', p]) (hwf : x.Wf) (hwf' : y.Wf)
    (hn : 2 ≤ n) (hn' : 2 ≤ n') (hp : 1 ≤ p)
    (hm : sc.center.length = p) (hsc : sc.scale.length = p) (i i' : ℕ) (hi : i < n) (hi' : i' < n')
    (hrow : x.row p i = y.row p i') :
    ∃ z z', sc.transform x = .ok z ∧ sc.transform y = .ok z' ∧ z.row p i = z'.row p i' := by
  obtain ⟨z, hz1, hz2, hz3⟩ := transform_matrix sc x hs (Or.inl (by omega)) hp hm hsc
  obtain ⟨z', hz1', hz2', hz3'⟩ := transform_matrix sc y hs' (Or.inl (by omega)) hp hm hsc
  have hxlen : x.data.length = n * p := by
    have := hwf; unfold NDArray.Wf at this; rw [this, hs]; simp
  have hylen : y.data.length = n' * p := by
    have := hwf'; unfold NDArray.Wf at this; rw [this, hs']; simp
  refine ⟨z, z', hz1, hz1', ?_⟩
  have len : ∀ (d : List K) (N I : ℕ), d.length = N * p → I < N →
      ((d.drop (I * p)).take p).length = p := by
    intro d N I hd hI
    rw [List.length_take, List.length_drop, hd]
    have : I * p + p ≤ N * p := by
      calc I * p + p = (I + 1) * p := by ring
        _ ≤ N * p := Nat.mul_le_mul_right p hI
    omega
  unfold NDArray.row at hrow ⊢
  apply List.ext_getElem
  · rw [len z.data n i (by rw [hz3]; simpa using hxlen) hi,
      len z'.data n' i' (by rw [hz3']; simpa using hylen) hi']
  · intro j h1 h2
    have hj : j < p := by
      rw [len z.data n i (by rw [hz3]; simpa using hxlen) hi] at h1; exact h1
    have e : ∀ (h : j < (List.take p (List.drop (i * p) x.data)).length)
        (h' : j < (List.take p (List.drop (i' * p) y.data)).length),
        (List.take p (List.drop (i * p) x.data))[j] = (List.take p (List.drop (i' * p) y.data))[j] := by
      intro h h'
      simp only [hrow]
    have e' := e (by rw [len x.data n i hxlen hi]; exact hj) (by rw [len y.data n' i' hylen hi']; exact hj)
    simp only [List.getElem_take, List.getElem_drop] at e'
    simp only [List.getElem_take, List.getElem_drop, hz3, hz3', List.getElem_map,
      List.getElem_zipIdx, zero_add]
    have hmod : ∀ I, (I * p + j) % p = j := by
      intro I
      rw [Nat.add_comm, Nat.add_mul_mod_self_right, Nat.mod_eq_of_lt hj]
    rw [hmod, hmod, e']

/-! ### C69 -/

/-- C69: an accepted and normalised input is a matrix, and normalising it again changes
nothing. -/
theorem C69_checkInput_idem {α : Type} (x y : NDArray α) (h : checkInput x = .ok y) :
    (∃ n p, y.shape = [n, p]) ∧ checkInput y = .ok y := by
  obtain ⟨sh, d⟩ := x
  unfold checkInput at h
  match sh, h with
  | [n], h =>
    simp only [if_true] at h
    split_ifs at h with h2
    · simp only [Except.ok.injEq] at h
      subst h
      refine ⟨⟨n, 1, rfl⟩, ?_⟩
      exact checkInput_matrix _ rfl (Or.inr (by omega))
    · simp only [Except.ok.injEq] at h
      subst h
      exact ⟨⟨1, n, rfl⟩, checkInput_matrix _ rfl (Or.inr (by omega))⟩
  | [n, p], h =>
    simp only at h
    split_ifs at h with h1 h2
    · simp only [Except.ok.injEq] at h
      subst h
      exact ⟨⟨p, 1, rfl⟩, checkInput_matrix _ rfl (Or.inr (by omega))⟩
    · simp only [Except.ok.injEq] at h
      subst h
      exact ⟨⟨n, p, rfl⟩, checkInput_matrix _ rfl (Or.inr (by omega))⟩
    · simp only [Except.ok.injEq] at h
      subst h
      exact ⟨⟨n, p, rfl⟩, checkInput_matrix _ rfl (Or.inl h1)⟩
  | [], h => simp at h
  | _ :: _ :: _ :: _, h => simp at h

/-- C69: normalisation never changes, drops, adds or reorders entries. -/
theorem C69_checkInput_data {α : Type} (x y : NDArray α) (h : checkInput x = .ok y) :
    y.data = x.data ∧ y.shape.prod = x.shape.prod := by
  obtain ⟨sh, d⟩ := x
  unfold checkInput at h
  match sh, h with
  | [n], h =>
    simp only [if_true] at h
    split_ifs at h with h2 <;> simp only [Except.ok.injEq] at h <;> subst h <;> simp
  | [n, p], h =>
    simp only at h
    split_ifs at h with h1 h2 <;> simp only [Except.ok.injEq] at h <;> subst h <;> simp_all
  | [], h => simp at h
  | _ :: _ :: _ :: _, h => simp at h

/-- C69: a matrix with at least two rows passes unchanged, both at fit and at prediction time. -/
theorem C69_matrix_unchanged {α : Type} (x : NDArray α) (n p : ℕ) (hs : x.shape = [n, p])
    (hn : 2 ≤ n) : checkInput x = .ok x ∧ predictCheckInput x = .ok (n, p, x) := by
  refine ⟨checkInput_matrix x hs (Or.inl (by omega)), ?_⟩
  unfold predictCheckInput
  simp only [hs]

/-- C69: a one-dimensional array is a *column* at fit time (two or more entries) but a *row* at
prediction time; anything that is not one- or two-dimensional is rejected by both. -/
theorem C69_other_shapes {α : Type} (x : NDArray α) :
    (∀ n, x.shape = [n] → 2 ≤ n → checkInput x = .ok ⟨[n, 1], x.data⟩ ∧
      predictCheckInput x = .ok (1, n, ⟨[1, n], x.data⟩)) ∧
    ((∀ n, x.shape ≠ [n]) → (∀ n p, x.shape ≠ [n, p]) →
      checkInput x = .error .valueError ∧ predictCheckInput x = .error .valueError) := by
  obtain ⟨sh, d⟩ := x
  constructor
  · rintro n rfl hn
    simp [checkInput, predictCheckInput, hn]
  · intro h1 h2
    match sh, h1, h2 with
    | [], _, _ => exact ⟨rfl, rfl⟩
    | [n], h1, _ => exact absurd rfl (h1 n)
    | [n, p], _, h2 => exact absurd rfl (h2 n p)
    | _ :: _ :: _ :: _, _, _ => exact ⟨rfl, rfl⟩

/-! ### C70 -/

/-- C70: entry `i` of `nandot(X, y)` sums the products over the positions available in both. -/
theorem C70_nandot_available {p n : ℕ} (x : NMat K p n) (y : Fin n → Option K) (i : Fin p) :
    nandot x y i = ∑ k ∈ Finset.univ.filter (fun k => (x i k).isSome ∧ (y k).isSome),
      (x i k).getD 0 * (y k).getD 0 := by
  unfold nandot
  rw [List.sum_ofFn, Finset.sum_filter]
  apply Finset.sum_congr rfl
  intro k _
  cases x i k <;> cases y k <;> simp [nanMul]

/-- C70: on complete data `nandot` is the matrix-vector product. -/
theorem C70_nandot_complete {p n : ℕ} (a : Fin p → Fin n → K) (b : Fin n → K) (i : Fin p) :
    nandot (fun i k => some (a i k)) (fun k => some (b k)) i = ∑ k, a i k * b k := by
  rw [C70_nandot_available]; simp

/-- C70 (partial).  Full claim: `nanmatdot(X, Y)` is the matrix product on complete data.  For
`Y` with two or more columns what is returned is its *transpose*: entry `(j,i)` is the inner product of row `i` of `X` and column `j` of `Y`.
Refuted as stated by `C70_nanmatdot_violated`. -/
theorem C70_nanmatdot_transposed_partial {p n q : ℕ} (a : Fin p → Fin n → K) (b : Fin n → Fin q → K)
    (i : Fin p) (j : Fin q) :
    nanmatdot (fun i k => some (a i k)) (fun k j => some (b k j)) j i = ∑ k, a i k * b k j := by
  unfold nanmatdot
  rw [List.sum_ofFn]
  rfl

/-- C70 (partial): for `XᵀX` (the only use in the package) the transposition is harmless: the
result is the cross-product matrix. -/
theorem C70_nanmatdot_crossprod_partial {p n : ℕ} (a : Fin n → Fin p → K) (i j : Fin p) :
    nanmatdot (fun i k => some (a k i)) (fun k j => some (a k j)) i j = ∑ k, a k i * a k j := by
  rw [C70_nanmatdot_transposed_partial (fun i k => a k i) a j i]
  exact Finset.sum_congr rfl (fun k _ => mul_comm _ _)

end

/-! ### Witnesses -/

/-- The real square root meets the assumption on `sq`. -/
theorem real_isSqrt : IsSqrt Real.sqrt := fun v hv => ⟨Real.sqrt_nonneg v, Real.mul_self_sqrt hv⟩

/-- A 4 × 2 matrix whose first column is nonconstant but has MAD zero. -/
def exX : NDArray ℚ := ⟨[4, 2], [1, 10, 1, 20, 1, 30, 5, 40]⟩

/-- C09 violated: MAD scaling of `exX`; the value 5 in the first column comes back as 1. -/
theorem C09_roundtrip_violated :
    exX.Wf ∧ ∃ sc z, Scaler.fit .median .mad id 0 exX = .ok sc ∧ sc.transform exX = .ok z ∧
      sc.inverse z = .ok ⟨[4, 2], [1, 10, 1, 20, 1, 30, 1, 40]⟩ := by
  refine ⟨by decide, ⟨[1, 25], [0, 10 / madConst]⟩,
    ⟨[4, 2], [0, -3/2 * madConst, 0, -1/2 * madConst, 0, 1/2 * madConst, 4, 3/2 * madConst]⟩, ?_⟩
  decide +kernel

/-- C09 violated for one-row matrices: the row `(1, 2)` comes back as a 2 × 2 matrix. -/
theorem C09_roundtrip_one_row_violated :
    ∃ (sc : Scaler ℚ) (x z y : NDArray ℚ), x.shape = [1, 2] ∧ x.Wf ∧ sc.center.length = 2 ∧
      sc.scale = [1, 1] ∧ sc.transform x = .ok z ∧ sc.inverse z = .ok y ∧ y ≠ x ∧ y.shape = [2, 2] :=
  ⟨⟨[0, 0], [1, 1]⟩, ⟨[1, 2], [1, 2]⟩, ⟨[2, 1], [1, 2]⟩, ⟨[2, 2], [1, 1, 2, 2]⟩, by decide +kernel⟩

/-- C10 violated: the case `(6, 6)` standardised on its own gives a column `(5, 5)` computed with
the location and scale of the *first* variable only; as part of a larger matrix it gives `(5, 2)`. -/
theorem C10_one_row_violated :
    ∃ (sc : Scaler ℚ) (x y z w : NDArray ℚ), x.shape = [1, 2] ∧ x.Wf ∧ y.shape = [2, 2] ∧ y.Wf ∧
      x.row 2 0 = y.row 2 0 ∧ sc.transform x = .ok z ∧ sc.transform y = .ok w ∧
      z = ⟨[2, 1], [5, 5]⟩ ∧ w.row 2 0 = [5, 2] :=
  ⟨⟨[1, 2], [1, 2]⟩, ⟨[1, 2], [6, 6]⟩, ⟨[2, 2], [6, 6, 0, 0]⟩, ⟨[2, 1], [5, 5]⟩,
    ⟨[2, 2], [5, 2, -1, -1]⟩, by decide +kernel⟩

/-- C70 violated: for a 1 × 2 times 2 × 2 product the result has shape 2 × 1 (`Fin 2 → Fin 1 → ℚ`)
and for square factors it is not the product. -/
theorem C70_nanmatdot_violated :
    ∃ (a b : Fin 2 → Fin 2 → ℚ) (i j : Fin 2),
      nanmatdot (fun i k => some (a i k)) (fun k j => some (b k j)) i j ≠ ∑ k, a i k * b k j :=
  ⟨![![1, 2], ![3, 4]], ![![1, 0], ![1, 1]], 0, 1, by decide +kernel⟩

-- non-vacuity: a concrete fit, transform and refit over the rationals
example : (exX.shape = [4, 2]) ∧ exX.Wf ∧
    Scaler.fit .mean .mad id 0 exX = .ok ⟨[2, 25], [0, 10 / madConst]⟩ := by decide +kernel
-- non-vacuity of the C09 hypotheses: nonzero scales, at least two rows
example : ∃ z, (⟨[1, 25], [2, 10]⟩ : Scaler ℚ).transform exX = .ok z ∧
    (⟨[1, 25], [2, 10]⟩ : Scaler ℚ).inverse z = .ok exX :=
  C09_roundtrip_partial _ exX 4 2 rfl (by decide) (by norm_num) (by norm_num) rfl rfl (by
    intro i _ j hj h
    interval_cases j <;> simp at h)
example : nandot (![![some 1, none, some 2]] : NMat ℚ 1 3) ![some 3, some 4, some 5] 0 = 13 := by
  decide +kernel

end Direpack
