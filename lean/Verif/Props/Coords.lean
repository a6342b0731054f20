import Verif.Coords
import Verif.Spec.Coords
import Verif.Props.SudireObj
import Mathlib.LinearAlgebra.AffineSpace.Independent
import Mathlib.LinearAlgebra.Matrix.ToLinearEquiv
import Mathlib.Tactic.LinearCombination
import Mathlib.Tactic.IntervalCases
import Mathlib.LinearAlgebra.AffineSpace.FiniteDimensional

/-! C130: distance matrices as data. -/

namespace Direpack

open scoped BigOperators
open Spec

variable {n p : ℕ}

lemma sq_lin_sum {r q : ℕ} (a : Fin r → ℝ) (f : Fin r → Fin q → ℝ) :
    ∑ k, (∑ i, a i * f i k) ^ 2 = ∑ i, ∑ j, a i * a j * ∑ k, f i k * f j k := by
  have e : ∀ k, (∑ i, a i * f i k) ^ 2 = ∑ i, ∑ j, a i * a j * (f i k * f j k) := by
    intro k
    rw [sq, Finset.sum_mul_sum]
    exact Finset.sum_congr rfl fun i _ => Finset.sum_congr rfl fun j _ => by ring
  simp only [e, Finset.mul_sum]
  rw [Finset.sum_comm]
  exact Finset.sum_congr rfl fun i _ => Finset.sum_comm

/-- Points of which the products are known: the points `z` in `r + 1` coordinates with given products with `r` independent points in a hyperplane and a given norm. -/
lemma coords_solutions {r p : ℕ} (x : Fin (r + 1) → Fin (r + 1) → ℝ) (u : Fin (r + 1) → Fin p → ℝ) (v : Fin p → ℝ)
    (hx0 : ∀ c, x 0 c = 0) (hu0 : ∀ k, u 0 k = 0) (hlast : ∀ i, x i (Fin.last r) = 0)
    (hg : ∀ i j, ∑ c, x i c * x j c = ∑ k, u i k * u j k)
    (hind : ∀ a : Fin (r + 1) → ℝ, (∀ k, ∑ i, a i * u i k = 0) → ∀ i, i ≠ 0 → a i = 0) :
    ∃ (b a : Fin (r + 1) → ℝ) (η : ℝ), 0 ≤ η ∧ η ^ 2 = ∑ k, (v k - ∑ i, a i * u i k) ^ 2 ∧
      (∀ j, ∑ k, (v k - ∑ i, a i * u i k) * u j k = 0) ∧
      ∀ z : Fin (r + 1) → ℝ, (∑ c, z c ^ 2 = ∑ k, v k ^ 2 ∧ ∀ i, ∑ c, x i c * z c = ∑ k, v k * u i k) ↔
        z = (fun c => b c + if c = Fin.last r then η else 0) ∨ z = (fun c => b c + if c = Fin.last r then -η else 0) := by
  classical
  set M : Matrix (Fin (r + 1)) (Fin (r + 1)) ℝ := Matrix.of fun i c => if i = 0 then (if c = Fin.last r then 1 else 0) else x i c with hM
  have hMv : ∀ (z : Fin (r + 1) → ℝ) i, M.mulVec z i = if i = 0 then z (Fin.last r) else ∑ c, x i c * z c := by
    intro z i
    simp only [Matrix.mulVec, dotProduct, hM, Matrix.of_apply]
    split
    · simp
    · rfl
  have hdet : M.det ≠ 0 := by
    intro h
    obtain ⟨a, ha, h0⟩ := Matrix.exists_vecMul_eq_zero_iff.mpr h
    have hc : ∀ c, a 0 * (if c = Fin.last r then 1 else 0) + ∑ i : Fin r, a i.succ * x i.succ c = 0 := by
      intro c
      have := congrFun h0 c
      simp only [Matrix.vecMul, dotProduct, hM, Matrix.of_apply, Fin.sum_univ_succ, if_true, Fin.succ_ne_zero, if_false] at this
      exact this
    have ha0 : a 0 = 0 := by
      have := hc (Fin.last r)
      simp only [if_true, hlast, mul_zero, Finset.sum_const_zero, mul_one, add_zero] at this
      exact this
    have hxs : ∀ c, ∑ i, a i * x i c = 0 := by
      intro c
      have := hc c
      rw [Fin.sum_univ_succ, hx0]
      rw [ha0] at this ⊢
      simpa using this
    have hus : ∑ k, (∑ i, a i * u i k) ^ 2 = 0 := by
      have e1 := sq_lin_sum a u
      have e2 := sq_lin_sum a x
      rw [e1]
      simp only [← hg]
      rw [← e2]
      simp [hxs]
    have huz : ∀ k, ∑ i, a i * u i k = 0 := by
      intro k
      have := (Finset.sum_eq_zero_iff_of_nonneg fun k _ => sq_nonneg _).mp hus k (Finset.mem_univ _)
      exact pow_eq_zero_iff two_ne_zero |>.mp this
    apply ha
    funext i
    by_cases hi : i = 0
    · rw [hi]; exact ha0
    · exact hind a huz i hi
  have hunit : IsUnit M.det := isUnit_iff_ne_zero.mpr hdet
  set rhs : Fin (r + 1) → ℝ := fun i => if i = 0 then 0 else ∑ k, v k * u i k with hrhs
  set b := M⁻¹.mulVec rhs with hb
  have hMb : M.mulVec b = rhs := by rw [hb, Matrix.mulVec_mulVec, Matrix.mul_nonsing_inv _ hunit, Matrix.one_mulVec]
  set a := Matrix.vecMul b M⁻¹ with ha
  have haM : Matrix.vecMul a M = b := by rw [ha, Matrix.vecMul_vecMul, Matrix.nonsing_inv_mul _ hunit, Matrix.vecMul_one]
  have hbl : b (Fin.last r) = 0 := by
    have := congrFun hMb 0
    rw [hMv] at this
    simpa [hrhs] using this
  have hbc : ∀ c, b c = a 0 * (if c = Fin.last r then 1 else 0) + ∑ i : Fin r, a i.succ * x i.succ c := by
    intro c
    have := congrFun haM c
    simp only [Matrix.vecMul, dotProduct, hM, Matrix.of_apply, Fin.sum_univ_succ, if_true, Fin.succ_ne_zero, if_false] at this
    exact this.symm
  have ha0 : a 0 = 0 := by
    have := hbc (Fin.last r)
    simp only [hbl, if_true, hlast, mul_zero, Finset.sum_const_zero, mul_one, add_zero] at this
    exact this.symm
  have hbs : ∀ c, b c = ∑ i, a i * x i c := by
    intro c
    rw [hbc, Fin.sum_univ_succ, ha0]
    simp
  have hbx : ∀ i, ∑ c, x i c * b c = ∑ k, v k * u i k := by
    intro i
    by_cases hi : i = 0
    · rw [hi]; simp [hx0, hu0]
    · have := congrFun hMb i
      rw [hMv, if_neg hi] at this
      rw [this, hrhs]
      simp [hi]
  have hqu : ∀ j, ∑ k, (∑ i, a i * u i k) * u j k = ∑ k, v k * u j k := by
    intro j
    rw [← hbx j]
    have e1 : ∑ k, (∑ i, a i * u i k) * u j k = ∑ i, a i * ∑ k, u i k * u j k := by
      simp only [Finset.sum_mul, Finset.mul_sum]
      rw [Finset.sum_comm]
      exact Finset.sum_congr rfl fun i _ => Finset.sum_congr rfl fun k _ => by ring
    rw [e1]
    simp only [← hg, hbs, Finset.mul_sum]
    rw [Finset.sum_comm]
    exact Finset.sum_congr rfl fun c _ => Finset.sum_congr rfl fun i _ => by ring
  have horth : ∀ j, ∑ k, (v k - ∑ i, a i * u i k) * u j k = 0 := by
    intro j
    simp only [sub_mul, Finset.sum_sub_distrib]
    rw [hqu j, sub_self]
  have hbb : ∑ c, b c ^ 2 = ∑ k, v k * ∑ i, a i * u i k := by
    have e1 : ∑ c, b c ^ 2 = ∑ i, a i * ∑ c, x i c * b c := by
      simp only [Finset.mul_sum]
      rw [Finset.sum_comm]
      refine Finset.sum_congr rfl fun c _ => ?_
      rw [sq]
      nth_rewrite 1 [hbs c]
      rw [Finset.sum_mul]
      exact Finset.sum_congr rfl fun i _ => by ring
    rw [e1]
    simp only [hbx, Finset.mul_sum]
    rw [Finset.sum_comm]
    exact Finset.sum_congr rfl fun c _ => Finset.sum_congr rfl fun i _ => by ring
  have hη : ∑ k, (v k - ∑ i, a i * u i k) ^ 2 = ∑ k, v k ^ 2 - ∑ c, b c ^ 2 := by
    have e0 : ∑ k, (v k - ∑ i, a i * u i k) * ∑ i, a i * u i k = 0 := by
      have e1 : ∑ k, (v k - ∑ i, a i * u i k) * ∑ i, a i * u i k = ∑ j, a j * ∑ k, (v k - ∑ i, a i * u i k) * u j k := by
        simp only [Finset.mul_sum]
        rw [Finset.sum_comm]
        exact Finset.sum_congr rfl fun j _ => Finset.sum_congr rfl fun k _ => by ring
      rw [e1]
      simp [horth]
    rw [hbb]
    have : ∀ k, (v k - ∑ i, a i * u i k) ^ 2 = v k ^ 2 - v k * (∑ i, a i * u i k) - (v k - ∑ i, a i * u i k) * ∑ i, a i * u i k := fun k => by ring
    simp only [this]
    rw [Finset.sum_sub_distrib, Finset.sum_sub_distrib, e0, sub_zero]
  have hnn : 0 ≤ ∑ k, (v k - ∑ i, a i * u i k) ^ 2 := Finset.sum_nonneg fun k _ => sq_nonneg _
  have hsol : ∀ t : ℝ, t ^ 2 = ∑ k, (v k - ∑ i, a i * u i k) ^ 2 →
      ∑ c, (b c + if c = Fin.last r then t else 0) ^ 2 = ∑ k, v k ^ 2 ∧
      ∀ i, ∑ c, x i c * (b c + if c = Fin.last r then t else 0) = ∑ k, v k * u i k := by
    intro t ht
    constructor
    · have : ∀ c, (b c + if c = Fin.last r then t else 0) ^ 2 = b c ^ 2 + if c = Fin.last r then t ^ 2 else 0 := by
        intro c
        split
        · rename_i hc; rw [hc, hbl]; ring
        · ring
      simp only [this, Finset.sum_add_distrib, Finset.sum_ite_eq', Finset.mem_univ, if_true]
      rw [ht, hη]
      ring
    · intro i
      rw [← hbx i]
      refine Finset.sum_congr rfl fun c _ => ?_
      split
      · rename_i hc; rw [hc, hlast]; ring
      · ring
  refine ⟨b, a, Real.sqrt (∑ k, (v k - ∑ i, a i * u i k) ^ 2), Real.sqrt_nonneg _, Real.sq_sqrt hnn, horth, fun z => ⟨fun hz => ?_, fun hz => ?_⟩⟩
  · set t := z (Fin.last r) with ht
    have hw : (fun c => z c - (b c + if c = Fin.last r then t else 0)) = 0 := by
      apply Matrix.eq_zero_of_mulVec_eq_zero hdet
      funext i
      rw [hMv]
      by_cases hi : i = 0
      · rw [if_pos hi]
        simp [hbl, ht]
      · rw [if_neg hi]
        simp only [mul_sub, Finset.sum_sub_distrib, Pi.zero_apply]
        rw [hz.2 i, sub_eq_zero, ← hbx i]
        refine Finset.sum_congr rfl fun c _ => ?_
        split
        · rename_i hc; rw [hc, hlast]; ring
        · ring
    have hzc : ∀ c, z c = b c + if c = Fin.last r then t else 0 := fun c => by
      have := congrFun hw c
      simp only [Pi.zero_apply, sub_eq_zero] at this
      exact this
    have hzz : ∑ c, z c ^ 2 = ∑ c, b c ^ 2 + t ^ 2 := by
      have : ∀ c, z c ^ 2 = b c ^ 2 + if c = Fin.last r then t ^ 2 else 0 := by
        intro c
        rw [hzc c]
        split
        · rename_i hc; rw [hc, hbl]; ring
        · ring
      simp only [this, Finset.sum_add_distrib, Finset.sum_ite_eq', Finset.mem_univ, if_true]
    have ht2 : t ^ 2 = Real.sqrt (∑ k, (v k - ∑ i, a i * u i k) ^ 2) ^ 2 := by
      rw [Real.sq_sqrt hnn, hη, ← hz.1, hzz]
      ring
    rcases sq_eq_sq_iff_eq_or_eq_neg.mp ht2 with h | h
    · left; funext c; rw [hzc c, h]
    · right; funext c; rw [hzc c, h]
  · rcases hz with rfl | rfl
    · exact hsol _ (Real.sq_sqrt hnn)
    · exact hsol _ (by rw [neg_sq]; exact Real.sq_sqrt hnn)

/-! ### Coordinates that are found have the given distances -/

lemma coordsUpTo_sound {solve : CoordSolver} (hs : IsCoordSolver solve) (D : ℕ → ℕ → ℝ) (m : ℕ) : ∀ X, coordsUpTo solve D m = .ok X →
    (∀ i c, i ≤ c → X i c = 0) ∧ ∀ i j, i < j → j < m → ∑ c ∈ Finset.range m, (X i c - X j c) ^ 2 = D i j ^ 2 := by
  induction m with
  | zero =>
    intro X h
    simp only [coordsUpTo, Except.ok.injEq] at h
    rw [← h]
    exact ⟨fun _ _ _ => rfl, fun i j _ hj => by omega⟩
  | succ m ih =>
    intro X' h
    rw [coordsUpTo] at h
    split at h
    · simp at h
    · rename_i X hX
      obtain ⟨h0, hd⟩ := ih X hX
      split at h
      · rename_i hm
        simp only [Except.ok.injEq] at h
        subst h hm
        exact ⟨h0, fun i j hij hj => by omega⟩
      · split at h
        · simp at h
        · rename_i z hz
          simp only [Except.ok.injEq] at h
          subst h
          have hmem := hs.sound _ _ _ (List.mem_of_getElem? hz)
          have hzero : ∀ i c, i ≤ c → (if i = m then (if h : c < m then z ⟨c, h⟩ else 0) else X i c) = 0 := by
            intro i c hic
            split
            · rw [dif_neg (by omega)]
            · exact h0 i c hic
          refine ⟨hzero, fun i j hij hj => ?_⟩
          dsimp only
          rw [Finset.sum_range_succ, hzero i m (by omega), hzero j m (by omega), sub_self, zero_pow two_ne_zero, add_zero]
          by_cases hjm : j = m
          · subst hjm
            have := hmem ⟨i, hij⟩
            rw [← this, Finset.sum_range]
            refine Finset.sum_congr rfl fun c _ => ?_
            rw [if_neg (by omega), if_pos rfl, dif_pos c.2]
          · rw [← hd i j hij (by omega)]
            refine Finset.sum_congr rfl fun c _ => ?_
            rw [if_neg (by omega), if_neg hjm]

lemma two_of_mem {α : Type} {l : List α} {x y : α} (hx : x ∈ l) (hy : y ∈ l) (hxy : x ≠ y) : ∃ z, l[1]? = some z := by
  match l, hx, hy with
  | [], h, _ => simp at h
  | [w], h1, h2 => simp at h1 h2; exact absurd (h1.trans h2.symm) hxy
  | _ :: w :: _, _, _ => exact ⟨w, rfl⟩

lemma none_of_all_eq {α : Type} {l : List α} (hn : l.Nodup) {x : α} (hx : ∀ y ∈ l, y = x) : l[1]? = none := by
  match l with
  | [] => rfl
  | [w] => rfl
  | v :: w :: t =>
    have h1 := hx v (by simp)
    have h2 := hx w (by simp)
    subst h1
    simp [h2] at hn

/-- The differences from the first point are independent, up to point `m`. -/
def Indep (P : ℕ → Fin p → ℝ) (m : ℕ) : Prop :=
  ∀ a : ℕ → ℝ, (∀ k, ∑ i ∈ Finset.range m, a i * (P i k - P 0 k) = 0) → ∀ i, 1 ≤ i → i < m → a i = 0

lemma coordsUpTo_iff {solve : CoordSolver} (hs : IsCoordSolver solve) (P : ℕ → Fin p → ℝ) (D : ℕ → ℕ → ℝ) (N : ℕ)
    (hD : ∀ i j, i < N → j < N → D i j = euclid (P i) (P j)) (m : ℕ) (hm : 1 ≤ m) (hmN : m ≤ N) :
    (∃ X, coordsUpTo solve D m = .ok X) ↔ Indep P m := by
  induction m, hm using Nat.le_induction with
  | base =>
    exact ⟨fun _ a _ i h1 h2 => by omega, fun _ => ⟨fun _ _ => 0, rfl⟩⟩
  | succ m hm ih =>
    have ih := ih (by omega)
    have hdown : Indep P (m + 1) → Indep P m := by
      intro h a ha i h1 h2
      have := h (fun j => if j = m then 0 else a j) (fun k => by
        rw [Finset.sum_range_succ, if_pos rfl, zero_mul, add_zero, ← ha k]
        exact Finset.sum_congr rfl fun j hj => by rw [if_neg (by have := Finset.mem_range.mp hj; omega)]) i h1 (by omega)
      rwa [if_neg (by omega)] at this
    -- the solutions of the system for point `m`
    have key : ∀ X, coordsUpTo solve D m = .ok X → Indep P m →
        ((∃ z, (solve (fun (j c : Fin m) => X j c) (fun j => D j m))[1]? = some z) ↔ Indep P (m + 1)) := by
      intro X hX hI
      obtain ⟨h0, hd⟩ := coordsUpTo_sound hs D m X hX
      obtain ⟨r, rfl⟩ : ∃ r, m = r + 1 := ⟨m - 1, by omega⟩
      have hDsq : ∀ i j, i < N → j < N → D i j ^ 2 = ∑ k, (P i k - P j k) ^ 2 := fun i j hi hj => by
        rw [hD i j hi hj, euclid, Real.sq_sqrt (Finset.sum_nonneg fun _ _ => sq_nonneg _)]
      have hdist : ∀ i j : Fin (r + 1), ∑ c : Fin (r + 1), (X i c - X j c) ^ 2 = ∑ k, (P i k - P j k) ^ 2 := by
        intro i j
        have hlt : ∀ i j : Fin (r + 1), i < j → ∑ c : Fin (r + 1), (X i c - X j c) ^ 2 = ∑ k, (P i k - P j k) ^ 2 := by
          intro i j hij
          rw [← hDsq i j (by omega) (by omega), ← hd i j hij j.2, Finset.sum_range]
        rcases lt_trichotomy i j with h | h | h
        · exact hlt i j h
        · rw [h]; simp
        · have := hlt j i h
          calc ∑ c : Fin (r + 1), (X i c - X j c) ^ 2 = ∑ c : Fin (r + 1), (X j c - X i c) ^ 2 := Finset.sum_congr rfl fun c _ => by ring
            _ = ∑ k, (P j k - P i k) ^ 2 := this
            _ = _ := Finset.sum_congr rfl fun c _ => by ring
      have hx0 : ∀ c : Fin (r + 1), X (0 : Fin (r + 1)) c = 0 := fun c => h0 _ _ (Nat.zero_le _)
      have hsqn : ∀ i : Fin (r + 1), ∑ c : Fin (r + 1), X i c ^ 2 = ∑ k, (P i k - P 0 k) ^ 2 := by
        intro i
        have := hdist i 0
        simp only [hx0, sub_zero] at this
        exact this
      have hgram : ∀ i j : Fin (r + 1), ∑ c : Fin (r + 1), X i c * X j c = ∑ k, (P i k - P 0 k) * (P j k - P 0 k) := by
        intro i j
        have h1 := hdist i j
        have e1 : ∑ c : Fin (r + 1), (X i c - X j c) ^ 2 = ∑ c : Fin (r + 1), X i c ^ 2 + ∑ c : Fin (r + 1), X j c ^ 2 - 2 * ∑ c : Fin (r + 1), X i c * X j c := by
          rw [Finset.mul_sum, ← Finset.sum_add_distrib, ← Finset.sum_sub_distrib]
          exact Finset.sum_congr rfl fun c _ => by ring
        have e2 : ∑ k, (P i k - P j k) ^ 2 = ∑ k, (P i k - P 0 k) ^ 2 + ∑ k, (P j k - P 0 k) ^ 2 - 2 * ∑ k, (P i k - P 0 k) * (P j k - P 0 k) := by
          rw [Finset.mul_sum, ← Finset.sum_add_distrib, ← Finset.sum_sub_distrib]
          exact Finset.sum_congr rfl fun c _ => by ring
        rw [e1, e2, hsqn, hsqn] at h1
        linarith
      have hindF : ∀ a : Fin (r + 1) → ℝ, (∀ k, ∑ i : Fin (r + 1), a i * (P i k - P 0 k) = 0) → ∀ i, i ≠ 0 → a i = 0 := by
        intro a ha i hi
        have := hI (fun j => if h : j < r + 1 then a ⟨j, h⟩ else 0) (fun k => by
          rw [Finset.sum_range, ← ha k]
          exact Finset.sum_congr rfl fun j _ => by rw [dif_pos j.2]) i (Nat.one_le_iff_ne_zero.mpr fun h => hi (Fin.ext h)) i.2
        rwa [dif_pos i.2] at this
      obtain ⟨b, a, η, hη0, hη, horth, hsol⟩ := coords_solutions (fun (i c : Fin (r + 1)) => X i c) (fun (i : Fin (r + 1)) k => P i k - P 0 k)
        (fun k => P (r + 1) k - P 0 k) hx0 (fun k => sub_self _) (fun i => h0 _ _ (by simp; omega)) hgram hindF
      have hhas : ∀ z, HasDistances (fun (j c : Fin (r + 1)) => X j c) (fun j => D j (r + 1)) z ↔
          z = (fun c => b c + if c = Fin.last r then η else 0) ∨ z = (fun c => b c + if c = Fin.last r then -η else 0) := by
        intro z
        rw [← hsol z]
        have e1 : ∀ j : Fin (r + 1), ∑ c : Fin (r + 1), (X j c - z c) ^ 2 =
            ∑ k, (P j k - P 0 k) ^ 2 + ∑ c, z c ^ 2 - 2 * ∑ c : Fin (r + 1), X j c * z c := by
          intro j
          rw [← hsqn j, Finset.mul_sum, ← Finset.sum_add_distrib, ← Finset.sum_sub_distrib]
          exact Finset.sum_congr rfl fun c _ => by ring
        have e2 : ∀ j : Fin (r + 1), D j (r + 1) ^ 2 = ∑ k, (P j k - P 0 k) ^ 2 + ∑ k, (P (r + 1) k - P 0 k) ^ 2 -
            2 * ∑ k, (P (r + 1) k - P 0 k) * (P j k - P 0 k) := by
          intro j
          rw [hDsq j (r + 1) (by omega) (by omega), Finset.mul_sum, ← Finset.sum_add_distrib, ← Finset.sum_sub_distrib]
          exact Finset.sum_congr rfl fun c _ => by ring
        unfold HasDistances
        simp only [e1, e2]
        constructor
        · intro h
          have h00 := h 0
          have hx0' : ∀ c : Fin (r + 1), X 0 c = 0 := hx0
          simp only [Fin.val_zero, hx0', zero_mul, Finset.sum_const_zero, mul_zero, sub_zero, sub_self] at h00
          have hz : ∑ c, z c ^ 2 = ∑ k, (P (r + 1) k - P 0 k) ^ 2 := by linarith
          exact ⟨hz, fun i => by have := h i; rw [hz] at this; linarith⟩
        · rintro ⟨h1, h2⟩ j
          rw [h1, h2 j]
      have hfin : {z | HasDistances (fun (j c : Fin (r + 1)) => X j c) (fun j => D j (r + 1)) z}.Finite := by
        refine Set.Finite.subset (Set.toFinite {(fun c => b c + if c = Fin.last r then η else 0), (fun c => b c + if c = Fin.last r then -η else 0)}) ?_
        intro z hz
        simpa using (hhas z).mp hz
      have hηI : η ≠ 0 ↔ Indep P (r + 1 + 1) := by
        constructor
        · intro hne a' ha' i h1 h2
          -- the last coefficient
          have hlastc : a' (r + 1) = 0 := by
            have e : ∀ k, ∑ i : Fin (r + 1), a' i * (P i k - P 0 k) + a' (r + 1) * (P (r + 1) k - P 0 k) = 0 := by
              intro k
              have := ha' k
              rwa [Finset.sum_range_succ, Finset.sum_range] at this
            have hsum : ∑ k, (P (r + 1) k - P 0 k - ∑ i : Fin (r + 1), a i * (P i k - P 0 k)) *
                (∑ i : Fin (r + 1), a' i * (P i k - P 0 k) + a' (r + 1) * (P (r + 1) k - P 0 k)) = 0 := by simp [e]
            have hlin : ∀ cc : Fin (r + 1) → ℝ, ∑ k, (P (r + 1) k - P 0 k - ∑ i : Fin (r + 1), a i * (P i k - P 0 k)) *
                (∑ i : Fin (r + 1), cc i * (P i k - P 0 k)) = 0 := by
              intro cc
              have : ∑ k, (P (r + 1) k - P 0 k - ∑ i : Fin (r + 1), a i * (P i k - P 0 k)) * (∑ i : Fin (r + 1), cc i * (P i k - P 0 k)) =
                  ∑ j, cc j * ∑ k, (P (r + 1) k - P 0 k - ∑ i : Fin (r + 1), a i * (P i k - P 0 k)) * (P j k - P 0 k) := by
                simp only [Finset.mul_sum]
                rw [Finset.sum_comm]
                exact Finset.sum_congr rfl fun j _ => Finset.sum_congr rfl fun k _ => by ring
              rw [this]
              simp only [horth, mul_zero, Finset.sum_const_zero]
            have h3 := hlin fun i => a' i + a' (r + 1) * a i
            have h4 : ∑ k, (P (r + 1) k - P 0 k - ∑ i : Fin (r + 1), a i * (P i k - P 0 k)) *
                (∑ i : Fin (r + 1), a' i * (P i k - P 0 k) + a' (r + 1) * (P (r + 1) k - P 0 k)) =
                ∑ k, (P (r + 1) k - P 0 k - ∑ i : Fin (r + 1), a i * (P i k - P 0 k)) *
                  (∑ i : Fin (r + 1), (a' i + a' (r + 1) * a i) * (P i k - P 0 k)) + a' (r + 1) * η ^ 2 := by
              rw [hη, Finset.mul_sum, ← Finset.sum_add_distrib]
              refine Finset.sum_congr rfl fun k _ => ?_
              have : ∑ i : Fin (r + 1), (a' i + a' (r + 1) * a i) * (P i k - P 0 k) =
                  ∑ i : Fin (r + 1), a' i * (P i k - P 0 k) + a' (r + 1) * ∑ i : Fin (r + 1), a i * (P i k - P 0 k) := by
                rw [Finset.mul_sum, ← Finset.sum_add_distrib]
                exact Finset.sum_congr rfl fun i _ => by ring
              rw [this]
              ring
            rw [h4, h3, zero_add] at hsum
            rcases mul_eq_zero.mp hsum with h | h
            · exact h
            · exact absurd (pow_eq_zero_iff two_ne_zero |>.mp h) hne
          by_cases him : i = r + 1
          · rw [him]; exact hlastc
          · refine hI a' (fun k => ?_) i h1 (by omega)
            have := ha' k
            rw [Finset.sum_range_succ, hlastc] at this
            linarith
        · intro hI' h
          have hz : ∀ k, P (r + 1) k - P 0 k - ∑ i : Fin (r + 1), a i * (P i k - P 0 k) = 0 := by
            intro k
            rw [h, zero_pow two_ne_zero] at hη
            have := (Finset.sum_eq_zero_iff_of_nonneg fun k _ => sq_nonneg _).mp hη.symm k (Finset.mem_univ _)
            exact pow_eq_zero_iff two_ne_zero |>.mp this
          have := hI' (fun j => if h : j < r + 1 then - a ⟨j, h⟩ else 1) (fun k => by
            rw [Finset.sum_range_succ, Finset.sum_range, dif_neg (by omega), ← hz k]
            have : ∑ i : Fin (r + 1), (if h : (i : ℕ) < r + 1 then - a ⟨i, h⟩ else 1) * (P i k - P 0 k) =
                - ∑ i : Fin (r + 1), a i * (P i k - P 0 k) := by
              rw [← Finset.sum_neg_distrib]
              exact Finset.sum_congr rfl fun j _ => by rw [dif_pos j.2]; ring
            rw [this]
            ring) (r + 1) (by omega) (by omega)
          rw [dif_neg (by omega)] at this
          exact one_ne_zero this
      rw [← hηI]
      constructor
      · rintro ⟨z, hz⟩ hne
        have hall : ∀ y ∈ solve (fun (j c : Fin (r + 1)) => X j c) (fun j => D j (r + 1)), y = b := by
          intro y hy
          have h1 := (hhas y).mp (hs.sound _ _ _ hy)
          rw [hne] at h1
          simpa using h1
        rw [none_of_all_eq (hs.nodup _ _) hall] at hz
        simp at hz
      · intro hne
        have m1 := hs.complete _ _ hfin _ ((hhas _).mpr (Or.inl rfl))
        have m2 := hs.complete _ _ hfin _ ((hhas _).mpr (Or.inr rfl))
        refine two_of_mem m1 m2 fun h => ?_
        have := congrFun h (Fin.last r)
        simp only [if_true, add_right_inj] at this
        exact hne (by linarith)
    constructor
    · rintro ⟨X', h⟩
      rw [coordsUpTo] at h
      split at h
      · simp at h
      · rename_i X hX
        rw [if_neg (by omega)] at h
        split at h
        · simp at h
        · rename_i z hz
          exact (key X hX (ih.mp ⟨X, hX⟩)).mp ⟨z, hz⟩
    · intro hI
      obtain ⟨X, hX⟩ := ih.mpr (hdown hI)
      obtain ⟨z, hz⟩ := (key X hX (hdown hI)).mpr hI
      rw [coordsUpTo, hX]
      dsimp only
      rw [if_neg (by omega), hz]
      exact ⟨_, rfl⟩

/-- C130 (partial: the coordinates, when they are found): the rows of the result have the distances in the table, and row `i` has zeros from column `i`
on. -/
theorem C130_coords_partial {solve : CoordSolver} (hs : IsCoordSolver solve) (D : Fin n → Fin n → ℝ) (hpos : ∀ i j, 0 ≤ D i j)
    (hsym : ∀ i j, D i j = D j i) (hdiag : ∀ i, D i i = 0) (X : Fin n → Fin (n - 1) → ℝ) (h : giveCoords solve D = .ok X) :
    (∀ i j, euclid (X i) (X j) = D i j) ∧ ∀ i c, i.1 ≤ c.1 → X i c = 0 := by
  unfold giveCoords at h
  split at h
  · simp at h
  · rename_i hn
    split at h
    · simp at h
    · split at h
      · simp at h
      · rename_i Y hY
        simp only [Except.ok.injEq] at h
        subst h
        obtain ⟨h0, hd⟩ := coordsUpTo_sound hs _ _ _ hY
        obtain ⟨r, rfl⟩ : ∃ r, n = r + 1 := ⟨n - 1, by omega⟩
        have hlt : ∀ i j : Fin (r + 1), i < j → euclid (fun c : Fin (r + 1 - 1) => Y i c) (fun c : Fin (r + 1 - 1) => Y j c) = D i j := by
          intro i j hij
          have h1 := hd i j hij j.2
          rw [Finset.sum_range_succ, h0 i r (by omega), h0 j r (by omega), sub_self, zero_pow two_ne_zero, add_zero, Finset.sum_range] at h1
          unfold euclid
          rw [show ∑ c : Fin (r + 1 - 1), (Y i c - Y j c) ^ 2 = padded D i j ^ 2 from h1, Real.sqrt_sq]
          · unfold padded
            rw [dif_pos ⟨i.2, j.2⟩]
          · unfold padded
            rw [dif_pos ⟨i.2, j.2⟩]
            exact hpos _ _
        refine ⟨fun i j => ?_, fun i c hic => h0 _ _ hic⟩
        rcases lt_trichotomy i j with hij | hij | hij
        · exact hlt i j hij
        · rw [hij, hdiag]; simp [euclid]
        · rw [hsym, ← hlt j i hij]
          unfold euclid
          congr 1
          exact Finset.sum_congr rfl fun c _ => by ring

lemma indep_iff (P : ℕ → Fin p → ℝ) (hn : 0 < n) : Indep P n ↔ AffineIndependent ℝ (fun i : Fin n => P i) := by
  rw [affineIndependent_iff]
  constructor
  · intro h s w hw hP
    have hk : ∀ k, ∑ i ∈ s, w i * P i k = 0 := fun k => by
      have := congrFun hP k
      simpa [Finset.sum_apply] using this
    have h1 : ∀ i : Fin n, i.1 ≠ 0 → (if i ∈ s then w i else 0) = 0 := by
      intro i hi
      have := h (fun j => if hj : j < n then (if ⟨j, hj⟩ ∈ s then w ⟨j, hj⟩ else 0) else 0) (fun k => by
        rw [Finset.sum_range]
        have : ∑ j : Fin n, (if hj : (j : ℕ) < n then (if (⟨j, hj⟩ : Fin n) ∈ s then w ⟨j, hj⟩ else 0) else 0) * (P j k - P 0 k) =
            ∑ j ∈ s, w j * P j k - (∑ j ∈ s, w j) * P 0 k := by
          rw [Finset.sum_mul, ← Finset.sum_sub_distrib, ← Finset.sum_subset (Finset.subset_univ s)]
          · refine Finset.sum_congr rfl fun j hj => ?_
            rw [dif_pos j.2, if_pos hj]
            ring
          · intro j _ hj
            rw [dif_pos j.2, if_neg hj, zero_mul]
        rw [this, hk, hw]
        ring) i (Nat.one_le_iff_ne_zero.mpr hi) i.2
      rwa [dif_pos i.2] at this
    intro e he
    by_cases he0 : e.1 = 0
    · have : ∑ i ∈ s, w i = w e := by
        refine Finset.sum_eq_single e (fun i hi hie => ?_) fun hh => absurd he hh
        have := h1 i fun h0 => hie (Fin.ext (h0.trans he0.symm))
        rwa [if_pos hi] at this
      rw [← this, hw]
    · have := h1 e he0
      rwa [if_pos he] at this
  · intro h a ha i h1 h2
    obtain ⟨r, rfl⟩ : ∃ r, n = r + 1 := ⟨n - 1, by omega⟩
    have := h Finset.univ (fun j => if j = 0 then - ∑ l : Fin r, a l.succ else a j) (by
      rw [Fin.sum_univ_succ]
      simp [Fin.succ_ne_zero]) (by
      funext k
      have := ha k
      rw [Finset.sum_range, Fin.sum_univ_succ] at this
      simp only [Fin.val_zero, sub_self, mul_zero, zero_add, Fin.val_succ] at this
      rw [Finset.sum_apply, Fin.sum_univ_succ]
      simp only [if_true, Fin.succ_ne_zero, if_false, Pi.smul_apply, smul_eq_mul, Pi.zero_apply, Fin.val_zero, Fin.val_succ]
      rw [neg_mul, Finset.sum_mul, ← this, neg_add_eq_sub, ← Finset.sum_sub_distrib]
      exact Finset.sum_congr rfl fun l _ => by ring) ⟨i, h2⟩ (Finset.mem_univ _)
    rwa [if_neg (fun h0 => by have := congrArg Fin.val h0; simp at this; omega)] at this

/-- C130 (partial): coordinates are found for the matrix of distances of `n` points exactly if the points are affinely independent. -/
theorem C130_coords_iff {solve : CoordSolver} (hs : IsCoordSolver solve) (hn : 0 < n) (P : Fin n → Fin p → ℝ) :
    (∃ X, giveCoords solve (fun i j => euclid (P i) (P j)) = .ok X) ↔ AffineIndependent ℝ P := by
  have h1 := coordsUpTo_iff hs (padded P |> fun Q i (k : Fin p) => Q i k) (padded fun i j => euclid (P i) (P j)) n (fun i j hi hj => by
    have e : ∀ i (h : i < n), (fun k : Fin p => padded P i k) = P ⟨i, h⟩ := fun i h => by
      funext k
      unfold padded
      rw [dif_pos ⟨h, k.2⟩]
    dsimp only
    rw [e i hi, e j hj]
    unfold padded
    rw [dif_pos ⟨hi, hj⟩]) n hn le_rfl
  rw [indep_iff _ hn] at h1
  have hP : (fun i : Fin n => (fun k : Fin p => padded P i k)) = P := by
    funext i k
    unfold padded
    rw [dif_pos ⟨i.2, k.2⟩]
  dsimp only at h1
  rw [hP] at h1
  rw [← h1]
  unfold giveCoords
  rw [if_neg (by omega), if_neg (by omega)]
  constructor
  · rintro ⟨X, h⟩
    split at h
    · simp at h
    · rename_i Y hY
      exact ⟨Y, hY⟩
  · rintro ⟨Y, hY⟩
    rw [hY]
    exact ⟨_, rfl⟩

/-- C130 (partial: the objectives, for vectors of the length that they need): for distances of affinely independent cases, the objectives are evaluated on
coordinates with these distances: minus ten times the distance covariance with the response, of which the distances are given too, and the
martingale difference divergence. -/
theorem C130_value_partial {solve : CoordSolver} (hs : IsCoordSolver solve) (hn : 0 < n) {q : ℕ} (P : Fin n → Fin p → ℝ) (hP : AffineIndependent ℝ P)
    (Q : Fin n → Fin q → ℝ) (hQ : AffineIndependent ℝ Q) (y : Fin n → ℝ) :
    ∃ C : Fin n → Fin (n - 1) → ℝ, (∀ i j, euclid (C i) (C j) = euclid (P i) (P j)) ∧ ∀ (h : ℕ) (B : Matrix (Fin (n - 1)) (Fin h) ℝ), 0 < h →
      dcovTrimDist solve .mean (fun i j => euclid (P i) (P j)) (fun i j => euclid (Q i) (Q j)) h 0 (vecF B) =
        .ok (-10 * √(dcov2 (fun c j => ∑ k, C c k * B k j) Q)) ∧
      mddTrimDist solve .mean false (fun i j => euclid (P i) (P j)) y h 0 (vecF B) = .ok (-10 * √(mdd2 (fun c j => ∑ k, C c k * B k j) y)) := by
  have hd : ∀ {r : ℕ} (R : Fin n → Fin r → ℝ), AffineIndependent ℝ R → ∃ C, giveCoords solve (fun i j => euclid (R i) (R j)) = .ok C ∧
      ∀ i j, euclid (C i) (C j) = euclid (R i) (R j) := by
    intro r R hR
    obtain ⟨C, hC⟩ := (C130_coords_iff hs hn R).mpr hR
    refine ⟨C, hC, (C130_coords_partial hs _ (fun i j => Real.sqrt_nonneg _) (fun i j => ?_) (fun i => ?_) C hC).1⟩
    · change Real.sqrt _ = Real.sqrt _
      congr 1
      exact Finset.sum_congr rfl fun c _ => by ring
    · simp [euclid]
  obtain ⟨C, hC, hCd⟩ := hd P hP
  obtain ⟨Cy, hCy, hCyd⟩ := hd Q hQ
  refine ⟨C, hCd, fun h B hh => ⟨?_, ?_⟩⟩
  · have hl : ¬ (h = 0 ∨ ¬ h ∣ (vecF B).length) := by
      rw [vecF_length]
      push Not
      exact ⟨by omega, Dvd.intro_left _ rfl⟩
    have e : dcov2 (fun c j => ∑ k, C c k * B k j) Q = dcov2 (fun c j => ∑ k, C c k * B k j) Cy := by
      unfold dcov2
      have : ∀ i j, rowDist (Cy i) (Cy j) = rowDist (Q i) (Q j) := hCyd
      simp only [this]
    unfold dcovTrimDist
    rw [if_neg hl, hC, hCy, e]
    dsimp only
    rw [C66_round_trip hh]
    dsimp only
    rw [dm_false, dm_false]
    dsimp only
    rw [dmoment_false hn]
    rfl
  · have hl : ¬ (h = 0 ∨ ¬ h ∣ (vecF B).length) := by
      rw [vecF_length]
      push Not
      exact ⟨by omega, Dvd.intro_left _ rfl⟩
    unfold mddTrimDist
    rw [if_neg hl, hC]
    dsimp only
    rw [C66_round_trip hh]
    dsimp only
    rw [differenceDivergence_eq hn]
    dsimp only
    have h0 := mdd2_nonneg hn (matX C B) y
    unfold sqrtE
    rw [if_neg (not_lt.mpr h0)]
    rfl

/-- C130 is violated: no coordinates are found for the distances of more than `p + 1` cases in `p` variables. -/
theorem C130_many_cases_violated {solve : CoordSolver} (hs : IsCoordSolver solve) (hn : p + 1 < n) (P : Fin n → Fin p → ℝ) :
    ∃ e, giveCoords solve (fun i j => euclid (P i) (P j)) = .error e := by
  cases h : giveCoords solve (fun i j => euclid (P i) (P j)) with
  | error e => exact ⟨e, rfl⟩
  | ok X =>
    have := ((C130_coords_iff hs (by omega) P).mp ⟨X, h⟩).card_le_finrank_succ
    have h2 := Submodule.finrank_le (vectorSpan ℝ (Set.range P))
    simp at this h2
    omega

/-- C130 is violated: for a table of distances of any `n ≥ 1` cases, the objectives of MDD-SDR and DCOV-SDR fail at every vector with one value per column of the
table and component, which is what a fit starts from. -/
theorem C130_objective_violated (solve : CoordSolver) (c : Loc) (b : Bool) (hn : 0 < n) (X : Fin n → Fin n → ℝ) (y : Fin n → ℝ) {r : ℕ} (Y : Fin n → Fin r → ℝ)
    (h : ℕ) (t : ℝ) (beta : List ℝ) (hl : beta.length = n * h) :
    (∃ e, mddTrimDist solve c b X y h t beta = .error e) ∧ ∃ e, dcovTrimDist solve c X Y h t beta = .error e := by
  have hr : h ≠ 0 → reshapeF (n - 1) h beta = .error .valueError := by
    intro h0
    unfold reshapeF
    rw [if_neg]
    rintro ⟨-, h2⟩
    rw [hl] at h2
    have := Nat.eq_of_mul_eq_mul_right (Nat.pos_of_ne_zero h0) h2
    omega
  constructor
  · unfold mddTrimDist
    split
    · exact ⟨_, rfl⟩
    · rename_i h0
      split
      · exact ⟨_, rfl⟩
      · rw [hr (fun hh => h0 (Or.inl hh))]
        exact ⟨_, rfl⟩
  · unfold dcovTrimDist
    split
    · exact ⟨_, rfl⟩
    · rename_i h0
      split
      · exact ⟨_, rfl⟩
      · split
        · exact ⟨_, rfl⟩
        · rw [hr (fun hh => h0 (Or.inl hh))]
          exact ⟨_, rfl⟩

/-- C130 is violated: no fit to a square table, such as a matrix of distances, succeeds with any method. -/
theorem C130_fit_violated {ext : SdExt} (hr : IsRootInv ext.rootInv) (o : SdObj) (D : Fin n → Fin n → ℝ) (y : Fin n → ℝ) :
    ∃ e, o.fit ext D y = .error e := C95_flat_violated hr o le_rfl D y

/-- There is a solver as assumed. -/
example : ∃ solve : CoordSolver, IsCoordSolver solve := by
  classical
  refine ⟨fun pts d => if h : {z | HasDistances pts d z}.Finite then h.toFinset.toList else [], ⟨fun pts d z hz => ?_, fun pts d => ?_, fun pts d h z hz => ?_⟩⟩
  · dsimp only at hz
    split at hz
    · simpa using hz
    · simp at hz
  · dsimp only
    split
    · exact Finset.nodup_toList _
    · exact List.nodup_nil
  · dsimp only
    rw [dif_pos h]
    simpa using hz

/-- The corners of a triangle are affinely independent. -/
example {solve : CoordSolver} (hs : IsCoordSolver solve) :
    ∃ X, giveCoords solve (fun i j : Fin 3 => euclid ((![![0, 0], ![1, 0], ![0, 2]] : Fin 3 → Fin 2 → ℝ) i) (![![0, 0], ![1, 0], ![0, 2]] j)) = .ok X := by
  refine (C130_coords_iff hs (by norm_num) _).mpr ?_
  have e : (![![0, 0], ![1, 0], ![0, 2]] : Fin 3 → Fin 2 → ℝ) =
      fun i : Fin 3 => (fun (j : ℕ) => if j = 0 then ![0, 0] else if j = 1 then ![1, 0] else ![0, 2]) i := by
    funext i
    fin_cases i <;> rfl
  rw [e]
  refine (indep_iff (n := 3) (fun (j : ℕ) => if j = 0 then (![0, 0] : Fin 2 → ℝ) else if j = 1 then ![1, 0] else ![0, 2]) (by norm_num)).mp ?_
  intro a ha i h1 h2
  have k0 := ha 0
  have k1 := ha 1
  simp [Finset.sum_range_succ] at k0 k1
  interval_cases i
  · exact k0
  · exact k1

end Direpack
