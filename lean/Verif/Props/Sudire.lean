import Mathlib.Tactic.Linarith
import Mathlib.Tactic.NormNum
import Mathlib.Tactic.FieldSimp
import Verif.Sudire
import Verif.Spec.Sudire
import Verif.Spec.Reweight
import Verif.Props.SlicingEig

/-! Properties C65 to C68: projection matrix, constraints, history and structural dimension of `sudire`. -/

namespace Direpack

open scoped BigOperators
open Spec

variable {n p : ℕ}

/-! ### Decomposition of a fit -/

lemma SdObj.fit_ok {ext : SdExt} {o o' : SdObj} {X : Fin n → Fin p → ℝ} {y : Fin n → ℝ} {f : SdFit n p} (h : o.fit ext X y = .ok (o', f)) :
    ∃ q L st' pm T, sdPre ext o.params.whitened X = .ok q ∧
      sdDirections ext o.params.whitened (o.state.setX0 o.params.whitened.copy X) q y = .ok (L, st') ∧
      projMat L.P = .ok pm ∧ sdScores st'.x0 n L = .ok T ∧ o' = ⟨o.params.whitened, st'⟩ ∧
      f = ⟨L.h, L.P, pm, T, (addConstant T).1, ext.ols (addConstant T).2 y, q.loc, q.sca⟩ := by
  rw [SdObj.fit] at h
  dsimp only at h
  cases hq : sdPre ext o.params.whitened X with
  | error e => rw [hq] at h; exact absurd h (by simp)
  | ok q =>
    rw [hq] at h
    dsimp only at h
    cases hd : sdDirections ext o.params.whitened (o.state.setX0 o.params.whitened.copy X) q y with
    | error e => rw [hd] at h; exact absurd h (by simp)
    | ok r =>
      obtain ⟨L, st'⟩ := r
      rw [hd] at h
      dsimp only at h
      cases hp : projMat L.P with
      | error e => rw [hp] at h; exact absurd h (by simp)
      | ok pm =>
        rw [hp] at h
        dsimp only at h
        cases hT : sdScores st'.x0 n L with
        | error e => rw [hT] at h; exact absurd h (by simp)
        | ok T =>
          rw [hT] at h
          dsimp only at h
          split at h
          · exact absurd h (by simp)
          · simp only [Except.ok.injEq, Prod.mk.injEq] at h
            exact ⟨q, L, st', pm, T, rfl, hd, hp, hT, h.1.symm, h.2.symm⟩

/-! ### C65: projection matrix -/

lemma projMat_ok {h : ℕ} {P : Matrix (Fin p) (Fin h) ℝ} {pm : Matrix (Fin p) (Fin p) ℝ} (hp : projMat P = .ok pm) :
    IsUnit (P.transpose * P).det ∧ pm = P * (P.transpose * P)⁻¹ * P.transpose := by
  unfold projMat at hp
  split at hp
  · rename_i hu
    exact ⟨hu, (Except.ok.inj hp).symm⟩
  · exact absurd hp (by simp)

lemma projMat_symm {h : ℕ} {P : Matrix (Fin p) (Fin h) ℝ} {pm : Matrix (Fin p) (Fin p) ℝ} (hp : projMat P = .ok pm) : pm.transpose = pm := by
  obtain ⟨-, rfl⟩ := projMat_ok hp
  rw [Matrix.transpose_mul, Matrix.transpose_mul, Matrix.transpose_transpose, Matrix.transpose_nonsing_inv, Matrix.transpose_mul,
    Matrix.transpose_transpose, Matrix.mul_assoc]

lemma projMat_fix {h : ℕ} {P : Matrix (Fin p) (Fin h) ℝ} {pm : Matrix (Fin p) (Fin p) ℝ} (hp : projMat P = .ok pm) : pm * P = P := by
  obtain ⟨hu, rfl⟩ := projMat_ok hp
  rw [Matrix.mul_assoc, Matrix.mul_assoc, Matrix.nonsing_inv_mul _ hu, Matrix.mul_one]

lemma projMat_absorb {h h' : ℕ} {P : Matrix (Fin p) (Fin h) ℝ} {P' : Matrix (Fin p) (Fin h') ℝ} {pm pm' : Matrix (Fin p) (Fin p) ℝ}
    (hp : projMat P = .ok pm) (hp' : projMat P' = .ok pm') {G : Matrix (Fin h) (Fin h') ℝ} (hG : P' = P * G) : pm * pm' = pm' := by
  obtain ⟨-, e⟩ := projMat_ok hp'
  have h1 : pm * P' = P' := by rw [hG, ← Matrix.mul_assoc, projMat_fix hp]
  rw [e, ← Matrix.mul_assoc, ← Matrix.mul_assoc, h1]

/-- C65: the projection matrix of a fit is symmetric and idempotent and leaves the loadings fixed. -/
theorem C65_projector {ext : SdExt} {o o' : SdObj} {X : Fin n → Fin p → ℝ} {y : Fin n → ℝ} {f : SdFit n p} (h : o.fit ext X y = .ok (o', f)) :
    f.proj.transpose = f.proj ∧ f.proj * f.proj = f.proj ∧ f.proj * f.P = f.P := by
  obtain ⟨q, L, st', pm, T, -, -, hp, -, -, rfl⟩ := SdObj.fit_ok h
  exact ⟨projMat_symm hp, projMat_absorb hp hp (G := 1) (Matrix.mul_one _).symm, projMat_fix hp⟩

/-- C65: what the projection removes is orthogonal to the loadings, so it is the orthogonal projection on their span. -/
theorem C65_orthogonal {ext : SdExt} {o o' : SdObj} {X : Fin n → Fin p → ℝ} {y : Fin n → ℝ} {f : SdFit n p} (h : o.fit ext X y = .ok (o', f)) :
    (∀ v : Fin p → ℝ, ∃ a : Fin f.h → ℝ, f.proj.mulVec v = f.P.mulVec a) ∧
      ∀ (v : Fin p → ℝ) (j : Fin f.h), ∑ k, f.P k j * (v k - f.proj.mulVec v k) = 0 := by
  obtain ⟨q, L, st', pm, T, -, -, hp, -, -, rfl⟩ := SdObj.fit_ok h
  obtain ⟨hu, e⟩ := projMat_ok hp
  constructor
  · intro v
    refine ⟨((L.P.transpose * L.P)⁻¹ * L.P.transpose).mulVec v, ?_⟩
    change pm.mulVec v = L.P.mulVec _
    rw [Matrix.mulVec_mulVec, e, Matrix.mul_assoc]
  · intro v j
    have h1 : L.P.transpose * pm = L.P.transpose := by
      have := congrArg Matrix.transpose (projMat_fix hp)
      rwa [Matrix.transpose_mul, projMat_symm hp] at this
    have h2 : L.P.transpose.mulVec (v - pm.mulVec v) = 0 := by
      rw [Matrix.mulVec_sub, Matrix.mulVec_mulVec, h1, sub_self]
    exact congrFun h2 j

/-- C65: the projection matrix depends only on the subspace spanned by the loadings. -/
theorem C65_subspace {ext ext' : SdExt} {o o1 o' o1' : SdObj} {n' : ℕ} {X : Fin n → Fin p → ℝ} {y : Fin n → ℝ} {X' : Fin n' → Fin p → ℝ}
    {y' : Fin n' → ℝ} {f : SdFit n p} {f' : SdFit n' p} (h : o.fit ext X y = .ok (o1, f)) (h' : o'.fit ext' X' y' = .ok (o1', f'))
    (G : Matrix (Fin f.h) (Fin f'.h) ℝ) (G' : Matrix (Fin f'.h) (Fin f.h) ℝ) (hG : f'.P = f.P * G) (hG' : f.P = f'.P * G') :
    f'.proj = f.proj := by
  obtain ⟨q, L, st', pm, T, -, -, hp, -, -, rfl⟩ := SdObj.fit_ok h
  obtain ⟨q', L', st'', pm', T', -, -, hp', -, -, rfl⟩ := SdObj.fit_ok h'
  have h1 := projMat_absorb hp hp' (G := G) hG
  have h2 := projMat_absorb hp' hp (G := G') hG'
  have h3 := congrArg Matrix.transpose h2
  rw [Matrix.transpose_mul, projMat_symm hp, projMat_symm hp'] at h3
  exact h1.symm.trans h3

/-! ### C66: constraints -/

lemma vecF_succ {h : ℕ} (B : Matrix (Fin p) (Fin (h + 1)) ℝ) :
    vecF B = (List.finRange p).map (fun k => B k 0) ++ vecF (Matrix.of fun k (j : Fin h) => B k j.succ) := by
  unfold vecF
  rw [List.finRange_succ, List.flatMap_cons, List.flatMap_map]
  rfl

lemma vecF_length : ∀ {h : ℕ} (B : Matrix (Fin p) (Fin h) ℝ), (vecF B).length = p * h
  | 0, _ => by simp [vecF]
  | h + 1, B => by
    rw [vecF_succ, List.length_append, vecF_length]
    simp
    ring

lemma vecF_getD : ∀ {h : ℕ} (B : Matrix (Fin p) (Fin h) ℝ) (j : Fin h) (k : Fin p), (vecF B).getD (j.1 * p + k.1) 0 = B k j
  | 0, _, j, _ => j.elim0
  | h + 1, B, j, k => by
    rw [vecF_succ]
    refine Fin.cases ?_ (fun j => ?_) j
    · rw [List.getD_append _ _ _ _ (by simp)]
      simp [List.getD_eq_getElem?_getD]
    · have hl : ((List.finRange p).map fun k => B k 0).length = p := by simp
      rw [List.getD_append_right _ _ _ _ (by rw [hl, Fin.val_succ, Nat.succ_mul]; omega)]
      have : (j.succ).1 * p + k.1 - ((List.finRange p).map fun k => B k 0).length = j.1 * p + k.1 := by
        rw [hl, Fin.val_succ, Nat.succ_mul]; omega
      rw [this, vecF_getD]
      rfl

/-- C66: reshaping a vectorised matrix gives the matrix back. -/
theorem C66_round_trip {h : ℕ} (hh : 0 < h) (B : Matrix (Fin p) (Fin h) ℝ) : reshapeF p h (vecF B) = .ok B := by
  unfold reshapeF
  rw [if_pos ⟨hh.ne', vecF_length B⟩]
  congr 1
  ext k j
  exact vecF_getD B j k

/-- C66: vectorising a reshaped vector gives the vector back. -/
theorem C66_round_trip_vec {h : ℕ} (l : List ℝ) (B : Matrix (Fin p) (Fin h) ℝ) (hB : reshapeF p h l = .ok B) : vecF B = l := by
  unfold reshapeF at hB
  split at hB
  · rename_i hc
    cases hB
    apply List.ext_getElem
    · rw [vecF_length, hc.2]
    · intro i h1 h2
      rw [vecF_length] at h1
      have hp : 0 < p := Nat.pos_of_ne_zero fun h0 => by simp [h0] at h1
      have hj : i / p < h := by rw [Nat.div_lt_iff_lt_mul hp, mul_comm]; exact h1
      have := vecF_getD (Matrix.of fun (k : Fin p) (j : Fin h) => l.getD (j.1 * p + k.1) 0) ⟨i / p, hj⟩ ⟨i % p, Nat.mod_lt _ hp⟩
      have hi : i / p * p + i % p = i := Nat.div_add_mod' i p
      simp only [Matrix.of_apply, hi] at this
      rw [List.getD_eq_getElem _ _ (by rw [vecF_length]; exact h1), List.getD_eq_getElem _ _ h2] at this
      exact this
  · exact absurd hB (by simp)

lemma sdCons_mem {pr : SdParams} {q : SdPre n p} {c : SdCons} :
    c ∈ sdCons pr q ↔ ∃ i < pr.nComp, ∃ j < pr.nComp, c = ⟨pr.scaleData, ⟨n, p, q.Xs⟩, pr.nComp, i, j⟩ := by
  unfold sdCons
  simp only [List.mem_flatMap, List.mem_range, List.mem_map]
  constructor
  · rintro ⟨i, hi, j, hj, rfl⟩
    exact ⟨i, hi, j, hj, rfl⟩
  · rintro ⟨i, hi, j, hj, rfl⟩
    exact ⟨i, hi, j, hj, rfl⟩

/-- C66: the constraints given to the optimiser hold at a vectorised loading matrix exactly when its columns are orthonormal, in the metric of the
covariance of the data if the data are not scaled. -/
theorem C66_constraints (pr : SdParams) (q : SdPre n p) (B : Matrix (Fin p) (Fin pr.nComp) ℝ) (hh : 0 < pr.nComp) :
    (∀ c ∈ sdCons pr q, c.eval (vecF B) = .ok 0) ↔ OrthonormalIn (if pr.scaleData then 1 else covMat q.Xs) B := by
  have hev : ∀ i (hi : i < pr.nComp) j (hj : j < pr.nComp), SdCons.eval ⟨pr.scaleData, ⟨n, p, q.Xs⟩, pr.nComp, i, j⟩ (vecF B) =
      .ok ((B.transpose * (if pr.scaleData then 1 else covMat q.Xs) * B - 1 : Matrix _ _ ℝ) ⟨i, hi⟩ ⟨j, hj⟩) := by
    intro i hi j hj
    unfold SdCons.eval
    dsimp only
    by_cases hs : pr.scaleData
    · simp only [hs, if_true]
      unfold constZ
      rw [C66_round_trip hh]
      dsimp only
      rw [dif_pos ⟨hi, hj⟩]
    · simp only [hs]
      unfold constX
      rw [C66_round_trip hh]
      dsimp only
      rw [dif_pos ⟨hi, hj⟩]
      simp
  unfold OrthonormalIn
  constructor
  · intro h
    rw [← sub_eq_zero]
    ext i j
    have := h _ (sdCons_mem.mpr ⟨i.1, i.2, j.1, j.2, rfl⟩)
    rw [hev i.1 i.2 j.1 j.2] at this
    exact Except.ok.inj this
  · intro h c hc
    obtain ⟨i, hi, j, hj, rfl⟩ := sdCons_mem.mp hc
    rw [hev i hi j hj, h, sub_self]
    rfl

/-- One constraint per pair of columns. -/
theorem C66_count (pr : SdParams) (q : SdPre n p) : (sdCons pr q).length = pr.nComp * pr.nComp := by
  unfold sdCons
  rw [List.length_flatMap]
  simp

/-! ### C67: history -/

/-- Objects that can be reached from a new one by successful fits on any data. -/
inductive SdReach (ext : SdExt) (pr : SdParams) : SdObj → Prop
  | new : SdReach ext pr (SdObj.new pr)
  | fit {o o' : SdObj} {n p : ℕ} {X : Fin n → Fin p → ℝ} {y : Fin n → ℝ} {f : SdFit n p} :
      SdReach ext pr o → o.fit ext X y = .ok (o', f) → SdReach ext pr o'

lemma whitened_idem (pr : SdParams) : pr.whitened.whitened = pr.whitened := by
  unfold SdParams.whitened
  by_cases h : pr.whiten <;> simp [h]

lemma SdReach.params {ext : SdExt} {pr : SdParams} {o : SdObj} (h : SdReach ext pr o) : o.params.whitened = pr.whitened := by
  induction h with
  | new => rfl
  | fit h1 h2 ih =>
    obtain ⟨q, L, st', pm, T, -, -, -, -, rfl, -⟩ := SdObj.fit_ok h2
    dsimp only
    rw [whitened_idem, ih]

/-- Methods that are not based on optimisation. -/
def SdMeth.direct : SdMeth → Prop
  | .slice _ => True
  | .phd => True
  | .iht => True
  | _ => False

lemma whitened_meth (pr : SdParams) : pr.whitened.meth = pr.meth := by unfold SdParams.whitened; split <;> rfl
lemma whitened_copy (pr : SdParams) : pr.whitened.copy = pr.copy := by unfold SdParams.whitened; split <;> rfl

/-- The directions of these methods do not depend on the state, which they keep. -/
lemma sdDirections_direct {ext : SdExt} {pr : SdParams} (hm : pr.meth.direct) (st : SdState) (q : SdPre n p) (y : Fin n → ℝ) :
    sdDirections ext pr st q y = (sdDirections ext pr .init q y).map fun r => (r.1, st) := by
  unfold sdDirections
  cases hmeth : pr.meth with
  | slice m => dsimp only; split <;> rfl
  | phd => dsimp only; split <;> rfl
  | iht => dsimp only; split <;> rfl
  | dcov => rw [hmeth] at hm; exact hm.elim
  | opt o => rw [hmeth] at hm; exact hm.elim

/-- C67 (partial: methods that are not based on optimisation, `copy=True`): after any sequence of fits, a fit gives what a new object would give. -/
theorem C67_refit_partial (ext : SdExt) (pr : SdParams) (hm : pr.meth.direct) (hc : pr.copy = true) (o : SdObj) (ho : SdReach ext pr o)
    (X : Fin n → Fin p → ℝ) (y : Fin n → ℝ) : (o.fit ext X y).map Prod.snd = ((SdObj.new pr).fit ext X y).map Prod.snd := by
  have hw := ho.params
  have hx0 : ∀ st : SdState, (st.setX0 pr.whitened.copy X).x0 = some ⟨n, p, X⟩ := by
    intro st
    rw [whitened_copy, hc]
    rfl
  have key : ∀ st : SdState, (SdObj.fit ext ⟨pr, st⟩ X y).map Prod.snd = ((SdObj.new pr).fit ext X y).map Prod.snd := by
    intro st
    unfold SdObj.fit SdObj.new
    dsimp only
    cases sdPre ext pr.whitened X with
    | error e => rfl
    | ok q =>
      dsimp only
      rw [sdDirections_direct (by rw [whitened_meth]; exact hm), sdDirections_direct (by rw [whitened_meth]; exact hm) (SdState.setX0 _ _ _)]
      cases sdDirections ext pr.whitened .init q y with
      | error e => rfl
      | ok r =>
        simp only [Except.map]
        cases projMat r.1.P with
        | error e => rfl
        | ok pm =>
          dsimp only
          rw [hx0, hx0]
          cases sdScores (some ⟨n, p, X⟩) n r.1 with
          | error e => rfl
          | ok T =>
            dsimp only
            by_cases hcond : pr.whitened.returnScaling = true ∧ pr.whitened.center.isMean = false ∧ q.centring = false
            · rw [if_pos hcond, if_pos hcond]
            · rw [if_neg hcond, if_neg hcond]
  have e : o.fit ext X y = SdObj.fit ext ⟨pr, o.state⟩ X y := by
    unfold SdObj.fit
    dsimp only
    rw [hw]
  rw [e, key]

/-! ### C68: structural dimension -/

/-- The means asked for: over the distances of each dimension. -/
noncomputable def ownMeans (dist : ℕ → List ℝ) (ks : List ℕ) : List ℝ := ks.map fun k => meanL (dist k)

lemma structLoop_length (dist : ℕ → List ℝ) : ∀ (ks : List ℕ) (acc : List ℝ), (structLoop dist ks acc).length = ks.length
  | [], _ => rfl
  | k :: ks, acc => by simp [structLoop, structLoop_length]

lemma argminL_spec : ∀ (l : List ℝ), l ≠ [] → ∃ h : argminL l < l.length, ∀ b ∈ l, l[argminL l] ≤ b
  | [], h => absurd rfl h
  | a :: l, _ => by
    by_cases hc : ∀ b ∈ l, a ≤ b
    · have h0 : argminL (a :: l) = 0 := by rw [argminL, if_pos hc]
      refine ⟨by rw [h0]; simp, ?_⟩
      intro b hb
      simp only [h0, List.getElem_cons_zero]
      rcases List.mem_cons.mp hb with rfl | hb
      · exact le_rfl
      · exact hc b hb
    · have h0 : argminL (a :: l) = argminL l + 1 := by rw [argminL, if_neg hc]
      push Not at hc
      obtain ⟨b0, hb0, hlt⟩ := hc
      obtain ⟨h1, h2⟩ := argminL_spec l (List.ne_nil_of_mem hb0)
      refine ⟨by rw [h0]; simpa using h1, ?_⟩
      intro b hb
      simp only [h0, List.getElem_cons_succ]
      rcases List.mem_cons.mp hb with rfl | hb
      · exact (h2 b0 hb0).trans hlt.le
      · exact h2 b hb

/-- C68 (partial): the dimension returned is one of the candidates, one mean is reported for each of them, and the dimension has the smallest of the
reported means. -/
theorem C68_selection_partial (fitProj : ℕ → (Fin n → Fin p → ℝ) → (Fin n → ℝ) → Matrix (Fin p) (Fin p) ℝ)
    (specNorm : Matrix (Fin p) (Fin p) ℝ → ℝ) (X : Fin n → Fin p → ℝ) (y : Fin n → ℝ) (idx : ℕ → List (Fin n → Fin n)) (hp : 0 < p) :
    let r := structuralDim fitProj specNorm X y idx
    r.2.length = p ∧ 1 ≤ r.1 ∧ r.1 ≤ p ∧ ∀ b ∈ r.2, r.2.getD (r.1 - 1) 0 ≤ b := by
  intro r
  have hlen : r.2.length = p := by
    change (structLoop _ _ _).length = p
    rw [structLoop_length]
    simp
  have hne : r.2 ≠ [] := by
    intro h
    rw [h] at hlen
    simp at hlen
    omega
  obtain ⟨h1, h2⟩ := argminL_spec r.2 hne
  have hr : r.1 = argminL r.2 + 1 := rfl
  refine ⟨hlen, by omega, by omega, ?_⟩
  intro b hb
  rw [hr, Nat.add_sub_cancel, List.getD_eq_getElem _ _ h1]
  exact h2 b hb

/-- C68: the mean reported for a dimension is the mean over the bootstrap distances of this and all smaller dimensions. -/
theorem C68_cumulative_partial (dist : ℕ → List ℝ) (ks : List ℕ) (i : ℕ) (hi : i < ks.length) :
    (structLoop dist ks []).getD i 0 = meanL ((ks.take (i + 1)).flatMap dist) := by
  have gen : ∀ (ks : List ℕ) (acc : List ℝ) (i : ℕ), i < ks.length →
      (structLoop dist ks acc).getD i 0 = meanL (acc ++ (ks.take (i + 1)).flatMap dist) := by
    intro ks
    induction ks with
    | nil => intro acc i hi; simp at hi
    | cons k ks ih =>
      intro acc i hi
      cases i with
      | zero => simp [structLoop]
      | succ i =>
        rw [structLoop, List.getD_cons_succ, ih _ _ (by simpa using hi)]
        simp [List.append_assoc]
  exact gen ks [] i hi

/-- C68: the mean reported for dimension one is the mean of the distances of dimension one. -/
theorem C68_first_partial (dist : ℕ → List ℝ) (k : ℕ) (ks : List ℕ) : (structLoop dist (k :: ks) []).head? = some (meanL (dist k)) := rfl

/-- A fit whose projection matrix depends on the second case, by an amount that depends on the dimension. -/
noncomputable def exProj (k : ℕ) (X : Fin 2 → Fin 3 → ℝ) (_y : Fin 2 → ℝ) : Matrix (Fin 3) (Fin 3) ℝ :=
  if X 1 0 = 0 then Matrix.of fun _ _ => if k = 1 then 1 else if k = 2 then 10 else 1 / 2 else 0

/-- C68 is violated: with one bootstrap sample and distances 1, 10 and 1/2 for the dimensions one, two and three the means reported are not the means of the
distances of each dimension, and the dimension selected is one instead of three. -/
theorem C68_means_violated : ∃ (fitProj : ℕ → (Fin 2 → Fin 3 → ℝ) → (Fin 2 → ℝ) → Matrix (Fin 3) (Fin 3) ℝ) (specNorm : Matrix (Fin 3) (Fin 3) ℝ → ℝ)
    (X : Fin 2 → Fin 3 → ℝ) (y : Fin 2 → ℝ) (idx : ℕ → List (Fin 2 → Fin 2)),
    (structuralDim fitProj specNorm X y idx).2 ≠ ownMeans (fun k => bootDist (fitProj k) specNorm X y (idx k)) [1, 2, 3] ∧
    (structuralDim fitProj specNorm X y idx).1 = 1 ∧
    argminL (ownMeans (fun k => bootDist (fitProj k) specNorm X y (idx k)) [1, 2, 3]) + 1 = 3 := by
  let X : Fin 2 → Fin 3 → ℝ := ![![0, 0, 0], ![1, 1, 1]]
  let idx : ℕ → List (Fin 2 → Fin 2) := fun _ => [fun _ => 0]
  let nrm : Matrix (Fin 3) (Fin 3) ℝ → ℝ := fun M => |M 0 0|
  have hd : ∀ k, bootDist (exProj k) nrm X 0 (idx k) = [if k = 1 then 1 else if k = 2 then 10 else 1 / 2] := by
    intro k
    simp only [bootDist, idx, List.map_cons, List.map_nil, nrm, exProj, X]
    simp
    split
    · simp
    · split <;> norm_num
  have hr : ((List.range 3).map (· + 1)) = [1, 2, 3] := by decide
  have hmd : (structuralDim exProj nrm X 0 idx).2 = [1, 11 / 2, 23 / 6] := by
    unfold structuralDim
    dsimp only
    rw [hr]
    simp only [structLoop, hd, meanL]
    norm_num
  have hown : ownMeans (fun k => bootDist (exProj k) nrm X 0 (idx k)) [1, 2, 3] = [1, 10, 1 / 2] := by
    simp only [ownMeans, hd, meanL]
    norm_num
  refine ⟨exProj, nrm, X, 0, idx, ?_, ?_, ?_⟩
  · rw [hmd, hown]
    norm_num
  · have : (structuralDim exProj nrm X 0 idx).1 = argminL (structuralDim exProj nrm X 0 idx).2 + 1 := rfl
    rw [this, hmd]
    norm_num [argminL]
  · rw [hown]
    norm_num [argminL]

/-- C68 is violated: the bootstrap distances compare with fits on resampled predictors and the original response, so they are not those of resampled
cases whenever resampling the response too makes a difference. -/
theorem C68_pairs_violated (fitProj : (Fin n → Fin p → ℝ) → (Fin n → ℝ) → Matrix (Fin p) (Fin p) ℝ)
    (specNorm : Matrix (Fin p) (Fin p) ℝ → ℝ) (X : Fin n → Fin p → ℝ) (y : Fin n → ℝ) (f : Fin n → Fin n)
    (hdiff : specNorm (fitProj X y - fitProj (fun c => X (f c)) y) ≠ specNorm (fitProj X y - fitProj (fun c => X (f c)) fun c => y (f c))) :
    bootDist fitProj specNorm X y [f] ≠ [specNorm (fitProj X y - fitProj (fun c => X (f c)) fun c => y (f c))] := by
  simp only [bootDist, List.map_cons, List.map_nil]
  simpa using hdiff

end Direpack
