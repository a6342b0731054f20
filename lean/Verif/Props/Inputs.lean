import Verif.Inputs
import Verif.Spec.Inputs
import Mathlib.Data.List.Induction

/-! Property C104: the forms in which a response can be given. -/

namespace Direpack

open Spec

variable {α : Type}

lemma range_flatMap_one {β : Type} (f : ℕ → List β) : (List.range 1).flatMap f = f 0 := by simp [List.range_succ]

lemma col_one (v : List α) : NDArray.col ⟨[v.length, 1], v⟩ v.length 1 0 = v := by
  unfold NDArray.col
  simp only [mul_one, add_zero]
  apply List.ext_getElem?
  intro i
  induction v using List.reverseRecOn generalizing i with
  | nil => simp
  | append_singleton l a ih =>
    have e : (List.range (l ++ [a]).length).filterMap (fun i => (l ++ [a])[i]?) = (List.range l.length).filterMap (fun i => l[i]?) ++ [a] := by
      rw [List.length_append, List.length_singleton, List.range_succ, List.filterMap_append]
      congr 1
      · refine List.filterMap_congr fun x hx => ?_
        rw [List.getElem?_append_left (List.mem_range.mp hx)]
      · simp
    have hl : (List.range l.length).filterMap (fun i => l[i]?) = l := List.ext_getElem? ih
    rw [e, hl]

lemma checkInput_resp {v : List α} (hv : 2 ≤ v.length) {y : RespIn α} (hy : IsResponse v y) : checkInput y.toNumpy = .ok ⟨[v.length, 1], v⟩ := by
  cases hy <;> simp [RespIn.toNumpy, checkInput, hv]

/-- C104: robust M regression, sparse partial robust M regression and SNIPLS use the same values for each form of a response with as many cases as the
predictors. -/
theorem C104_forms_partial {v : List α} (hv : 2 ≤ v.length) {y : RespIn α} (hy : IsResponse v y) :
    rmResp v.length y = .ok ⟨[v.length], v⟩ ∧ sprmResp v.length y = .ok ⟨[v.length, 1], v⟩ ∧ sniplsResp v.length y = .ok ⟨[v.length, 1], v⟩ := by
  unfold rmResp sprmResp sniplsResp
  rw [checkInput_resp hv hy]
  simp [firstDim]

/-- C104: robust M regression and sparse partial robust M regression refuse each form of a response with another number of cases. -/
theorem C104_rejected_partial {v : List α} (hv : 2 ≤ v.length) {y : RespIn α} (hy : IsResponse v y) {n : ℕ} (hn : n ≠ v.length) :
    rmResp n y = .error .other ∧ sprmResp n y = .error .other := by
  unfold rmResp sprmResp
  rw [checkInput_resp hv hy]
  simp [firstDim, Ne.symm hn]

/-- C104: sudire and projection pursuit use the same values for a vector, a column and a Series and refuse them when the number of cases is another one. -/
theorem C104_sudire_partial {v : List α} (hv : 2 ≤ v.length) {y : RespIn α} (hy : IsResponse v y) (hf : ∀ n k l, y ≠ .frame n k l) (b : Bool) :
    sudireResp v.length y = .ok ⟨[v.length, 1], v⟩ ∧ ppdireResp v.length b y = .ok ⟨[v.length, 1], v⟩ ∧
      ∀ n, n ≠ v.length → sudireResp n y = .error .other ∧ ppdireResp n b y = .error .other := by
  have h1 : ¬ v.length = 1 := by omega
  cases hy with
  | frame => exact absurd rfl (hf _ _ _)
  | vector =>
    refine ⟨?_, ?_, ?_⟩
    · simp [sudireResp, convertRound, firstDim, asColumn, convertY, RespIn.toNumpy]
    · cases b <;> simp [ppdireResp, convertRound, firstDim, asColumn, convertY, RespIn.toNumpy, checkInput, h1]
    · intro n hn
      simp [sudireResp, ppdireResp, convertRound, firstDim, asColumn, convertY, RespIn.toNumpy, Ne.symm hn]
  | column =>
    refine ⟨?_, ?_, ?_⟩
    · simp [sudireResp, convertRound, firstDim, asColumn, convertY, RespIn.toNumpy]
    · cases b <;> simp [ppdireResp, convertRound, firstDim, asColumn, convertY, RespIn.toNumpy, checkInput, h1]
    · intro n hn
      simp [sudireResp, ppdireResp, convertRound, firstDim, asColumn, convertY, RespIn.toNumpy, Ne.symm hn]
  | series =>
    refine ⟨?_, ?_, ?_⟩
    · simp [sudireResp, convertRound, firstDim, asColumn, convertY, RespIn.toNumpy, NDArray.transpose]
    · cases b <;> simp [ppdireResp, convertRound, firstDim, asColumn, convertY, RespIn.toNumpy, checkInput, h1, NDArray.transpose]
    · intro n hn
      simp [sudireResp, ppdireResp, convertRound, firstDim, asColumn, convertY, RespIn.toNumpy, Ne.symm hn, NDArray.transpose]

lemma convertRound_frame {v : List α} : convertRound v.length (.frame v.length 1 v) = .ok ⟨[1, v.length], v⟩ := by
  simp [convertRound, firstDim, asColumn, convertY, RespIn.toNumpy, NDArray.transpose, col_one]

/-- C104: projection pursuit accepts a DataFrame when the data are centred. -/
theorem C104_ppdire_frame_partial {v : List α} (hv : 2 ≤ v.length) : ppdireResp v.length true (.frame v.length 1 v) = .ok ⟨[v.length, 1], v⟩ := by
  rw [ppdireResp, convertRound_frame]
  simp [checkInput, hv]

/-- C104 is violated by projection pursuit without centring: a DataFrame becomes a single row. -/
theorem C104_ppdire_frame_violated {v : List α} : ppdireResp v.length false (.frame v.length 1 v) = .ok ⟨[1, v.length], v⟩ := by
  rw [ppdireResp, convertRound_frame]
  simp

/-- C104 is violated by sudire: every response given as a DataFrame is refused. -/
theorem C104_sudire_frame_violated {v : List α} (hv : 2 ≤ v.length) : sudireResp v.length (.frame v.length 1 v) = .error .other := by
  rw [sudireResp, convertRound_frame]
  have : ¬ 1 = v.length := by omega
  simp [convertRound, firstDim, asColumn, convertY, RespIn.toNumpy, this]

/-- C104 is violated by SNIPLS: a response with another number of cases is not refused but made into a single row. -/
theorem C104_snipls_violated {v : List α} (hv : 2 ≤ v.length) {y : RespIn α} (hy : IsResponse v y) {n : ℕ} (hn : n ≠ v.length) :
    sniplsResp n y = .ok ⟨[1, v.length], v⟩ := by
  rw [sniplsResp, checkInput_resp hv hy]
  simp [firstDim, Ne.symm hn, NDArray.transpose, col_one]

/-- There are responses of each form. -/
example : IsResponse [1, 2, 3] (.frame 3 1 [1, 2, 3] : RespIn ℕ) ∧ IsResponse [1, 2, 3] (.series [1, 2, 3] : RespIn ℕ) := ⟨.frame, .series⟩

end Direpack
