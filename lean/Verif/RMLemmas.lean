import Mathlib.Tactic.Linarith
import Mathlib.Tactic.Positivity
import Mathlib.Tactic.Ring
import Verif.RM
import Verif.SPRM
import Verif.Props.MSupport

/-! Lemmas about the reweighting loop of RM and SPRM. -/

namespace Direpack

open scoped BigOperators

lemma wMin_pos : 0 < wMin := by unfold wMin; norm_num

lemma wMin_le_one : wMin ≤ 1 := by unfold wMin; norm_num

lemma huber_unit {n : ℕ} (x : Fin n → ℝ) (c : ℝ) (hc : 0 < c) (i : Fin n) :
    0 ≤ huber x c i ∧ huber x c i ≤ 1 := by
  unfold huber maskSet
  by_cases h1 : x i ≤ c
  · by_cases h2 : (1 : ℝ) > c
    · simp only [h1, h2, if_true, abs_one, div_one]; exact ⟨hc.le, h2.le⟩
    · simp [h1, h2]
  · have h1' : x i > c := not_le.mp h1
    have hx : 0 < x i := lt_trans hc h1'
    simp only [h1, h1', if_true, if_false]
    rw [abs_of_pos hx]
    exact ⟨by positivity, (div_le_one hx).mpr h1'.le⟩

lemma hampel_unit {n : ℕ} (x : Fin n → ℝ) (a b r : ℝ) (ha : 0 < a) (hab : a < b) (hbr : b < r)
    (i : Fin n) : 0 ≤ hampel x a b r i ∧ hampel x a b r i ≤ 1 := by
  unfold hampel maskSet
  -- first assignment
  obtain ⟨u, hu, h1⟩ : ∃ u, (if x i ≤ a then (1 : ℝ) else x i) = u ∧ (u = 1 ∨ a < u) := by
    refine ⟨_, rfl, ?_⟩
    split
    · exact Or.inl rfl
    · rename_i h; exact Or.inr (not_le.mp h)
  simp only [hu]
  obtain ⟨v, hv, h2⟩ : ∃ v, (if u > a ∧ u ≤ b then a / |u| else u) = v ∧ ((0 ≤ v ∧ v ≤ 1) ∨ b < v) := by
    refine ⟨_, rfl, ?_⟩
    split
    · rename_i h
      have hu0 : 0 < u := lt_trans ha h.1
      rw [abs_of_pos hu0]
      exact Or.inl ⟨by positivity, (div_le_one hu0).mpr h.1.le⟩
    · rename_i h
      rcases h1 with h1 | h1
      · exact Or.inl ⟨by rw [h1]; norm_num, h1.le⟩
      · exact Or.inr (by by_contra hc; exact h ⟨h1, not_lt.mp hc⟩)
  simp only [hv]
  obtain ⟨w, hw, h3⟩ : ∃ w, (if v > b ∧ v ≤ r then (a * (r - v)) / ((r - b) * |v|) else v) = w ∧
      ((0 ≤ w ∧ w ≤ 1) ∨ r < w) := by
    refine ⟨_, rfl, ?_⟩
    split
    · rename_i h
      have hv0 : 0 < v := lt_trans (lt_trans ha hab) h.1
      rw [abs_of_pos hv0]
      have hrb : 0 < r - b := by linarith
      have hrv : 0 ≤ r - v := by linarith [h.2]
      refine Or.inl ⟨by positivity, (div_le_one (by positivity)).mpr ?_⟩
      have e1 : a * (r - v) ≤ v * (r - v) := mul_le_mul_of_nonneg_right (by linarith [h.1]) hrv
      have e2 : v * (r - v) ≤ v * (r - b) := mul_le_mul_of_nonneg_left (by linarith [h.1]) hv0.le
      linarith [mul_comm v (r - b)]
    · rename_i h
      rcases h2 with h2 | h2
      · exact Or.inl h2
      · exact Or.inr (by by_contra hc; exact h ⟨h2, not_lt.mp hc⟩)
  simp only [hw]
  split
  · norm_num
  · rename_i h
    rcases h3 with h3 | h3
    · exact h3
    · exact absurd h3 h

lemma WFun.run_unit (f : WFun) {n : ℕ} (x : Fin n → ℝ) (c : ℝ × ℝ × ℝ) (hc : 0 < c.1)
    (hh : f = .hampel → c.1 < c.2.1 ∧ c.2.1 < c.2.2) (i : Fin n) : 0 ≤ f.run x c i ∧ f.run x c i ≤ 1 := by
  cases f with
  | fair => have := C01_fair_range x c.1 i; exact ⟨this.1.le, this.2⟩
  | huber => exact huber_unit x c.1 hc i
  | hampel => exact hampel_unit x _ _ _ hc (hh rfl).1 (hh rfl).2 i

/-- What one pass of the loop leaves behind. -/
structure Pass {β : Type} {n : ℕ} (step : (Fin n → ℝ) → Except Err (β × ℝ × (Fin n → ℝ) × (Fin n → ℝ)))
    (o : RwOut β n) : Prop where
  last : ∃ we b2, (∀ i, wMin ≤ we i) ∧ step we = .ok (o.b, b2, o.wye, o.wte)
  w0 : ∀ i, i ∈ o.w0 ↔ o.wye i * o.wte i < wMin
  we : ∀ i, o.we i = if o.wye i * o.wte i < wMin then wMin else o.wye i * o.wte i

lemma clip_ge {n : ℕ} (w : Fin n → ℝ) (i : Fin n) : wMin ≤ clipW w i := by
  unfold clipW; split
  · exact le_rfl
  · rename_i h; exact not_lt.mp h

lemma rwLoop_pass {β : Type} {n : ℕ}
    (step : (Fin n → ℝ) → Except Err (β × ℝ × (Fin n → ℝ) × (Fin n → ℝ))) (tol : ℝ) (maxit : ℤ)
    (fuel : ℕ) : ∀ (loops : ℤ) (rold : ℝ) (go : Prop) (we : Fin n → ℝ) (out res : Option (RwOut β n)),
      (∀ i, wMin ≤ we i) → (∀ o, out = some o → Pass step o) →
      rwLoop step tol maxit fuel loops rold go we out = some (.ok res) →
      ∀ o, res = some o → Pass step o := by
  induction fuel with
  | zero => intro loops rold go we out res _ _ h; simp [rwLoop] at h
  | succ fuel ih =>
    intro loops rold go we out res hwe hout h o ho
    rw [rwLoop] at h
    split at h
    · cases hs : step we with
      | error e => rw [hs] at h; simp at h
      | ok t =>
        obtain ⟨b, b2, wye, wte⟩ := t
        rw [hs] at h
        simp only at h
        have hp : ∀ k, Pass step ⟨b, (fun i => if wye i * wte i < wMin then wMin else wye i * wte i), wye, wte,
            Finset.univ.filter (fun i => wye i * wte i < wMin), k⟩ :=
          fun k => ⟨⟨we, b2, hwe, hs⟩, by simp, fun i => rfl⟩
        split at h
        · simp only [Option.some.injEq, Except.ok.injEq] at h
          rw [← h] at ho
          cases ho
          exact hp _
        · exact ih _ _ _ _ _ _ (fun i => clip_ge (fun i => wye i * wte i) i)
            (fun o' ho' => by cases ho'; exact hp _) h o ho
    · simp only [Option.some.injEq, Except.ok.injEq] at h
      exact hout o (by rw [h]; exact ho)

/-- Number of passes recorded so far. -/
def fitsOf {β : Type} {n : ℕ} (o : Option (RwOut β n)) : ℕ := o.elim 0 fun o => o.fits

lemma rwLoop_fits {β : Type} {n : ℕ}
    (step : (Fin n → ℝ) → Except Err (β × ℝ × (Fin n → ℝ) × (Fin n → ℝ))) (tol : ℝ) (maxit : ℤ)
    (fuel : ℕ) : ∀ (loops : ℤ) (rold : ℝ) (go : Prop) (we : Fin n → ℝ) (out res : Option (RwOut β n)),
      rwLoop step tol maxit fuel loops rold go we out = some (.ok res) →
      (fitsOf res : ℤ) ≤ fitsOf out + max 0 (maxit - loops) ∧
      fitsOf out ≤ fitsOf res ∧ (go ∧ loops < maxit → res.isSome ∧ fitsOf out < fitsOf res) := by
  induction fuel with
  | zero => intro loops rold go we out res h; simp [rwLoop] at h
  | succ fuel ih =>
    intro loops rold go we out res h
    rw [rwLoop] at h
    split at h
    · rename_i hg
      cases hs : step we with
      | error e => rw [hs] at h; simp at h
      | ok t =>
        obtain ⟨b, b2, wye, wte⟩ := t
        rw [hs] at h
        simp only at h
        split at h
        · simp only [Option.some.injEq, Except.ok.injEq] at h
          subst h
          refine ⟨?_, ?_, fun _ => ⟨rfl, ?_⟩⟩
          · have : (1 : ℤ) ≤ maxit - loops := by linarith [Int.add_one_le_iff.mpr hg.2]
            simp only [fitsOf, Option.elim]
            rw [max_eq_right (by linarith)]
            push_cast
            linarith
          · simp only [fitsOf, Option.elim]; omega
          · simp only [fitsOf, Option.elim]; omega
        · have := ih _ _ _ _ _ _ h
          simp only [fitsOf, Option.elim] at this ⊢
          have h1 : (1 : ℤ) ≤ maxit - loops := by linarith [Int.add_one_le_iff.mpr hg.2]
          obtain ⟨t1, t2, t3⟩ := this
          refine ⟨?_, by omega, fun _ => ⟨?_, by omega⟩⟩
          · rw [max_eq_right (by linarith)] at t1 ⊢
            push_cast at t1
            linarith
          · cases res with
            | none => simp at t2
            | some o => rfl
    · rename_i hg
      simp only [Option.some.injEq, Except.ok.injEq] at h
      subst h
      exact ⟨by have := le_max_left 0 (maxit - loops); linarith, le_rfl, fun hh => absurd hh hg⟩

lemma rwLoop_fuel {β : Type} {n : ℕ}
    (step : (Fin n → ℝ) → Except Err (β × ℝ × (Fin n → ℝ) × (Fin n → ℝ))) (tol : ℝ) (maxit : ℤ)
    (fuel : ℕ) : ∀ (loops : ℤ) (rold : ℝ) (go : Prop) (we : Fin n → ℝ) (out : Option (RwOut β n)),
      maxit - loops < fuel → rwLoop step tol maxit fuel loops rold go we out = none → fuel = 0 := by
  induction fuel with
  | zero => intros; rfl
  | succ fuel ih =>
    intro loops rold go we out hf h
    exfalso
    rw [rwLoop] at h
    split at h
    · rename_i hg
      cases hs : step we with
      | error e => rw [hs] at h; simp at h
      | ok t =>
        obtain ⟨b, b2, wye, wte⟩ := t
        rw [hs] at h
        simp only at h
        split at h
        · simp at h
        · have h1 := ih _ _ _ _ _ (by push_cast at hf; linarith) h
          subst h1
          push_cast at hf
          have := hg.2
          omega
    · simp at h

lemma rwLoop_ne_none {β : Type} {n : ℕ}
    (step : (Fin n → ℝ) → Except Err (β × ℝ × (Fin n → ℝ) × (Fin n → ℝ))) (tol : ℝ) (maxit : ℤ)
    (rold : ℝ) (go : Prop) (we : Fin n → ℝ) (out : Option (RwOut β n)) :
    rwLoop step tol maxit (maxit.toNat + 1) 1 rold go we out ≠ none := by
  intro h
  have := rwLoop_fuel step tol maxit (maxit.toNat + 1) 1 rold go we out (by
    have := Int.self_le_toNat maxit; push_cast; linarith) h
  omega

end Direpack
