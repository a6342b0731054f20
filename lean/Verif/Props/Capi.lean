import Mathlib.Tactic.Ring
import Mathlib.Tactic.IntervalCases
import Verif.Capi
import Verif.Spec.Capi

/-! Property C60: what a CAPI index combines. -/

namespace Direpack

open scoped BigOperators
open Spec

/-- The values of the co-moments that a projection index without failures reports: by degree, the covariance, co-skewness and
co-kurtosis when `scaling`, else the co-moments of that order. -/
def capiVal (f : Mode → ℕ → ℤ → ℝ) (scaling : Bool) (i : ℕ) (j : ℤ) : ℝ :=
  f (if scaling then (if i = 2 then .cov else if i = 3 then .cos else .cok) else .com) i j

/-- Different co-moments have different places. -/
theorem C60_places_distinct : ((requested 4 [1, 2, 3]).map place).Nodup := by decide

/-- The initial parts of 1, 2, 3, also written 'all'. -/
def InitialOptions (o : CapiOptions) : Prop := o.run = [1] ∨ o.run = [1, 2] ∨ o.run = [1, 2, 3]

lemma capi_get (w : Fin 6 → ℝ) (h : (List.ofFn w).length = 6) (s : Fin 6) : (List.ofFn w).get (Fin.cast h.symm s) = w s := by
  rw [List.get_ofFn]
  rfl

/-- C60 (partial: options 'all', or the list 1, or 1,2, or 1,2,3): the index is the weighted sum of the requested co-moments, each
exactly once with the weight of its own place, and every place holds its co-moment, or zero if that was not requested. -/
theorem C60_weighted_partial (f : Mode → ℕ → ℤ → ℝ) (scaling : Bool) (o : CapiOptions) (ho : InitialOptions o) (d : ℕ) (h2 : 2 ≤ d)
    (h4 : d ≤ 4) (w : Fin 6 → ℝ) :
    ∃ m, capiFit (fun md i j => .ok (f md i j)) scaling o d (List.ofFn w) =
        .ok (weighted w (capiVal f scaling) (requested d o.run), m) ∧
      (∀ c ∈ requested d o.run, m (place c) = capiVal f scaling c.1 c.2) ∧
      ∀ s, (∀ c ∈ requested d o.run, place c ≠ s) → m s = 0 := by
  have hlen : (List.ofFn w).length = 6 := by simp
  have key : ∀ m, capiLoop (fun md i j => .ok (f md i j)) scaling o.run (d - 1) 2 0 (fun _ => 0) = .ok m →
      (∀ c ∈ requested d o.run, m (place c) = capiVal f scaling c.1 c.2) →
      (∀ s, (∀ c ∈ requested d o.run, place c ≠ s) → m s = 0) →
      ((requested d o.run).map place).Nodup →
      ∃ m, capiFit (fun md i j => .ok (f md i j)) scaling o d (List.ofFn w) =
        .ok (weighted w (capiVal f scaling) (requested d o.run), m) ∧
      (∀ c ∈ requested d o.run, m (place c) = capiVal f scaling c.1 c.2) ∧
      ∀ s, (∀ c ∈ requested d o.run, place c ≠ s) → m s = 0 := by
    intro m hm h1 h0 hnd
    refine ⟨m, ?_, h1, h0⟩
    unfold capiFit
    rw [if_neg (by omega), hm]
    dsimp only
    rw [dif_pos hlen]
    have e0 : ∑ s : Fin 6, (List.ofFn w).get (Fin.cast hlen.symm s) * m s = ∑ s, w s * m s :=
      Finset.sum_congr rfl fun s _ => by rw [capi_get w hlen]
    rw [e0]
    congr 2
    unfold weighted
    have e1 : ((requested d o.run).map fun c => w (place c) * capiVal f scaling c.1 c.2)
        = ((requested d o.run).map place).map fun s => w s * m s := by
      rw [List.map_map]
      exact List.map_congr_left fun c hc => by simp [h1 c hc]
    rw [e1, ← List.sum_toFinset _ hnd]
    symm
    apply Finset.sum_subset (Finset.subset_univ _)
    intro s _ hs
    rw [h0 s, mul_zero]
    intro c hc hcs
    exact hs (List.mem_toFinset.mpr (List.mem_map.mpr ⟨c, hc, hcs⟩))
  rcases ho with ho | ho | ho <;> rw [ho] at key ⊢ <;> interval_cases d <;> cases scaling <;>
    (refine key _ (by simp [capiLoop, capiMode, capiDegree, capiStore]; rfl) ?_ ?_ (by decide)) <;>
    simp [requested, place, capiVal, Fin.forall_fin_succ]

/-- The hypotheses are met by the default options. -/
example : InitialOptions .all ∧ InitialOptions (.list [1, 2]) ∧ requested 3 [1, 2, 3] = [(2, 1), (3, 1), (3, 2)] :=
  ⟨Or.inr (Or.inr rfl), Or.inr (Or.inl rfl), by decide⟩

/-- C60 is violated for the options 1 and 3: co-moment (3,3) and co-moment (4,1) share a place, so the index does not depend on the
former. -/
theorem C60_overwritten_violated (f : Mode → ℕ → ℤ → ℝ) (w : Fin 6 → ℝ) :
    ∃ m, capiFit (fun md i j => .ok (f md i j)) true (.list [1, 3]) 4 (List.ofFn w) =
      .ok (w 0 * f .cov 2 1 + w 1 * f .cos 3 1 + w 3 * f .cok 4 1 + w 5 * f .cok 4 3, m) := by
  have hlen : (List.ofFn w).length = 6 := by simp
  simp [capiFit, capiLoop, capiMode, capiDegree, capiStore, CapiOptions.run, Fin.sum_univ_succ]
  ring

/-- ... although a failure there makes the fit fail, i.e. it is evaluated. -/
theorem C60_evaluated_violated (f : Mode → ℕ → ℤ → ℝ) (e : Err) (w : List ℝ) :
    capiFit (fun md i j => if i = 3 ∧ j = 3 then .error e else .ok (f md i j)) true (.list [1, 3]) 4 w = .error e := by
  simp [capiFit, capiLoop, capiMode, capiDegree, capiStore, CapiOptions.run]

/-- C60 is violated for the option 2 alone: the covariance gets the weight of the first co-skewness and the first place stays empty. -/
theorem C60_option_two_violated (f : Mode → ℕ → ℤ → ℝ) (w : Fin 6 → ℝ) :
    ∃ m, capiFit (fun md i j => .ok (f md i j)) true (.list [2]) 4 (List.ofFn w) =
      .ok (w 1 * f .cov 2 2 + w 2 * f .cos 3 2 + w 4 * f .cok 4 2, m) ∧ m 0 = 0 := by
  have hlen : (List.ofFn w).length = 6 := by simp
  simp [capiFit, capiLoop, capiMode, capiDegree, capiStore, CapiOptions.run, Fin.sum_univ_succ]
  ring

/-- C60: 'all' means the options 1, 2 and 3: with the highest degree and scaling, the index is the weighted sum of all six co-moments. -/
theorem C60_all (f : Mode → ℕ → ℤ → ℝ) (w : Fin 6 → ℝ) :
    ∃ m, capiFit (fun md i j => .ok (f md i j)) true .all 4 (List.ofFn w) =
      .ok (w 0 * f .cov 2 1 + w 1 * f .cos 3 1 + w 2 * f .cos 3 2 + w 3 * f .cok 4 1 + w 4 * f .cok 4 2 + w 5 * f .cok 4 3, m) := by
  have hlen : (List.ofFn w).length = 6 := by simp
  simp [capiFit, capiLoop, capiMode, capiDegree, capiStore, CapiOptions.run, Fin.sum_univ_succ]
  ring

/-- A maximal degree below two or above four is rejected, and so is a list of weights that has not six entries. -/
theorem C60_rejects (mom : Mode → ℕ → ℤ → Except Err ℝ) (scaling : Bool) (o : CapiOptions) (d : ℕ) (w : List ℝ) :
    (d < 2 → capiFit mom scaling o d w = .error .valueError) ∧ (4 < d → capiInit d = .error .valueError) ∧
    (w.length ≠ 6 → ∃ e, capiFit mom scaling o d w = .error e) := by
  refine ⟨fun h => by simp [capiFit, h], fun h => by simp [capiInit, h], fun h => ?_⟩
  unfold capiFit
  split
  · exact ⟨_, rfl⟩
  · split
    · exact ⟨_, rfl⟩
    · exact ⟨_, rfl⟩

end Direpack
