import Verif.Options
import Verif.Props.Ipopt

/-! Property C100: default options. -/

namespace Direpack

/-- The defaults in the signatures: 1000 iterations for `sudire`, 100000 for `ppdire`. -/
def Spec.documentedOptions : OptClass → OptDict
  | .sudire => [(.str "max_iter", .num 1000)]
  | .ppdire => [(.str "maxiter", .num 100000)]

open Spec

/-- C100 (partial: only objects with options given by the user are fitted): the default options are those of the signature, after any number of fits. -/
theorem C100_default_partial (u : ℕ → OptDict) (os : List OptObj) (hos : ∀ o ∈ os, ∃ k, o.ref = .user k) (c : OptClass) :
    optRun (OptHeap.init u) os (OptObj.new c none).ref = documentedOptions c := by
  have : ∀ h : OptHeap, (∀ o ∈ os, ∃ k, o.ref = .user k) → (os.foldl optFit h) (.dflt c) = h (.dflt c) := by
    clear hos
    intro h hos
    induction os generalizing h with
    | nil => rfl
    | cons o os ih =>
      rw [List.foldl_cons, ih _ fun o ho => hos o (List.mem_cons_of_mem _ ho)]
      obtain ⟨k, hk⟩ := hos o List.mem_cons_self
      have hne : OptRef.dflt c ≠ o.ref := by rw [hk]; simp
      unfold optFit
      cases o.cls <;> exact Function.update_of_ne hne _ _
  refine (this _ hos).trans ?_
  cases c <;> rfl

/-- C100: the options of an object are changed only by fits of objects that share them. -/
theorem C100_own (h : OptHeap) (os : List OptObj) (k : ℕ) (hos : ∀ o ∈ os, o.ref ≠ .user k) : optRun h os (.user k) = h (.user k) := by
  unfold optRun
  induction os generalizing h with
  | nil => rfl
  | cons o os ih =>
    rw [List.foldl_cons, ih _ fun o ho => hos o (List.mem_cons_of_mem _ ho)]
    have hne : OptRef.user k ≠ o.ref := fun e => hos o List.mem_cons_self e.symm
    unfold optFit
    cases o.cls <;> exact Function.update_of_ne hne _ _

/-- C100 is violated: after one fit of an object with default options, a new object of the same class has other default options. -/
theorem C100_default_violated (u : ℕ → OptDict) (c : OptClass) :
    optRun (OptHeap.init u) [OptObj.new c none] (OptObj.new c none).ref ≠ documentedOptions c := by
  cases c
  · simp only [optRun, List.foldl_cons, List.foldl_nil, optFit, OptObj.new, Function.update_self]
    show ipoptOptions OptClass.sudire.default none ≠ _
    decide +kernel
  · simp only [optRun, List.foldl_cons, List.foldl_nil, optFit, OptObj.new, Function.update_self]
    show setDefault OptClass.ppdire.default (.str "ndir") (.num 1000) ≠ _
    decide +kernel

/-- C100 is violated for the documented name: after one `sudire` fit the default options of new objects no longer have the key `max_iter`. -/
theorem C100_key_violated (u : ℕ → OptDict) (os : List OptObj) :
    (optRun (OptHeap.init u) (OptObj.new .sudire none :: os) (OptObj.new .sudire none).ref).get (.str "max_iter") = none := by
  have hkeep2 : ∀ (os : List OptObj) (h : OptHeap), (h (.dflt .sudire)).get (.str "max_iter") = none →
      (os.foldl optFit h (.dflt .sudire)).get (.str "max_iter") = none := by
    intro os
    induction os with
    | nil => intro h hh; exact hh
    | cons o os ih =>
      intro h hh
      rw [List.foldl_cons]
      apply ih
      by_cases hr : o.ref = .dflt .sudire
      · unfold optFit
        cases o.cls
        · dsimp only
          rw [hr, Function.update_self]
          exact (C73_translation _ none).2.2.2.2.2.2.2.2.1 "max_iter"
        · dsimp only
          rw [hr, Function.update_self, setDefault_get, if_neg (by decide)]
          exact hh
      · unfold optFit
        have hne : OptRef.dflt .sudire ≠ o.ref := fun e => hr e.symm
        cases o.cls
        · dsimp only; rw [Function.update_of_ne hne]; exact hh
        · dsimp only; rw [Function.update_of_ne hne]; exact hh
  unfold optRun
  rw [List.foldl_cons]
  apply hkeep2
  simp only [optFit, OptObj.new, Function.update_self]
  exact (C73_translation _ none).2.2.2.2.2.2.2.2.1 "max_iter"

end Direpack
