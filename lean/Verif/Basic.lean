/-
Shared vocabulary of the model: Python exceptions as values and masked in-place
assignment.
-/

namespace Direpack

/-- Python exceptions that the modelled code (or the numpy/scipy code it calls) can
raise.  Messages are dropped. -/
inductive Err where
  | valueError
  | indexError
  | typeError
  | unboundLocal
  | attributeError
  | keyError
  | nameError
  | assertionError
  | zeroDivision
  | other
  deriving DecidableEq, Repr

/-- numpy `x[np.where(mask)[0]] = v` for a one-dimensional array `x`: the entries at which
the mask is true are overwritten, the others are kept.  (Not a repository function;
used by every definition that models a masked in-place assignment.) -/
def maskSet {ι : Type} {α : Type} (x : ι → α) (mask : ι → Prop) [DecidablePred mask]
    (v : ι → α) : ι → α :=
  fun i => if mask i then v i else x i

/-- Decidable equality of results, so that concrete runs of the model can be compared. -/
instance {ε α : Type} [DecidableEq ε] [DecidableEq α] : DecidableEq (Except ε α)
  | .ok a, .ok b => if h : a = b then isTrue (h ▸ rfl) else isFalse (fun e => h (Except.ok.inj e))
  | .error a, .error b =>
    if h : a = b then isTrue (h ▸ rfl) else isFalse (fun e => h (Except.error.inj e))
  | .ok _, .error _ => isFalse (fun e => nomatch e)
  | .error _, .ok _ => isFalse (fun e => nomatch e)

end Direpack
