import Verif.Ipopt

/-! Specification of the Ipopt interface. -/

namespace Direpack.Spec

/-- What the user gave for the option `s`, as a string or in bytes. -/
def userOpt (d : OptDict) (s : String) : Option OptVal := (d.get (.str s)).or (d.get (.bytes s))

/-- A constraint holds at a point: all values are zero, or all are nonnegative. -/
def ConsHolds {α : Type} (c : IpCons α) (x : α) : Prop := ∀ v ∈ c.f x, if c.type = "eq" then v = 0 else 0 ≤ v

/-- What Ipopt requires of a value with bounds `l` and `u`; upper bounds from `inf` on mean that there is no upper bound. -/
def WithinBounds (inf v l u : ℝ) : Prop := l ≤ v ∧ (u < inf → v ≤ u)

/-- The right answers to a sequence of operations: the function at the present contents of the array. -/
def rightAnswers {α β : Type} (f : α → β) : Arrays α → List (IpOp α) → List (Option β)
  | _, [] => []
  | h, .write r v :: os => none :: rightAnswers f (Function.update h r v) os
  | h, .objective r :: os => some (f (h r)) :: rightAnswers f h os
  | h, .gradient r :: os => some (f (h r)) :: rightAnswers f h os

/-- No array is written to after it has been passed. -/
def NoReuse {α : Type} : Set ℕ → List (IpOp α) → Prop
  | _, [] => True
  | used, .write r _ :: os => r ∉ used ∧ NoReuse used os
  | used, .objective r :: os => NoReuse (insert r used) os
  | used, .gradient r :: os => NoReuse (insert r used) os

end Direpack.Spec
