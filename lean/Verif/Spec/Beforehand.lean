import Verif.Spec.Regress

/-! Vocabulary of property C196. -/

namespace Direpack.Spec

/-- Values of a standardised response, in the original units. -/
def inUnitsOf {m : ℕ} (loc sca : ℝ) (v : Fin m → ℝ) : Fin m → ℝ := fun i => loc + sca * v i

end Direpack.Spec
