import Verif.Robust

/-!
Model of the object `Wrapper` in `preprocessing/robcent.py`: the attributes set by its methods.  Complete data only.
-/

namespace Direpack

noncomputable section

variable {K : Type} [Field K] [LinearOrder K]

/-- A `Wrapper`: `center_`, `scale_` and `dataw_`, `robcent.py:236-243`; `none` before they are set.  (`datanw_` of `predict` is left out.) -/
structure WrapperObj (K : Type) (n p : ℕ) where
  fitted : Option (WrapperState K p)
  dataw : Option (Fin n → Fin p → Option K)

/-- `Wrapper()`, `robcent.py:236-243`. -/
def WrapperObj.new {n p : ℕ} : WrapperObj K n p := ⟨none, none⟩

/-- `Wrapper.fit(X)`, `robcent.py:245-290`. -/
def WrapperObj.fit {n p : ℕ} (o : WrapperObj K n p) (X : Fin n → Fin p → K) : WrapperObj K n p := { o with fitted := some (WrapperState.fit X) }

/-- `Wrapper.transform(X)`, `robcent.py:292-303`: `none` is the `NotFittedError` of `check_is_fitted`. -/
def WrapperObj.transform {n p : ℕ} (th : K → K) (o : WrapperObj K n p) (X : Fin n → Fin p → K) : Option (WrapperObj K n p × (Fin n → Fin p → Option K)) :=
  o.fitted.map fun s => ({ o with dataw := some (s.predict th X) }, s.predict th X)

/-- `Wrapper.fit_transform(X)`, `robcent.py:317-325`: returns `self.dataw_`. -/
def WrapperObj.fitTransform {n p : ℕ} (th : K → K) (o : WrapperObj K n p) (X : Fin n → Fin p → K) : Option (WrapperObj K n p × (Fin n → Fin p → Option K)) :=
  ((o.fit X).transform th X).bind fun r => r.1.dataw.map fun d => (r.1, d)

end
end Direpack
