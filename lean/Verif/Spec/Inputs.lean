import Verif.Inputs

/-! The usual ways to give the same response. -/

namespace Direpack.Spec

/-- A response with the values `v`: a vector, a column, a Series, or a DataFrame with one column. -/
inductive IsResponse {α : Type} (v : List α) : RespIn α → Prop
  | vector : IsResponse v (.arr ⟨[v.length], v⟩)
  | column : IsResponse v (.arr ⟨[v.length, 1], v⟩)
  | series : IsResponse v (.series v)
  | frame : IsResponse v (.frame v.length 1 v)

end Direpack.Spec
