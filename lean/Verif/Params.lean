import Verif.Basic

/-!
Model of the parameter interface copied from scikit-learn, `get_params` and `set_params`: `ppdire/ppdire.py:811-891`,
`ppdire/capi.py:108-195` and `sudire/sudire.py:649-735` (the three texts are the same up to quotes).

Attribute values have an arbitrary type `V`; its default element is Python's `None`.  What `get_params` and `set_params` of a nested
estimator do is a parameter (`SubOps`).  An object is the map from attribute names to values.
-/

namespace Direpack

/-- Names as lists of characters. -/
abbrev PName := List Char

/-- The attributes of an object. -/
abbrev Attrs (V : Type) := PName → Option V

/-- `setattr`. -/
def Attrs.set {V : Type} (a : Attrs V) (k : PName) (v : V) : Attrs V := fun j => if j = k then some v else a j

/-- `key.partition("__")`, `capi.py:178`: the part before the first double underscore and, if there is one, the part
after it. -/
def partitionKey : PName → PName × Option PName
  | '_' :: '_' :: r => ([], some r)
  | c :: r => (c :: (partitionKey r).1, (partitionKey r).2)
  | [] => ([], none)

/-- `key + "__" + k`, `capi.py:158`. -/
def joinKey (a b : PName) : PName := a ++ '_' :: '_' :: b

/-- What values that are estimators do. -/
structure SubOps (V : Type) where
  /-- the items of `value.get_params()`, if there is such a method -/
  get : V → Option (List (PName × V))
  /-- the value after `value.set_params(**d)` -/
  set : V → List (PName × V) → Except Err V

/-- `get_params`, `capi.py:139-160`: the items in order of insertion; `names` is the result of `_get_param_names`, the sorted
constructor arguments.  (A later item with the key of an earlier one would replace its value in Python; with `deep=False`, the default, keys are distinct.) -/
def getParams {V : Type} [Inhabited V] (names : List PName) (ops : SubOps V) (deep : Bool) (a : Attrs V) : List (PName × V) :=
  names.flatMap fun k =>
    let v := (a k).getD default
    (if deep then
      match ops.get v with
      | some items => items.map fun kv => (joinKey k kv.1, kv.2)
      | none => []
    else []) ++ [(k, v)]

/-- `nested_params[key][sub_key] = value`, `capi.py:176` and `187`. -/
def addNested {V : Type} (k s : PName) (v : V) : List (PName × List (PName × V)) → List (PName × List (PName × V))
  | [] => [(k, [(s, v)])]
  | (k', d) :: r => if k' = k then (k', d ++ [(s, v)]) :: r else (k', d) :: addNested k s v r

/-- The first loop of `set_params`, `capi.py:177-190`.  The object is returned together with the outcome, because assignments made before an
exception stay. -/
def setKeys {V : Type} (names : List PName) :
    List (PName × V) → Attrs V → List (PName × List (PName × V)) → Attrs V × Except Err (List (PName × List (PName × V)))
  | [], a, nst => (a, .ok nst)
  | (key, v) :: r, a, nst =>
    if (partitionKey key).1 ∈ names then
      match (partitionKey key).2 with
      | none => setKeys names r (a.set (partitionKey key).1 v) nst
      | some s => setKeys names r a (addNested (partitionKey key).1 s v nst)
    else (a, .error .valueError)

/-- The second loop, `capi.py:192-193`: nested estimators are changed in place. -/
def setNested {V : Type} [Inhabited V] (ops : SubOps V) :
    List (PName × List (PName × V)) → Attrs V → Attrs V × Except Err Unit
  | [], a => (a, .ok ())
  | (k, d) :: r, a =>
    match ops.set ((a k).getD default) d with
    | .error e => (a, .error e)
    | .ok v => setNested ops r (a.set k v)

/-- `set_params`, `capi.py:162-195`. -/
def setParams {V : Type} [Inhabited V] (names : List PName) (ops : SubOps V) (a : Attrs V) (params : List (PName × V)) :
    Attrs V × Except Err Unit :=
  match params with
  | [] => (a, .ok ())
  | _ =>
    match setKeys names params a [] with
    | (a', .error e) => (a', .error e)
    | (a', .ok nst) => setNested ops nst a'

/-! ### Constructors -/

/-- An object after a constructor that stores the arguments with the given names under their own names (and other
attributes that are not looked at here). -/
def construct {V : Type} (stored : List String) (args : PName → V) : Attrs V :=
  fun k => if k ∈ stored.map String.toList then some (args k) else none

/-- Constructor arguments of `capi`, `capi.py:55-64`. -/
def capiArgs : List String :=
  ["max_degree", "projection_index", "pi_arguments", "weights", "centring", "scaling", "options"]

/-- The arguments stored by the constructor, `capi.py:65-71`. -/
def capiStored : List String := ["max_degree", "projection_index", "pi_arguments", "weights", "scaling", "options"]

/-- Constructor arguments of `ppdire`, `ppdire.py:163-181`. -/
def ppdireArgs : List String :=
  ["projection_index", "pi_arguments", "n_components", "trimming", "alpha", "optimizer", "optimizer_options",
   "optimizer_constraints", "regopt", "center", "center_data", "scale_data", "whiten_data", "square_pi", "compression", "copy",
   "verbose", "return_scaling_object"]

/-- `ppdire.py:183-200`. -/
def ppdireStored : List String :=
  ["projection_index", "pi_arguments", "n_components", "trimming", "alpha", "optimizer", "optimizer_options",
   "optimizer_constraints", "regopt", "center", "center_data", "scale_data", "whiten_data", "square_pi", "compression", "copy",
   "verbose", "return_scaling_object"]

/-- Constructor arguments of `sudire`, `sudire.py:140-161`. -/
def sudireArgs : List String :=
  ["sudiremeth", "n_components", "trimming", "optimizer_options", "optimizer_constraints", "optimizer_arguments",
   "optimizer_start", "center_data", "center", "scale_data", "whiten_data", "compression", "n_slices", "dmetric", "fit_ols", "copy",
   "response_type", "verbose", "return_scaling_object"]

/-- `sudire.py:163-181`. -/
def sudireStored : List String :=
  ["sudiremeth", "n_components", "trimming", "optimizer_options", "optimizer_constraints", "optimizer_arguments",
   "optimizer_start", "center", "center_data", "scale_data", "whiten_data", "compression", "n_slices", "dmetric", "fit_ols", "copy",
   "response_type", "verbose", "return_scaling_object"]

end Direpack
