import Verif.Ipopt

/-!
Model of the option dictionaries of `sudire` and `ppdire` objects as shared mutable state: the default value of a constructor argument is one dictionary, created
when the module is loaded (`sudire.py:145`, `ppdire.py:170`), and every object made with the default refers to it.
-/

namespace Direpack

/-- The two classes. -/
inductive OptClass where
  | sudire
  | ppdire
  deriving DecidableEq

/-- The default given in the signature, `sudire.py:145`, `ppdire.py:170`. -/
def OptClass.default : OptClass → OptDict
  | .sudire => [(.str "max_iter", .num 1000)]
  | .ppdire => [(.str "maxiter", .num 100000)]

/-- Where a dictionary is: the default of a class, or a dictionary made by the user. -/
inductive OptRef where
  | dflt (c : OptClass)
  | user (k : ℕ)
  deriving DecidableEq

/-- All dictionaries. -/
abbrev OptHeap := OptRef → OptDict

/-- When the modules are loaded; the dictionaries of the user are `u`. -/
def OptHeap.init (u : ℕ → OptDict) : OptHeap
  | .dflt c => c.default
  | .user k => u k

/-- An object: its class and its `optimizer_options` attribute, a reference (`sudire.py:166`, `ppdire.py:189`). -/
structure OptObj where
  cls : OptClass
  ref : OptRef

/-- The constructor: without argument the object refers to the default of its class. -/
def OptObj.new (c : OptClass) (arg : Option ℕ) : OptObj :=
  match arg with
  | none => ⟨c, .dflt c⟩
  | some k => ⟨c, .user k⟩

/-- The effect of a fit on the dictionaries: an optimisation based `sudire` fit calls `minimize_ipopt` with the dictionary (`sudire.py:499-508`, the `tol` argument is not
given), a `ppdire` fit with the grid optimiser sets `ndir` (`ppdire.py:428-429`). -/
def optFit (h : OptHeap) (o : OptObj) : OptHeap :=
  match o.cls with
  | .sudire => Function.update h o.ref (ipoptOptions (h o.ref) none)
  | .ppdire => Function.update h o.ref (setDefault (h o.ref) (.str "ndir") (.num 1000))

/-- The dictionaries after fits of a sequence of objects. -/
def optRun (h : OptHeap) (os : List OptObj) : OptHeap := os.foldl optFit h

end Direpack
