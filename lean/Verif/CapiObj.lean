import Verif.Capi

/-!
Model of a `capi` object with the `dicomo` object that it keeps, `ppdire/capi.py:54-106`.

The default `projection_index=dicomo` is modelled.  The `dicomo` object is made once by the constructor and used for every co-moment of every fit; what one fit
leaves in it is there in the next one.
-/

namespace Direpack

open scoped BigOperators

/-- A `capi` object, `capi.py:64-72`; `most` is the `dicomo` object. -/
structure CapiObj where
  most : Dicomo
  maxDegree : ℕ
  scaling : Bool
  options : CapiOptions
  weights : List ℝ

/-- `capi.__init__`, `capi.py:54-74`, with `pi_arguments={'est': est, 'mode': mode, 'center': center}`. -/
noncomputable def CapiObj.new (maxDegree : ℕ) (est mode center : String) (weights : List ℝ) (scaling : Bool) (options : CapiOptions) : Except Err CapiObj :=
  match Dicomo.init est mode center with
  | .error e => .error e
  | .ok d =>
    match capiInit maxDegree with
    | .error e => .error e
    | .ok _ => .ok ⟨d, maxDegree, scaling, options, weights⟩

/-- The keyword arguments of one call, `capi.py:90-91,94,99`: the given ones with `order`, `option` and `y` overwritten.  (Options are taken to be nonnegative.) -/
def capiArgs1 (a : FitArgs) (i : ℕ) (j : ℤ) (y : DMat) : FitArgs := { a with order := i, option := j.toNat, y := some y }

/-- The inner loop with the object, `capi.py:98-100`. -/
noncomputable def capiDegreeO (a : FitArgs) (x y : DMat) (i : ℕ) (k : ℤ) : List ℤ → Dicomo → (Fin 6 → ℝ) → Dicomo × Except Err (Fin 6 → ℝ)
  | [], d, m => (d, .ok m)
  | j :: js, d, m =>
    match (d.fit (capiArgs1 a i j y) x).2 with
    | .error e => ((d.fit (capiArgs1 a i j y) x).1, .error e)
    | .ok v =>
      match capiStore m ((i : ℤ) - 3 + j + k) v with
      | .error e => ((d.fit (capiArgs1 a i j y) x).1, .error e)
      | .ok m' => capiDegreeO a x y i k js (d.fit (capiArgs1 a i j y) x).1 m'

/-- The outer loop with the object, `capi.py:92-102`: `set_params(mode=...)`, then the inner loop. -/
noncomputable def capiLoopO (a : FitArgs) (x y : DMat) (scaling : Bool) (options : List ℤ) :
    ℕ → ℕ → ℤ → Dicomo → (Fin 6 → ℝ) → Dicomo × Except Err (Fin 6 → ℝ)
  | 0, _, _, d, m => (d, .ok m)
  | steps + 1, i, k, d, m =>
    match capiMode scaling i with
    | .error e => (d, .error e)
    | .ok mode =>
      match (capiDegreeO a x y i k (options.take (min (i - 1) options.length)) { d with mode := mode } m).2 with
      | .error e => ((capiDegreeO a x y i k (options.take (min (i - 1) options.length)) { d with mode := mode } m).1, .error e)
      | .ok m' =>
        capiLoopO a x y scaling options steps (i + 1) (if i = 3 then k + 1 else k)
          (capiDegreeO a x y i k (options.take (min (i - 1) options.length)) { d with mode := mode } m).1 m'

/-- `capi.fit(x, y, **kwargs)`, `capi.py:76-106`: the object afterwards and the index. -/
noncomputable def CapiObj.fit (o : CapiObj) (a : FitArgs) (x y : DMat) : CapiObj × Except Err ℝ :=
  if o.maxDegree < 2 then (o, .error .valueError)
  else
    let r := capiLoopO a x y o.scaling o.options.run (o.maxDegree - 1) 2 0 o.most (fun _ => 0)
    ({ o with most := r.1 },
      match r.2 with
      | .error e => .error e
      | .ok m => if h : o.weights.length = 6 then .ok (∑ s : Fin 6, o.weights.get (Fin.cast h.symm s) * m s) else .error .valueError)

/-- The object after a sequence of fits, successful or not. -/
noncomputable def CapiObj.after (o : CapiObj) (hist : List (FitArgs × DMat × DMat)) : CapiObj := hist.foldl (fun o h => (o.fit h.1 h.2.1 h.2.2).1) o

end Direpack
