import Verif.Dicomo

/-!
Model of the co-moment analysis projection index, `ppdire/capi.py:17-106`.

The projection index that evaluates the single co-moments (`self.most`, by default a `dicomo` object) is a parameter: a function of
the mode, the order and the option.  Its other arguments (`x`, `y`, further keywords) are the same in every call.
-/

namespace Direpack

open scoped BigOperators

/-- The argument `options`, `capi.py:63`: the string 'all' or a list of integers. -/
inductive CapiOptions where
  | all
  | list (l : List ℤ)

/-- `options` as an array, `capi.py:85-88`. -/
def CapiOptions.run : CapiOptions → List ℤ
  | .all => [1, 2, 3]
  | .list l => l

/-- `capi.__init__`, `capi.py:73-74`: the only check. -/
def capiInit (maxDegree : ℕ) : Except Err Unit :=
  if maxDegree > 4 then .error .valueError else .ok ()

/-- `order_kwargs[i - 2]`, `capi.py:78-81` and `96`. -/
def capiMode (scaling : Bool) (i : ℕ) : Except Err Mode :=
  match (if scaling then [Mode.cov, .cos, .cok] else [.com, .com, .com])[i - 2]? with
  | some m => .ok m
  | none => .error .indexError

/-- `moments[idx] = v` for the array `np.zeros(6)`, `capi.py:89` and `100`: numpy's rule for negative indices. -/
def capiStore (m : Fin 6 → ℝ) (idx : ℤ) (v : ℝ) : Except Err (Fin 6 → ℝ) :=
  if -6 ≤ idx ∧ idx < 6 then .ok fun s => if (s.1 : ℤ) = idx % 6 then v else m s
  else .error .indexError

/-- The inner loop, `capi.py:98-100`: one degree `i`, `k` as in the code. -/
def capiDegree (mom : Mode → ℕ → ℤ → Except Err ℝ) (mode : Mode) (i : ℕ) (k : ℤ) :
    List ℤ → (Fin 6 → ℝ) → Except Err (Fin 6 → ℝ)
  | [], m => .ok m
  | j :: js, m =>
    match mom mode i j with
    | .error e => .error e
    | .ok v =>
      match capiStore m ((i : ℤ) - 3 + j + k) v with
      | .error e => .error e
      | .ok m' => capiDegree mom mode i k js m'

/-- The outer loop, `capi.py:92-102`: `steps` degrees are left, `i` is the next one. -/
def capiLoop (mom : Mode → ℕ → ℤ → Except Err ℝ) (scaling : Bool) (options : List ℤ) :
    ℕ → ℕ → ℤ → (Fin 6 → ℝ) → Except Err (Fin 6 → ℝ)
  | 0, _, _, m => .ok m
  | steps + 1, i, k, m =>
    match capiMode scaling i with
    | .error e => .error e
    | .ok mode =>
      match capiDegree mom mode i k (options.take (min (i - 1) options.length)) m with
      | .error e => .error e
      | .ok m' => capiLoop mom scaling options steps (i + 1) (if i = 3 then k + 1 else k) m'

/-- `capi.fit`, `capi.py:76-106`: the index and the stored co-moments. -/
def capiFit (mom : Mode → ℕ → ℤ → Except Err ℝ) (scaling : Bool) (options : CapiOptions) (maxDegree : ℕ) (weights : List ℝ) :
    Except Err (ℝ × (Fin 6 → ℝ)) :=
  if maxDegree < 2 then .error .valueError
  else
    match capiLoop mom scaling options.run (maxDegree - 1) 2 0 (fun _ => 0) with
    | .error e => .error e
    | .ok m =>
      if h : weights.length = 6 then .ok (∑ s : Fin 6, weights.get (Fin.cast h.symm s) * m s, m)
      else .error .valueError

end Direpack
