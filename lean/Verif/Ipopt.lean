import Mathlib.Data.Real.Basic
import Mathlib.Algebra.BigOperators.Fin
import Verif.Basic

/-!
Model of the Ipopt interface: `ipopt_temp/ipopt_wrapper.py` and `ipopt_temp/jacobian.py`.

`cyipopt` itself (the solver, and which options `add_option` accepts) is a parameter.
-/

namespace Direpack

open scoped BigOperators

/-! ### Python dictionaries -/

/-- Keys of an options dictionary: a `str`, the `bytes` object that encodes a string, or anything else (for which `bytes(key, 'utf-8')` raises `TypeError`). -/
inductive OptKey where
  | str (s : String)
  | bytes (s : String)
  | other (n : ℕ)
  deriving DecidableEq

/-- Values of options. -/
inductive OptVal where
  | num (q : ℚ)
  | text (s : String)
  | any (n : ℕ)
  deriving DecidableEq

/-- A dictionary in insertion order. -/
abbrev OptDict := List (OptKey × OptVal)

/-- `d.get(k)`. -/
def OptDict.get (d : OptDict) (k : OptKey) : Option OptVal := (d.find? fun e => e.1 = k).map (·.2)

/-- `k in d`. -/
def OptDict.has (d : OptDict) (k : OptKey) : Bool := d.any fun e => e.1 = k

/-- `d[k] = v`. -/
def OptDict.put (d : OptDict) (k : OptKey) (v : OptVal) : OptDict :=
  if d.has k then d.map fun e => if e.1 = k then (k, v) else e else d ++ [(k, v)]

/-- `d` after `d.pop(k)`. -/
def OptDict.del (d : OptDict) (k : OptKey) : OptDict := d.filter fun e => e.1 ≠ k

/-! ### Options -/

/-- One iteration of the loop of `convert_to_bytes`, `ipopt_wrapper.py:177-183`.  In Python 3 a `str` is never equal to a `bytes` object. -/
def convertStep (d : OptDict) : OptKey → OptDict
  | .str s =>
    match d.get (.str s) with
    | some v => (d.put (.bytes s) v).del (.str s)
    | none => d
  | _ => d

/-- `convert_to_bytes(options)`, `ipopt_wrapper.py:175-183`. -/
def convertToBytes (d : OptDict) : OptDict := (d.map (·.1)).foldl convertStep d

/-- `replace_option(options, oldname, newname)`, `ipopt_wrapper.py:170-173`. -/
def replaceOption (d : OptDict) (old new : OptKey) : OptDict :=
  match d.get old with
  | some v => if d.has new then d else (d.del old).put new v
  | none => d

/-- `if k not in options: options[k] = v`, `ipopt_wrapper.py:224-231`. -/
def setDefault (d : OptDict) (k : OptKey) (v : OptVal) : OptDict := if d.has k then d else d.put k v

/-- `tol or 1e-8`, `ipopt_wrapper.py:227`. -/
def tolOrDefault (tol : Option ℚ) : ℚ :=
  match tol with
  | none => 1 / 100000000
  | some t => if t = 0 then 1 / 100000000 else t

/-- The options handed to Ipopt, `ipopt_wrapper.py:218-231`; the dictionary of the caller is changed to the same. -/
def ipoptOptions (d : OptDict) (tol : Option ℚ) : OptDict :=
  let d1 := convertToBytes d
  let d2 := replaceOption d1 (.bytes "disp") (.bytes "print_level")
  let d3 := replaceOption d2 (.bytes "maxiter") (.bytes "max_iter")
  let d4 := setDefault d3 (.bytes "print_level") (.num 0)
  let d5 := setDefault d4 (.bytes "tol") (.num (tolOrDefault tol))
  let d6 := setDefault d5 (.bytes "mu_strategy") (.text "adaptive")
  setDefault d6 (.bytes "hessian_approximation") (.text "limited-memory")

/-- `nlp.add_option` for all options, `ipopt_wrapper.py:232-236`: `accepts` says which options Ipopt accepts. -/
def addOptions (accepts : OptKey → OptVal → Bool) (d : OptDict) : Except Err Unit :=
  if d.all fun e => accepts e.1 e.2 then .ok () else .error .typeError

/-- The options part of `minimize_ipopt`, `ipopt_wrapper.py:204-236`, for `options` that are not `None`: the options handed to the solver or an exception, and the
dictionary of the caller afterwards.  (`hess` and `hessp` raise before, in `IpoptProblemWrapper`.) -/
def minimizeOptions (accepts : OptKey → OptVal → Bool) (d : OptDict) (tol : Option ℚ) : Except Err OptDict × OptDict :=
  let o := ipoptOptions d tol
  match addOptions accepts o with
  | .error e => (.error e, o)
  | .ok () => (.ok o, o)

/-! ### Bounds -/

/-- A constraint dictionary: the type and the function of the point with its arguments, as a list of values. -/
structure IpCons (α : Type) where
  type : String
  f : α → List ℝ

/-- The loop of `get_constraint_bounds`, `ipopt_wrapper.py:155-165`. -/
def consBoundsLoop {α : Type} (inf : ℝ) (x0 : α) : List (IpCons α) → List ℝ → List ℝ → Except Err (List ℝ × List ℝ)
  | [], cl, cu => .ok (cl, cu)
  | c :: cs, cl, cu =>
    let m := (c.f x0).length
    let cl' := cl ++ List.replicate m 0
    if c.type = "eq" then consBoundsLoop inf x0 cs cl' (cu ++ List.replicate m 0)
    else if c.type = "ineq" then consBoundsLoop inf x0 cs cl' (cu ++ List.replicate m inf)
    else .error .valueError

/-- `get_constraint_bounds(constraints, x0, INF)`, `ipopt_wrapper.py:148-168`. -/
def getConstraintBounds {α : Type} (inf : ℝ) (cons : List (IpCons α)) (x0 : α) : Except Err (List ℝ × List ℝ) := consBoundsLoop inf x0 cons [] []

/-- `constraints(x)` of the wrapped problem, `ipopt_wrapper.py:109-113`. -/
def consValues {α : Type} (cons : List (IpCons α)) (x : α) : List ℝ := cons.flatMap fun c => c.f x

/-- `get_bounds(bounds)`, `ipopt_wrapper.py:139-145`. -/
def getBounds (bounds : Option (List (ℝ × ℝ))) : Option (List ℝ) × Option (List ℝ) :=
  match bounds with
  | none => (none, none)
  | some l => (some (l.map (·.1)), some (l.map (·.2)))

/-! ### Finite differences with a cache -/

/-- The cache of `FunctionWithApproxJacobian`, `jacobian.py:13`. -/
abbrev Cache (n : ℕ) (β : Type) := List ((Fin n → ℝ) × β)

/-- `__call__`, `jacobian.py:16-24`: the value and the cache afterwards.  The key is the point only. -/
noncomputable def cachedCall {n : ℕ} {γ β : Type} (f : (Fin n → ℝ) → γ → β) (c : Cache n β) (x : Fin n → ℝ) (a : γ) : β × Cache n β :=
  open Classical in
  match c.find? fun e => e.1 = x with
  | some e => (e.2, c)
  | none => (f x a, (x, f x a) :: c)

/-- Successive calls at the points of a list. -/
noncomputable def cachedCalls {n : ℕ} {γ β : Type} (f : (Fin n → ℝ) → γ → β) (a : γ) : List (Fin n → ℝ) → Cache n β → List β × Cache n β
  | [], c => ([], c)
  | x :: xs, c =>
    let r := cachedCall f c x a
    let s := cachedCalls f a xs r.2
    (r.1 :: s.1, s.2)

/-- `x0 + dxs[:, i]`: the point moved by `e` along one axis. -/
def shiftAt {n : ℕ} (x : Fin n → ℝ) (i : Fin n) (e : ℝ) : Fin n → ℝ := fun j => if j = i then x j + e else x j

/-- `jac` of `FunctionWithApproxJacobian`, `jacobian.py:37-48`, for a function with `m` values: entry `(k, i)` is the derivative of value `k` with respect to
variable `i`. -/
noncomputable def jacForward {n m : ℕ} {γ : Type} (f : (Fin n → ℝ) → γ → Fin m → ℝ) (eps : ℝ) (c : Cache n (Fin m → ℝ)) (x : Fin n → ℝ) (a : γ) :
    (Fin m → Fin n → ℝ) × Cache n (Fin m → ℝ) :=
  let r := cachedCalls f a (x :: List.ofFn fun i => shiftAt x i eps) c
  (fun k i => ((r.1.getD (i.1 + 1) fun _ => 0) k - (r.1.getD 0 fun _ => 0) k) / eps, r.2)

/-- `jac` of `FunctionWithApproxJacobianCentral`, `jacobian.py:52-65`. -/
noncomputable def jacCentral {n m : ℕ} {γ : Type} (f : (Fin n → ℝ) → γ → Fin m → ℝ) (eps : ℝ) (c : Cache n (Fin m → ℝ)) (x : Fin n → ℝ) (a : γ) :
    (Fin m → Fin n → ℝ) × Cache n (Fin m → ℝ) :=
  let r := cachedCalls f a ((List.ofFn fun i => shiftAt x i (-eps)) ++ List.ofFn fun i => shiftAt x i eps) c
  (fun k i => ((r.1.getD (n + i.1) fun _ => 0) k - (r.1.getD i.1 fun _ => 0) k) / (2 * eps), r.2)

/-- Operations on a cached function: evaluate it, or its forward or central differences, at a point with arguments. -/
inductive CacheOp (n : ℕ) (γ : Type) where
  | call (x : Fin n → ℝ) (a : γ)
  | forward (x : Fin n → ℝ) (a : γ)
  | central (x : Fin n → ℝ) (a : γ)

/-- The arguments of an operation. -/
def CacheOp.args {n : ℕ} {γ : Type} : CacheOp n γ → γ
  | .call _ a => a
  | .forward _ a => a
  | .central _ a => a

/-- The cache after an operation. -/
noncomputable def CacheOp.run {n m : ℕ} {γ : Type} (f : (Fin n → ℝ) → γ → Fin m → ℝ) (eps : ℝ) (c : Cache n (Fin m → ℝ)) : CacheOp n γ → Cache n (Fin m → ℝ)
  | .call x a => (cachedCall f c x a).2
  | .forward x a => (jacForward f eps c x a).2
  | .central x a => (jacCentral f eps c x a).2

/-- The cache after a sequence of operations on a new object. -/
noncomputable def cacheAfter {n m : ℕ} {γ : Type} (f : (Fin n → ℝ) → γ → Fin m → ℝ) (eps : ℝ) (ops : List (CacheOp n γ)) : Cache n (Fin m → ℝ) :=
  ops.foldl (CacheOp.run f eps) []

/-! ### Objective and gradient computed together -/

/-- State of an `IpoptProblemWrapper` made with `jac=True`, `ipopt_wrapper.py:48-119`: `last_x` is a reference to an array of the caller. -/
structure IpState (β : Type) where
  /-- `last_x` -/
  lastRef : Option ℕ
  /-- `last_value` -/
  lastValue : Option β
  /-- `nfev` -/
  nfev : ℕ

/-- The arrays of the caller: contents by reference. -/
abbrev Arrays (α : Type) := ℕ → α

/-- What a caller can do: write to one of its arrays or ask for the objective or for the gradient at one of them. -/
inductive IpOp (α : Type) where
  | write (r : ℕ) (v : α)
  | objective (r : ℕ)
  | gradient (r : ℕ)

/-- `evaluate_fun_with_grad(x)`, `ipopt_wrapper.py:88-93`, where `x` is the array `r`. -/
def evalWithGrad {α β : Type} [DecidableEq α] (f : α → β) (h : Arrays α) (st : IpState β) (r : ℕ) : Option β × IpState β :=
  match st.lastRef with
  | some l =>
    if h l = h r then (st.lastValue, st) else (some (f (h r)), ⟨some r, some (f (h r)), st.nfev + 1⟩)
  | none => (some (f (h r)), ⟨some r, some (f (h r)), st.nfev + 1⟩)

/-- One operation: arrays, state and answer (`f` gives objective and gradient; the answer is the pair of which `objective` and `gradient` give a component). -/
def ipStep {α β : Type} [DecidableEq α] (f : α → β) (s : Arrays α × IpState β) : IpOp α → (Arrays α × IpState β) × Option β
  | .write r v => ((Function.update s.1 r v, s.2), none)
  | .objective r => let e := evalWithGrad f s.1 s.2 r; ((s.1, e.2), e.1)
  | .gradient r => let e := evalWithGrad f s.1 s.2 r; ((s.1, e.2), e.1)

/-- A sequence of operations: the final state and the answers. -/
def ipRun {α β : Type} [DecidableEq α] (f : α → β) : Arrays α × IpState β → List (IpOp α) → (Arrays α × IpState β) × List (Option β)
  | s, [] => (s, [])
  | s, o :: os =>
    let r := ipStep f s o
    let t := ipRun f r.1 os
    (t.1, r.2 :: t.2)

/-- A new wrapper. -/
def IpState.new {β : Type} : IpState β := ⟨none, none, 0⟩

end Direpack
