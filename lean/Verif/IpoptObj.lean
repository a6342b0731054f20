import Verif.Ipopt

/-!
Model of the callbacks of `IpoptProblemWrapper` with their counters, and of the result of `minimize_ipopt` (`ipopt_temp/ipopt_wrapper.py`).

The solver is a parameter: the callbacks it makes, in order, and the values it returns.
-/

namespace Direpack

/-- Objective and gradient as the wrapper holds them, `ipopt_wrapper.py:49-66`.  `approx`: `jac=None`, the gradient is `approx_fprime(x, fun, eps)`, which calls the
objective at the points `probe x` (scipy); `given`: `jac` is a function; `together`: `jac=True`, the objective gives value and gradient.  (`jac` not callable, `hess` and
`hessp` raise `NotImplementedError`.) -/
inductive IpFuns (α ν γ : Type) where
  | approx (f : α → ν) (D : α → γ) (probe : α → List α)
  | given (f : α → ν) (g : α → γ)
  | together (f : α → ν × γ)

/-- The wrapper: `last_x`, `last_value` and `nfev` (`st`), `njev`, `nit`, and, for the record, the points at which the objective function was called. -/
structure IpWrap (α ν γ : Type) where
  st : IpState (ν × γ)
  njev : ℕ
  nit : ℕ
  calls : List α

/-- A new wrapper, `ipopt_wrapper.py:53-54, 83-86`. -/
def IpWrap.new {α ν γ : Type} : IpWrap α ν γ := ⟨IpState.new, 0, 0, []⟩

/-- The call of the objective function in `evaluate_fun_with_grad`, `ipopt_wrapper.py:88-93`. -/
def togetherCalls {α β : Type} [DecidableEq α] (h : Arrays α) (st : IpState β) (r : ℕ) : List α :=
  match st.lastRef with
  | some l => if h l = h r then [] else [h r]
  | none => [h r]

/-- `objective(x)`, `ipopt_wrapper.py:95-100`, where `x` is the array `r`. -/
def IpWrap.objective {α ν γ : Type} [DecidableEq α] (F : IpFuns α ν γ) (h : Arrays α) (w : IpWrap α ν γ) (r : ℕ) : Option ν × IpWrap α ν γ :=
  match F with
  | .together f => ((evalWithGrad f h w.st r).1.map (·.1), { w with st := (evalWithGrad f h w.st r).2, calls := w.calls ++ togetherCalls h w.st r })
  | .given f _ => (some (f (h r)), { w with st := { w.st with nfev := w.st.nfev + 1 }, calls := w.calls ++ [h r] })
  | .approx f _ _ => (some (f (h r)), { w with st := { w.st with nfev := w.st.nfev + 1 }, calls := w.calls ++ [h r] })

/-- `gradient(x)`, `ipopt_wrapper.py:102-107`. -/
def IpWrap.gradient {α ν γ : Type} [DecidableEq α] (F : IpFuns α ν γ) (h : Arrays α) (w : IpWrap α ν γ) (r : ℕ) : Option γ × IpWrap α ν γ :=
  match F with
  | .together f => ((evalWithGrad f h w.st r).1.map (·.2), { w with st := (evalWithGrad f h w.st r).2, calls := w.calls ++ togetherCalls h w.st r })
  | .given _ g => (some (g (h r)), { w with njev := w.njev + 1 })
  | .approx _ D probe => (some (D (h r)), { w with njev := w.njev + 1, calls := w.calls ++ probe (h r) })

/-- `intermediate(..., iter_count, ...)`, `ipopt_wrapper.py:123-137`. -/
def IpWrap.intermediate {α ν γ : Type} (w : IpWrap α ν γ) (it : ℕ) : IpWrap α ν γ := { w with nit := it }

/-- What happens while the solver runs: it writes to an array, or calls `objective`, `gradient` or `intermediate`. -/
inductive IpEvent (α : Type) where
  | write (r : ℕ) (v : α)
  | objective (r : ℕ)
  | gradient (r : ℕ)
  | intermediate (it : ℕ)

/-- One event. -/
def ipEvent {α ν γ : Type} [DecidableEq α] (F : IpFuns α ν γ) (s : Arrays α × IpWrap α ν γ) : IpEvent α → Arrays α × IpWrap α ν γ
  | .write r v => (Function.update s.1 r v, s.2)
  | .objective r => (s.1, (s.2.objective F s.1 r).2)
  | .gradient r => (s.1, (s.2.gradient F s.1 r).2)
  | .intermediate it => (s.1, s.2.intermediate it)

/-- The wrapper after a run of the solver. -/
def ipAfter {α ν γ : Type} [DecidableEq α] (F : IpFuns α ν γ) (h : Arrays α) (evs : List (IpEvent α)) : IpWrap α ν γ := (evs.foldl (ipEvent F) (h, IpWrap.new)).2

/-- A starting value or solution: a number or a one-dimensional array. -/
inductive IpX where
  | scalar (x : ℝ)
  | vec (x : List ℝ)

/-- `np.atleast_1d(x0)`, `ipopt_wrapper.py:201`. -/
def IpX.atleast1d : IpX → List ℝ
  | .scalar x => [x]
  | .vec l => l

/-- What `nlp.solve` returns. -/
structure IpInfo where
  x : List ℝ
  status : ℤ
  msg : String
  objVal : ℝ

/-- `OptimizeResult`. -/
structure IpResult where
  x : IpX
  success : Bool
  status : ℤ
  message : String
  fval : ℝ
  nfev : ℕ
  njev : ℕ
  nit : ℕ

/-- The end of `minimize_ipopt`, `ipopt_wrapper.py:240-251`: `x[0]` if `x0` has shape `()` (`IndexError` for an empty solution). -/
def ipResult {α ν γ : Type} (x0 : IpX) (w : IpWrap α ν γ) (info : IpInfo) : Except Err IpResult :=
  match x0 with
  | .scalar _ =>
    match info.x with
    | [] => .error .indexError
    | v :: _ => .ok ⟨.scalar v, decide (info.status = 0), info.status, info.msg, info.objVal, w.st.nfev, w.njev, w.nit⟩
  | .vec _ => .ok ⟨.vec info.x, decide (info.status = 0), info.status, info.msg, info.objVal, w.st.nfev, w.njev, w.nit⟩

/-- `minimize_ipopt`, `ipopt_wrapper.py:185-251`, after the options have been accepted (`minimizeOptions`): the solver runs from `atleast_1d(x0)`. -/
def minimizeIpopt {α ν γ : Type} [DecidableEq α] (F : IpFuns α ν γ) (solver : List ℝ → Arrays α × List (IpEvent α) × IpInfo) (x0 : IpX) : Except Err IpResult :=
  let r := solver x0.atleast1d
  ipResult x0 (ipAfter F r.1 r.2.1) r.2.2

end Direpack
