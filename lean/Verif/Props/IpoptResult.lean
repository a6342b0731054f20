import Mathlib.Tactic.Linarith
import Verif.IpoptObj

/-! Property C150: what the result of `minimize_ipopt` reports. -/

namespace Direpack

variable {α ν γ : Type} [DecidableEq α]

/-- How often the objective was asked for. -/
def Spec.objectives (evs : List (IpEvent α)) : ℕ := evs.countP fun e => match e with | .objective _ => true | _ => false

/-- How often the gradient was asked for. -/
def Spec.gradients (evs : List (IpEvent α)) : ℕ := evs.countP fun e => match e with | .gradient _ => true | _ => false

/-- The iteration the solver reported last (0 if none). -/
def Spec.lastIteration : List (IpEvent α) → ℕ
  | [] => 0
  | .intermediate it :: evs => if (evs.any fun e => match e with | .intermediate _ => true | _ => false) then lastIteration evs else it
  | _ :: evs => lastIteration evs

/-- The result has the shape of the starting value. -/
def Spec.SameForm : IpX → IpX → Prop
  | .scalar _, .scalar _ => True
  | .vec a, .vec b => a.length = b.length
  | _, _ => False

open Spec

lemma ipEvents_nit (F : IpFuns α ν γ) (evs : List (IpEvent α)) (s : Arrays α × IpWrap α ν γ) :
    (evs.foldl (ipEvent F) s).2.nit = if (evs.any fun e => match e with | .intermediate _ => true | _ => false) then lastIteration evs else s.2.nit := by
  induction evs generalizing s with
  | nil => simp
  | cons e evs ih =>
    rw [List.foldl_cons, ih]
    cases e with
    | write r v => simp [ipEvent, lastIteration]
    | objective r => cases F <;> simp [ipEvent, lastIteration, IpWrap.objective]
    | gradient r => cases F <;> simp [ipEvent, lastIteration, IpWrap.gradient]
    | intermediate it =>
      simp only [ipEvent, lastIteration, IpWrap.intermediate, List.any_cons, Bool.true_or, if_true]

lemma lastIteration_none (evs : List (IpEvent α)) (h : (evs.any fun e => match e with | .intermediate _ => true | _ => false) = false) : lastIteration evs = 0 := by
  induction evs with
  | nil => rfl
  | cons e evs ih =>
    rw [List.any_cons, Bool.or_eq_false_iff] at h
    cases e with
    | intermediate it => simp at h
    | write r v => exact ih h.2
    | objective r => exact ih h.2
    | gradient r => exact ih h.2

lemma ipAfter_nit (F : IpFuns α ν γ) (h : Arrays α) (evs : List (IpEvent α)) : (ipAfter F h evs).nit = lastIteration evs := by
  unfold ipAfter
  rw [ipEvents_nit]
  split
  · rfl
  · rename_i hn
    rw [lastIteration_none evs (by simpa using hn)]
    rfl

lemma ipAfter_given (f : α → ν) (g : α → γ) (evs : List (IpEvent α)) (s : Arrays α × IpWrap α ν γ) :
    (evs.foldl (ipEvent (.given f g)) s).2.st.nfev = s.2.st.nfev + objectives evs ∧
    (evs.foldl (ipEvent (.given f g)) s).2.calls.length = s.2.calls.length + objectives evs ∧
    (evs.foldl (ipEvent (.given f g)) s).2.njev = s.2.njev + gradients evs := by
  induction evs generalizing s with
  | nil => simp [objectives, gradients]
  | cons e evs ih =>
    rw [List.foldl_cons]
    obtain ⟨h1, h2, h3⟩ := ih (ipEvent (.given f g) s e)
    rw [h1, h2, h3]
    cases e <;> simp [ipEvent, IpWrap.objective, IpWrap.gradient, IpWrap.intermediate, objectives, gradients] <;> omega

lemma ipAfter_approx (f : α → ν) (D : α → γ) (probe : α → List α) (evs : List (IpEvent α)) (s : Arrays α × IpWrap α ν γ) (k : ℕ) (hk : ∀ x, (probe x).length = k) :
    (evs.foldl (ipEvent (.approx f D probe)) s).2.st.nfev = s.2.st.nfev + objectives evs ∧
    (evs.foldl (ipEvent (.approx f D probe)) s).2.calls.length = s.2.calls.length + (objectives evs + k * gradients evs) ∧
    (evs.foldl (ipEvent (.approx f D probe)) s).2.njev = s.2.njev + gradients evs := by
  induction evs generalizing s with
  | nil => simp [objectives, gradients]
  | cons e evs ih =>
    rw [List.foldl_cons]
    obtain ⟨h1, h2, h3⟩ := ih (ipEvent (.approx f D probe) s e)
    rw [h1, h2, h3]
    cases e <;> simp [ipEvent, IpWrap.objective, IpWrap.gradient, IpWrap.intermediate, objectives, gradients, hk, Nat.mul_add] <;> omega

lemma evalWithGrad_calls {β : Type} (f : α → β) (h : Arrays α) (st : IpState β) (r : ℕ) :
    (evalWithGrad f h st r).2.nfev = st.nfev + (togetherCalls h st r).length := by
  unfold evalWithGrad togetherCalls
  cases st.lastRef with
  | none => simp
  | some l =>
    dsimp only
    by_cases hx : h l = h r
    · simp [hx]
    · simp [hx]

lemma ipAfter_together (f : α → ν × γ) (evs : List (IpEvent α)) (s : Arrays α × IpWrap α ν γ) (hs : s.2.st.nfev = s.2.calls.length) :
    (evs.foldl (ipEvent (.together f)) s).2.st.nfev = (evs.foldl (ipEvent (.together f)) s).2.calls.length ∧
    (evs.foldl (ipEvent (.together f)) s).2.njev = s.2.njev := by
  induction evs generalizing s with
  | nil => exact ⟨hs, rfl⟩
  | cons e evs ih =>
    rw [List.foldl_cons]
    obtain ⟨h1, h2⟩ := ih (ipEvent (.together f) s e) (by
      cases e with
      | write r v => exact hs
      | intermediate it => exact hs
      | objective r =>
        simp only [ipEvent, IpWrap.objective, List.length_append]
        rw [evalWithGrad_calls, hs]
      | gradient r =>
        simp only [ipEvent, IpWrap.gradient, List.length_append]
        rw [evalWithGrad_calls, hs])
    exact ⟨h1, by rw [h2]; cases e <;> rfl⟩

lemma minimizeIpopt_ok {F : IpFuns α ν γ} {solver : List ℝ → Arrays α × List (IpEvent α) × IpInfo} {x0 : IpX} {res : IpResult} (h : minimizeIpopt F solver x0 = .ok res) :
    res.success = decide ((solver x0.atleast1d).2.2.status = 0) ∧ res.status = (solver x0.atleast1d).2.2.status ∧ res.message = (solver x0.atleast1d).2.2.msg ∧
    res.fval = (solver x0.atleast1d).2.2.objVal ∧ res.nfev = (ipAfter F (solver x0.atleast1d).1 (solver x0.atleast1d).2.1).st.nfev ∧
    res.njev = (ipAfter F (solver x0.atleast1d).1 (solver x0.atleast1d).2.1).njev ∧ res.nit = (ipAfter F (solver x0.atleast1d).1 (solver x0.atleast1d).2.1).nit := by
  unfold minimizeIpopt at h
  dsimp only at h
  unfold ipResult at h
  cases x0 with
  | vec l =>
    simp only [Except.ok.injEq] at h
    subst h
    exact ⟨rfl, rfl, rfl, rfl, rfl, rfl, rfl⟩
  | scalar x =>
    simp only at h
    split at h
    · exact absurd h (by simp)
    · simp only [Except.ok.injEq] at h
      subst h
      exact ⟨rfl, rfl, rfl, rfl, rfl, rfl, rfl⟩

/-- C150 with a given gradient: the number of calls of the objective function, the number of gradients asked for, the last iteration, and success exactly for status 0. -/
theorem C150_counts_partial (f : α → ν) (g : α → γ) (solver : List ℝ → Arrays α × List (IpEvent α) × IpInfo) (x0 : IpX) (res : IpResult)
    (h : minimizeIpopt (.given f g) solver x0 = .ok res) (h0 : Arrays α) (evs : List (IpEvent α)) (info : IpInfo) (hr : solver x0.atleast1d = (h0, evs, info)) :
    res.nfev = (ipAfter (.given f g) h0 evs).calls.length ∧ res.nfev = objectives evs ∧ res.njev = gradients evs ∧ res.nit = lastIteration evs ∧
    (res.success = true ↔ info.status = 0) ∧ res.status = info.status ∧ res.message = info.msg ∧ res.fval = info.objVal := by
  obtain ⟨h1, h2, h3, h4, h5, h6, h7⟩ := minimizeIpopt_ok h
  rw [hr] at h1 h2 h3 h4 h5 h6 h7
  have hc := ipAfter_given f g evs (h0, IpWrap.new)
  simp only [IpWrap.new, IpState.new, Nat.zero_add, List.length_nil] at hc
  refine ⟨?_, ?_, ?_, ?_, ?_, h2, h3, h4⟩
  · rw [h5]; exact hc.1.trans hc.2.1.symm
  · rw [h5]; exact hc.1
  · rw [h6]; exact hc.2.2
  · rw [h7]; exact ipAfter_nit _ _ _
  · rw [h1]; simp

/-- C150 for an objective function that gives value and gradient (`jac=True`): `nfev` is the number of its calls. -/
theorem C150_together_partial (f : α → ν × γ) (solver : List ℝ → Arrays α × List (IpEvent α) × IpInfo) (x0 : IpX) (res : IpResult)
    (h : minimizeIpopt (.together f) solver x0 = .ok res) (h0 : Arrays α) (evs : List (IpEvent α)) (info : IpInfo) (hr : solver x0.atleast1d = (h0, evs, info)) :
    res.nfev = (ipAfter (.together f) h0 evs).calls.length ∧ res.nit = lastIteration evs ∧
    (res.success = true ↔ info.status = 0) ∧ res.status = info.status ∧ res.message = info.msg ∧ res.fval = info.objVal := by
  obtain ⟨h1, h2, h3, h4, h5, h6, h7⟩ := minimizeIpopt_ok h
  rw [hr] at h1 h2 h3 h4 h5 h6 h7
  refine ⟨?_, ?_, ?_, h2, h3, h4⟩
  · rw [h5]; exact (ipAfter_together f evs (h0, IpWrap.new) rfl).1
  · rw [h7]; exact ipAfter_nit _ _ _
  · rw [h1]; simp

/-- C150 is violated for `jac=True`: `njev` is zero however many gradients were asked for. -/
theorem C150_together_violated (f : α → ν × γ) (solver : List ℝ → Arrays α × List (IpEvent α) × IpInfo) (x0 : IpX) (res : IpResult)
    (h : minimizeIpopt (.together f) solver x0 = .ok res) : res.njev = 0 := by
  obtain ⟨-, -, -, -, -, h6, -⟩ := minimizeIpopt_ok h
  rw [h6]
  exact (ipAfter_together f _ (_, IpWrap.new) rfl).2

/-- C150 is violated without a given gradient (as `ppdire` and `sudire` call it): the calls made by the numerical gradient, `k` for each, are not counted. -/
theorem C150_approx_violated (f : α → ν) (D : α → γ) (probe : α → List α) (k : ℕ) (hk : ∀ x, (probe x).length = k)
    (solver : List ℝ → Arrays α × List (IpEvent α) × IpInfo) (x0 : IpX) (res : IpResult) (h : minimizeIpopt (.approx f D probe) solver x0 = .ok res)
    (h0 : Arrays α) (evs : List (IpEvent α)) (info : IpInfo) (hr : solver x0.atleast1d = (h0, evs, info)) :
    res.nfev = objectives evs ∧ res.njev = gradients evs ∧ (ipAfter (.approx f D probe) h0 evs).calls.length = res.nfev + k * gradients evs ∧
    (0 < k → 0 < gradients evs → res.nfev < (ipAfter (.approx f D probe) h0 evs).calls.length) := by
  obtain ⟨-, -, -, -, h5, h6, -⟩ := minimizeIpopt_ok h
  rw [hr] at h5 h6
  have hc := ipAfter_approx f D probe evs (h0, IpWrap.new) k hk
  simp only [IpWrap.new, IpState.new, Nat.zero_add, List.length_nil] at hc
  have e1 : res.nfev = objectives evs := by rw [h5]; exact hc.1
  have e3 : (ipAfter (.approx f D probe) h0 evs).calls.length = res.nfev + k * gradients evs := by rw [e1]; exact hc.2.1
  refine ⟨e1, by rw [h6]; exact hc.2.2, e3, fun hk0 hg => ?_⟩
  rw [e3]
  exact Nat.lt_add_of_pos_right (Nat.mul_pos hk0 hg)

/-- C150: if the solver returns a point with as many coordinates as its starting point has, a result is returned, and its `x` has the shape of `x0`. -/
theorem C150_shape (F : IpFuns α ν γ) (solver : List ℝ → Arrays α × List (IpEvent α) × IpInfo) (x0 : IpX)
    (hs : (solver x0.atleast1d).2.2.x.length = x0.atleast1d.length) :
    ∃ res, minimizeIpopt F solver x0 = .ok res ∧ SameForm x0 res.x ∧ res.x.atleast1d = (solver x0.atleast1d).2.2.x := by
  unfold minimizeIpopt
  dsimp only
  unfold ipResult
  cases x0 with
  | vec l => exact ⟨_, rfl, hs.symm, rfl⟩
  | scalar x =>
    simp only [IpX.atleast1d, List.length_cons, List.length_nil] at hs ⊢
    obtain ⟨v, hv⟩ := List.length_eq_one_iff.mp hs
    rw [hv]
    exact ⟨_, rfl, trivial, rfl⟩

/-- A run of the solver with two objective values, a gradient and one iteration. -/
example : ∃ res, minimizeIpopt (.given (fun x : ℕ => x) (fun x => 2 * x)) (fun l => (fun _ => 3, [.objective 0, .gradient 0, .objective 1, .intermediate 7], ⟨l, 0, "ok", 1⟩))
    (.scalar 5) = .ok res ∧ res.nfev = 2 ∧ res.njev = 1 ∧ res.nit = 7 ∧ res.success = true := ⟨_, rfl, rfl, rfl, rfl, rfl⟩

/-- The hypotheses of the other theorems are met: one gradient is asked for. -/
example : (∃ res, minimizeIpopt (.together (fun x : ℕ => (x, 2 * x))) (fun l => (fun _ => 3, [.objective 0, .gradient 0], ⟨l, 0, "ok", 1⟩)) (.vec [5, 6]) = .ok res ∧
      res.nfev = 1 ∧ res.njev = 0) ∧
    ∃ res, minimizeIpopt (.approx (fun x : ℕ => x) (fun x => x) (fun x => [x, x + 1])) (fun l => (fun _ => 3, [.objective 0, .gradient 0], ⟨l, 1, "failed", 1⟩))
      (.vec [5]) = .ok res ∧ res.nfev = 1 ∧ res.success = false := ⟨⟨_, rfl, rfl, rfl⟩, _, rfl, rfl, rfl⟩

end Direpack
