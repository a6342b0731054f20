import Verif.Props.Ipopt

/-! Properties C74 and C97: cached finite differences, and objective and gradient computed together. -/

namespace Direpack

open scoped BigOperators
open Spec

variable {n m : ℕ} {γ β : Type}

/-! ### The cache -/

/-- The cache holds values for the arguments `a`. -/
def CacheFor (f : (Fin n → ℝ) → γ → β) (a : γ) (c : Cache n β) : Prop := ∀ e ∈ c, e.2 = f e.1 a

lemma cachedCall_for {f : (Fin n → ℝ) → γ → β} {a : γ} {c : Cache n β} (hc : CacheFor f a c) (x : Fin n → ℝ) :
    (cachedCall f c x a).1 = f x a ∧ CacheFor f a (cachedCall f c x a).2 := by
  classical
  unfold cachedCall
  split
  · rename_i e he
    have h1 := List.mem_of_find?_eq_some he
    have h2 := List.find?_some he
    simp only [decide_eq_true_eq] at h2
    dsimp only
    rw [hc e h1, h2]
    exact ⟨rfl, hc⟩
  · dsimp only
    refine ⟨rfl, ?_⟩
    intro e he
    rcases List.mem_cons.mp he with rfl | h
    · rfl
    · exact hc e h

lemma cachedCalls_for {f : (Fin n → ℝ) → γ → β} {a : γ} (xs : List (Fin n → ℝ)) {c : Cache n β} (hc : CacheFor f a c) :
    (cachedCalls f a xs c).1 = xs.map (fun x => f x a) ∧ CacheFor f a (cachedCalls f a xs c).2 := by
  induction xs generalizing c with
  | nil => exact ⟨rfl, hc⟩
  | cons x xs ih =>
    obtain ⟨h1, h2⟩ := cachedCall_for hc x
    obtain ⟨h3, h4⟩ := ih h2
    unfold cachedCalls
    dsimp only
    rw [h1, h3]
    exact ⟨rfl, h4⟩

lemma getD_ofFn {α : Type} {n : ℕ} (g : Fin n → α) (i : Fin n) (d : α) : (List.ofFn g).getD i.1 d = g i := by
  rw [List.getD_eq_getElem?_getD, List.getElem?_ofFn]
  simp

lemma jacForward_for {f : (Fin n → ℝ) → γ → Fin m → ℝ} {a : γ} (eps : ℝ) {c : Cache n (Fin m → ℝ)} (hc : CacheFor f a c) (x : Fin n → ℝ) :
    (jacForward f eps c x a).1 = (fun k i => (f (shiftAt x i eps) a k - f x a k) / eps) ∧ CacheFor f a (jacForward f eps c x a).2 := by
  unfold jacForward
  dsimp only
  obtain ⟨h1, h2⟩ := cachedCalls_for (f := f) (x :: List.ofFn fun i => shiftAt x i eps) hc
  rw [h1]
  refine ⟨?_, h2⟩
  funext k i
  rw [List.map_cons, List.getD_cons_succ, List.getD_cons_zero, List.map_ofFn, getD_ofFn]
  rfl

lemma jacCentral_for {f : (Fin n → ℝ) → γ → Fin m → ℝ} {a : γ} (eps : ℝ) {c : Cache n (Fin m → ℝ)} (hc : CacheFor f a c) (x : Fin n → ℝ) :
    (jacCentral f eps c x a).1 = (fun k i => (f (shiftAt x i eps) a k - f (shiftAt x i (-eps)) a k) / (2 * eps)) ∧
      CacheFor f a (jacCentral f eps c x a).2 := by
  unfold jacCentral
  dsimp only
  obtain ⟨h1, h2⟩ := cachedCalls_for (f := f) ((List.ofFn fun i => shiftAt x i (-eps)) ++ List.ofFn fun i => shiftAt x i eps) hc
  rw [h1]
  refine ⟨?_, h2⟩
  funext k i
  rw [List.map_append, List.map_ofFn, List.map_ofFn]
  have e1 : ∀ d, (List.ofFn ((fun x => f x a) ∘ fun i => shiftAt x i (-eps)) ++ List.ofFn ((fun x => f x a) ∘ fun i => shiftAt x i eps)).getD (n + i.1) d =
      f (shiftAt x i eps) a := by
    intro d
    rw [List.getD_eq_getElem?_getD, List.getElem?_append_right (by simp), ← List.getD_eq_getElem?_getD]
    simp only [List.length_ofFn, Nat.add_sub_cancel_left]
    rw [getD_ofFn]
    rfl
  have e2 : ∀ d, (List.ofFn ((fun x => f x a) ∘ fun i => shiftAt x i (-eps)) ++ List.ofFn ((fun x => f x a) ∘ fun i => shiftAt x i eps)).getD i.1 d =
      f (shiftAt x i (-eps)) a := by
    intro d
    rw [List.getD_eq_getElem?_getD, List.getElem?_append_left (by simp), ← List.getD_eq_getElem?_getD, getD_ofFn]
    rfl
  rw [e1, e2]

lemma cacheAfter_for (f : (Fin n → ℝ) → γ → Fin m → ℝ) (eps : ℝ) (a : γ) (ops : List (CacheOp n γ)) (ha : ∀ o ∈ ops, o.args = a) :
    CacheFor f a (cacheAfter f eps ops) := by
  unfold cacheAfter
  have : ∀ c, CacheFor f a c → CacheFor f a (ops.foldl (CacheOp.run f eps) c) := by
    induction ops with
    | nil => intro c hc; exact hc
    | cons o os ih =>
      intro c hc
      rw [List.foldl_cons]
      apply ih (fun o ho => ha o (List.mem_cons_of_mem _ ho))
      have hoa := ha o List.mem_cons_self
      cases o with
      | call x b => simp only [CacheOp.args] at hoa; subst hoa; exact (cachedCall_for hc x).2
      | forward x b => simp only [CacheOp.args] at hoa; subst hoa; exact (jacForward_for eps hc x).2
      | central x b => simp only [CacheOp.args] at hoa; subst hoa; exact (jacCentral_for eps hc x).2
  exact this [] (by intro e he; exact absurd he (by simp))

/-- C74 (partial: all calls are made with the same arguments): after any sequence of calls, the cached function gives the value at the point asked for. -/
theorem C74_cache_partial (f : (Fin n → ℝ) → γ → Fin m → ℝ) (eps : ℝ) (a : γ) (ops : List (CacheOp n γ)) (ha : ∀ o ∈ ops, o.args = a) (x : Fin n → ℝ) :
    (cachedCall f (cacheAfter f eps ops) x a).1 = f x a :=
  (cachedCall_for (cacheAfter_for f eps a ops ha) x).1

/-- C74 is violated when the arguments change: the value for the earlier arguments is returned, for every function, point and history with one argument. -/
theorem C74_arguments_violated (f : (Fin n → ℝ) → γ → Fin m → ℝ) (eps : ℝ) (a a' : γ) (ops : List (CacheOp n γ)) (ha : ∀ o ∈ ops, o.args = a) (x : Fin n → ℝ) :
    (cachedCall f (cacheAfter f eps (ops ++ [.call x a])) x a').1 = f x a := by
  have hc := cacheAfter_for f eps a (ops ++ [.call x a]) (by
    intro o ho
    rcases List.mem_append.mp ho with h | h
    · exact ha o h
    · rw [List.mem_singleton.mp h]; rfl)
  have hin : ∃ e ∈ cacheAfter f eps (ops ++ [.call x a]), e.1 = x := by
    unfold cacheAfter
    rw [List.foldl_append]
    simp only [List.foldl_cons, List.foldl_nil, CacheOp.run]
    unfold cachedCall
    split
    · rename_i e he
      have h2 := List.find?_some he
      simp only [decide_eq_true_eq] at h2
      exact ⟨e, List.mem_of_find?_eq_some he, h2⟩
    · exact ⟨_, List.mem_cons_self, rfl⟩
  unfold cachedCall
  split
  · rename_i e he
    have h2 := List.find?_some he
    simp only [decide_eq_true_eq] at h2
    dsimp only
    rw [hc e (List.mem_of_find?_eq_some he), h2]
  · rename_i hnone
    obtain ⟨e, he, hx⟩ := hin
    rw [List.find?_eq_none] at hnone
    exact absurd (by simpa using hx) (hnone e he)

/-- A function whose value depends on the argument: the wrong value is returned. -/
theorem C74_arguments_example_violated : ∃ (f : (Fin 1 → ℝ) → ℝ → Fin 1 → ℝ) (ops : List (CacheOp 1 ℝ)) (x : Fin 1 → ℝ) (a : ℝ) (eps : ℝ),
    (cachedCall f (cacheAfter f eps ops) x a).1 ≠ f x a := by
  refine ⟨fun x a _ => x 0 + a, [] ++ [.call 0 0], 0, 1, 1, ?_⟩
  rw [C74_arguments_violated _ _ 0 1 [] (by simp)]
  intro h
  have := congrFun h 0
  simp at this

/-! ### Exactness -/

lemma shiftAt_sum (x : Fin n → ℝ) (i : Fin n) (e : ℝ) (g : Fin n → ℝ) : ∑ j, g j * shiftAt x i e j = ∑ j, g j * x j + g i * e := by
  unfold shiftAt
  have : ∀ j, g j * (if j = i then x j + e else x j) = g j * x j + if j = i then g j * e else 0 := by
    intro j
    split <;> ring
  simp only [this, Finset.sum_add_distrib, Finset.sum_ite_eq', Finset.mem_univ, if_true]

/-- C74 (partial: one choice of arguments): the forward difference is exact for affine functions, at every point, for every step and after every history. -/
theorem C74_affine_partial (f : (Fin n → ℝ) → γ → Fin m → ℝ) (a : γ) (b : Fin m → ℝ) (A : Fin m → Fin n → ℝ)
    (hf : ∀ x k, f x a k = b k + ∑ j, A k j * x j) {eps : ℝ} (he : eps ≠ 0) (ops : List (CacheOp n γ)) (ha : ∀ o ∈ ops, o.args = a) (x : Fin n → ℝ) :
    (jacForward f eps (cacheAfter f eps ops) x a).1 = A := by
  rw [(jacForward_for eps (cacheAfter_for f eps a ops ha) x).1]
  funext k i
  rw [hf, hf, shiftAt_sum]
  field_simp
  ring

lemma shiftAt_quad (x : Fin n → ℝ) (i : Fin n) (e : ℝ) (Q : Fin n → Fin n → ℝ) :
    ∑ j, ∑ l, Q j l * shiftAt x i e j * shiftAt x i e l = ∑ j, ∑ l, Q j l * x j * x l + e * (∑ l, Q i l * x l + ∑ j, Q j i * x j) + Q i i * e ^ 2 := by
  have h1 : ∀ j, ∑ l, Q j l * shiftAt x i e j * shiftAt x i e l = (∑ l, Q j l * x l + Q j i * e) * shiftAt x i e j := by
    intro j
    rw [← shiftAt_sum x i e (Q j), Finset.sum_mul]
    exact Finset.sum_congr rfl fun l _ => by ring
  simp only [h1]
  rw [shiftAt_sum]
  have h2 : ∑ j, (∑ l, Q j l * x l + Q j i * e) * x j = ∑ j, ∑ l, Q j l * x j * x l + e * ∑ j, Q j i * x j := by
    rw [Finset.mul_sum, ← Finset.sum_add_distrib]
    refine Finset.sum_congr rfl fun j _ => ?_
    rw [add_mul, Finset.sum_mul]
    congr 1
    · exact Finset.sum_congr rfl fun l _ => by ring
    · ring
  rw [h2]
  ring

/-- C74 (partial: one choice of arguments): the central difference is exact for quadratic functions. -/
theorem C74_quadratic_partial (f : (Fin n → ℝ) → γ → Fin m → ℝ) (a : γ) (b : Fin m → ℝ) (A : Fin m → Fin n → ℝ) (Q : Fin m → Fin n → Fin n → ℝ)
    (hf : ∀ x k, f x a k = b k + ∑ j, A k j * x j + ∑ j, ∑ l, Q k j l * x j * x l) {eps : ℝ} (he : eps ≠ 0) (ops : List (CacheOp n γ))
    (ha : ∀ o ∈ ops, o.args = a) (x : Fin n → ℝ) :
    (jacCentral f eps (cacheAfter f eps ops) x a).1 = fun k i => A k i + (∑ l, Q k i l * x l + ∑ j, Q k j i * x j) := by
  rw [(jacCentral_for eps (cacheAfter_for f eps a ops ha) x).1]
  funext k i
  rw [hf, hf, shiftAt_sum, shiftAt_sum, shiftAt_quad, shiftAt_quad]
  field_simp
  ring

/-- The hypotheses of the theorems above can be met: a quadratic function of two variables after some calls. -/
example : ∃ (f : (Fin 2 → ℝ) → Unit → Fin 1 → ℝ) (ops : List (CacheOp 2 Unit)) (b : Fin 1 → ℝ) (A : Fin 1 → Fin 2 → ℝ) (Q : Fin 1 → Fin 2 → Fin 2 → ℝ),
    ops.length = 3 ∧ (∀ o ∈ ops, o.args = ()) ∧ (∀ x k, f x () k = b k + ∑ j, A k j * x j + ∑ j, ∑ l, Q k j l * x j * x l) ∧
      f ![1, 2] () 0 = 7 := by
  refine ⟨fun x _ _ => 1 + (x 0 + x 1) + (x 0 ^ 2 + x 0 * x 1), [.call 0 (), .forward 1 (), .central 0 ()], fun _ => 1, fun _ _ => 1,
    fun _ j _ => if j = 0 then 1 else 0, rfl, ?_, ?_, ?_⟩
  · intro o _; rfl
  · intro x k
    simp [Fin.sum_univ_two]
    ring
  · norm_num

/-! ### Objective and gradient computed together -/

variable {α : Type} [DecidableEq α]

/-- The remembered value belongs to the remembered array, which will not be written to. -/
def IpGood (f : α → β) (used : Set ℕ) (s : Arrays α × IpState β) : Prop :=
  match s.2.lastRef with
  | none => True
  | some l => l ∈ used ∧ s.2.lastValue = some (f (s.1 l))

lemma evalWithGrad_good {f : α → β} {used : Set ℕ} {h : Arrays α} {st : IpState β} (hg : IpGood f used (h, st)) (r : ℕ) :
    (evalWithGrad f h st r).1 = some (f (h r)) ∧ IpGood f (insert r used) (h, (evalWithGrad f h st r).2) := by
  unfold evalWithGrad
  cases hl : st.lastRef with
  | none => exact ⟨rfl, Set.mem_insert _ _, rfl⟩
  | some l =>
    unfold IpGood at hg
    simp only [hl] at hg
    dsimp only
    by_cases hx : h l = h r
    · rw [if_pos hx]
      refine ⟨by rw [hg.2, hx], ?_⟩
      unfold IpGood
      simp only [hl]
      exact ⟨Set.mem_insert_of_mem _ hg.1, hg.2⟩
    · rw [if_neg hx]
      exact ⟨rfl, Set.mem_insert _ _, rfl⟩

lemma ipRun_good {f : α → β} (ops : List (IpOp α)) {used : Set ℕ} {s : Arrays α × IpState β} (hg : IpGood f used s) (hr : NoReuse used ops) :
    (ipRun f s ops).2 = rightAnswers f s.1 ops := by
  induction ops generalizing used s with
  | nil => rfl
  | cons o os ih =>
    cases o with
    | write r v =>
      unfold ipRun rightAnswers
      simp only [ipStep]
      rw [ih (used := used) ?_ hr.2]
      unfold IpGood at hg ⊢
      cases hl : s.2.lastRef with
      | none => trivial
      | some l =>
        simp only [hl] at hg ⊢
        refine ⟨hg.1, ?_⟩
        have hlr : l ≠ r := fun h => hr.1 (h ▸ hg.1)
        rw [Function.update_of_ne hlr]
        exact hg.2
    | objective r =>
      unfold ipRun rightAnswers
      simp only [ipStep]
      obtain ⟨h1, h2⟩ := evalWithGrad_good hg r
      rw [h1, ih h2 hr]
    | gradient r =>
      unfold ipRun rightAnswers
      simp only [ipStep]
      obtain ⟨h1, h2⟩ := evalWithGrad_good hg r
      rw [h1, ih h2 hr]

/-- C97 (partial: no array is changed after it has been passed): all answers are the values at the points asked for. -/
theorem C97_answers_partial (f : α → β) (h : Arrays α) (ops : List (IpOp α)) (hr : NoReuse ∅ ops) :
    (ipRun f (h, IpState.new) ops).2 = rightAnswers f h ops :=
  ipRun_good (used := ∅) ops trivial hr

/-- C97 is violated when the caller reuses an array: the value at the earlier contents is returned, whatever the function and the new contents are. -/
theorem C97_reused_violated (f : α → β) (h : Arrays α) (r : ℕ) (v : α) :
    (ipRun f (h, IpState.new) [.objective r, .write r v, .objective r]).2 = [some (f (h r)), none, some (f (h r))] := by
  simp [ipRun, ipStep, evalWithGrad, IpState.new]

/-- The wrong value. -/
theorem C97_reused_example_violated : ∃ (f : ℤ → ℤ) (h : Arrays ℤ) (ops : List (IpOp ℤ)), (ipRun f (h, IpState.new) ops).2 ≠ rightAnswers f h ops := by
  refine ⟨fun x => x ^ 2, fun _ => 1, [.objective 0, .write 0 3, .objective 0], ?_⟩
  rw [C97_reused_violated]
  simp [rightAnswers]

lemma ipRun_nfev (f : α → β) (ops : List (IpOp α)) (s : Arrays α × IpState β) :
    (ipRun f s ops).1.2.nfev ≤ s.2.nfev + ops.countP (fun o => match o with | .write _ _ => false | _ => true) := by
  induction ops generalizing s with
  | nil => simp [ipRun]
  | cons o os ih =>
    unfold ipRun
    dsimp only
    refine (ih _).trans ?_
    have he : ∀ r, (evalWithGrad f s.1 s.2 r).2.nfev ≤ s.2.nfev + 1 := by
      intro r
      unfold evalWithGrad
      split
      · split <;> simp
      · simp
    cases o with
    | write r v => simp [ipStep]
    | objective r =>
      have := he r
      simp only [ipStep, List.countP_cons]
      simp
      omega
    | gradient r =>
      have := he r
      simp only [ipStep, List.countP_cons]
      simp
      omega

/-- C97: asking for the objective and then for the gradient at the same array evaluates the function at most once. -/
theorem C97_once (f : α → β) (s : Arrays α × IpState β) (r : ℕ) :
    (ipRun f s [.objective r, .gradient r]).1.2 = (ipRun f s [.objective r]).1.2 ∧ (ipRun f s [.objective r]).1.2.nfev ≤ s.2.nfev + 1 := by
  constructor
  · simp only [ipRun, ipStep]
    unfold evalWithGrad
    cases hl : s.2.lastRef with
    | none => simp
    | some l =>
      dsimp only
      by_cases hx : s.1 l = s.1 r
      · simp [hx, hl]
      · simp [hx]
  · exact (ipRun_nfev f [.objective r] s).trans (by simp)

end Direpack
