import Mathlib.Tactic.Linarith
import Mathlib.Tactic.Ring
import Mathlib.Tactic.FieldSimp
import Mathlib.Algebra.BigOperators.Field
import Verif.Spec.Ipopt

/-! Properties C72, C73, C74 and C97: the Ipopt interface. -/

namespace Direpack

open scoped BigOperators
open Spec

/-! ### Dictionaries -/

lemma OptDict.has_iff (d : OptDict) (k : OptKey) : d.has k = true ↔ (d.get k).isSome = true := by
  unfold OptDict.has OptDict.get
  rw [Option.isSome_map, List.find?_isSome, List.any_eq_true]

lemma OptDict.get_none_iff (d : OptDict) (k : OptKey) : d.get k = none ↔ ∀ e ∈ d, e.1 ≠ k := by
  unfold OptDict.get
  simp

lemma OptDict.get_map_put (d : OptDict) (k : OptKey) (v : OptVal) (k' : OptKey) :
    OptDict.get (d.map fun e => if e.1 = k then (k, v) else e) k' = if k' = k ∧ d.has k then some v else if k' = k then none else d.get k' := by
  induction d with
  | nil => by_cases h : k' = k <;> simp [OptDict.get, OptDict.has, h]
  | cons e d ih =>
    unfold OptDict.get OptDict.has at *
    rw [List.map_cons, List.find?_cons, List.find?_cons, List.any_cons]
    by_cases h1 : e.1 = k
    · by_cases h2 : k' = k
      · subst h2
        simp [h1]
      · have h3 : ¬ k = k' := fun h => h2 h.symm
        simp only [h1, if_true, h3, decide_false, h2, false_and, if_false] at ih ⊢
        exact ih
    · by_cases h2 : k' = k
      · subst h2
        simp only [h1, if_false, decide_false, Bool.false_or, true_and, if_true] at ih ⊢
        exact ih
      · simp only [h1, if_false, h2, false_and] at ih ⊢
        by_cases h4 : e.1 = k'
        · simp [h4]
        · simp only [h4, decide_false]
          exact ih

lemma OptDict.get_put (d : OptDict) (k : OptKey) (v : OptVal) (k' : OptKey) : (d.put k v).get k' = if k' = k then some v else d.get k' := by
  unfold OptDict.put
  by_cases hh : d.has k
  · rw [if_pos hh, OptDict.get_map_put]
    by_cases h : k' = k <;> simp [h, hh]
  · rw [if_neg hh]
    have hn : d.get k = none := by
      cases hg : d.get k with
      | none => rfl
      | some v =>
        exfalso
        apply hh
        rw [OptDict.has_iff, hg]
        rfl
    unfold OptDict.get at *
    rw [List.find?_append]
    by_cases h : k' = k
    · subst h
      rw [if_pos rfl]
      have : List.find? (fun e : OptKey × OptVal => decide (e.1 = k')) d = none := by
        cases hf : List.find? (fun e : OptKey × OptVal => decide (e.1 = k')) d with
        | none => rfl
        | some e => rw [hf] at hn; exact absurd hn (by simp)
      rw [this]
      simp
    · rw [if_neg h]
      have h3 : ¬ k = k' := fun h' => h h'.symm
      simp [h3]

lemma OptDict.get_del (d : OptDict) (k k' : OptKey) : (d.del k).get k' = if k' = k then none else d.get k' := by
  unfold OptDict.del OptDict.get
  rw [List.find?_filter]
  by_cases h : k' = k
  · subst h
    rw [if_pos rfl]
    simp
  · rw [if_neg h]
    congr 1
    congr 1
    funext e
    by_cases h1 : e.1 = k'
    · simp [h1, h]
    · simp [h1]

lemma OptDict.has_false_iff (d : OptDict) (k : OptKey) : d.has k = false ↔ d.get k = none := by
  have := OptDict.has_iff d k
  cases hg : d.get k with
  | none => rw [hg] at this; simpa using this
  | some v => rw [hg] at this; simp at this; simp [this]

lemma setDefault_get (d : OptDict) (k : OptKey) (v : OptVal) (k' : OptKey) :
    (setDefault d k v).get k' = if k' = k then some ((d.get k).getD v) else d.get k' := by
  unfold setDefault
  cases hg : d.get k with
  | none =>
    have : d.has k = false := (OptDict.has_false_iff d k).mpr hg
    rw [this, if_neg (by simp), OptDict.get_put]
    rfl
  | some w =>
    have : d.has k = true := (OptDict.has_iff d k).mpr (by rw [hg]; rfl)
    rw [this, if_pos rfl]
    by_cases h : k' = k
    · rw [if_pos h, h, hg]; rfl
    · rw [if_neg h]

lemma replaceOption_get (d : OptDict) {old new : OptKey} (_hne : old ≠ new) (k : OptKey) :
    (replaceOption d old new).get k =
      if k = new then (d.get new).or (d.get old) else if k = old then (if (d.get new).isSome then d.get old else none) else d.get k := by
  unfold replaceOption
  cases ho : d.get old with
  | none =>
    dsimp only
    by_cases h1 : k = new
    · rw [if_pos h1, h1, Option.or_none]
    · rw [if_neg h1]
      by_cases h2 : k = old
      · rw [if_pos h2, h2, ho]
        split <;> rfl
      · rw [if_neg h2]
  | some v =>
    dsimp only
    cases hn : d.get new with
    | none =>
      rw [(OptDict.has_false_iff d new).mpr hn, if_neg (by simp), OptDict.get_put, OptDict.get_del]
      simp
    | some w =>
      rw [(OptDict.has_iff d new).mpr (by rw [hn]; rfl), if_pos rfl]
      by_cases h1 : k = new
      · rw [if_pos h1, h1, hn]; rfl
      · rw [if_neg h1]
        by_cases h2 : k = old
        · rw [if_pos h2, h2, ho]; rfl
        · rw [if_neg h2]

/-! ### Conversion of the keys -/

lemma convertStep_get (d : OptDict) (k key : OptKey) : (convertStep d k).get key =
    match key with
    | .str s => if k = .str s then none else d.get (.str s)
    | .bytes s => if k = .str s then (d.get (.str s)).or (d.get (.bytes s)) else d.get (.bytes s)
    | .other n => d.get (.other n) := by
  cases k with
  | str t =>
    cases hg : d.get (.str t) with
    | none =>
      have hstep : convertStep d (.str t) = d := by simp [convertStep, hg]
      rw [hstep]
      cases key with
      | str s =>
        dsimp only
        by_cases h : OptKey.str t = .str s
        · rw [if_pos h, ← h, hg]
        · rw [if_neg h]
      | bytes s =>
        dsimp only
        by_cases h : OptKey.str t = .str s
        · rw [if_pos h, ← h, hg]; rfl
        · rw [if_neg h]
      | other n => rfl
    | some v =>
      have hstep : convertStep d (.str t) = (d.put (.bytes t) v).del (.str t) := by simp [convertStep, hg]
      rw [hstep, OptDict.get_del, OptDict.get_put]
      cases key with
      | str s =>
        dsimp only
        by_cases h : OptKey.str t = .str s
        · rw [if_pos h, if_pos h.symm]
        · rw [if_neg h, if_neg (fun h' => h h'.symm), if_neg (by simp)]
      | bytes s =>
        dsimp only
        rw [if_neg (by simp)]
        by_cases h : OptKey.str t = .str s
        · cases h
          rw [if_pos rfl, if_pos rfl, hg]
          rfl
        · rw [if_neg h, if_neg]
          intro h'
          cases h'
          exact h rfl
      | other n => simp
  | bytes t => cases key <;> simp [convertStep]
  | other t => cases key <;> simp [convertStep]

lemma convertFold_get (ks : List OptKey) (d : OptDict) (key : OptKey) : (ks.foldl convertStep d).get key =
    match key with
    | .str s => if OptKey.str s ∈ ks then none else d.get (.str s)
    | .bytes s => if OptKey.str s ∈ ks then (d.get (.str s)).or (d.get (.bytes s)) else d.get (.bytes s)
    | .other n => d.get (.other n) := by
  induction ks generalizing d with
  | nil => cases key <;> simp
  | cons k ks ih =>
    rw [List.foldl_cons, ih]
    cases key with
    | str s =>
      dsimp only
      rw [convertStep_get]
      dsimp only
      by_cases h1 : k = .str s <;> by_cases h2 : OptKey.str s ∈ ks <;> simp [h1, h2, eq_comm]
    | bytes s =>
      dsimp only
      rw [convertStep_get, convertStep_get]
      dsimp only
      by_cases h1 : k = .str s <;> by_cases h2 : OptKey.str s ∈ ks <;> simp [h1, h2, eq_comm]
    | other n =>
      dsimp only
      rw [convertStep_get]

lemma convert_get (d : OptDict) (key : OptKey) : (convertToBytes d).get key =
    match key with
    | .str _ => none
    | .bytes s => userOpt d s
    | .other n => d.get (.other n) := by
  unfold convertToBytes
  rw [convertFold_get]
  have hk : ∀ s, OptKey.str s ∉ d.map (·.1) → d.get (.str s) = none := by
    intro s hs
    rw [OptDict.get_none_iff]
    intro e he h
    exact hs (List.mem_map.mpr ⟨e, he, h⟩)
  cases key with
  | str s =>
    dsimp only
    split
    · rfl
    · rename_i h; exact hk s h
  | bytes s =>
    dsimp only
    unfold userOpt
    split
    · rfl
    · rename_i h; rw [hk s h]; rfl
  | other n => rfl

/-- C73: the options handed to Ipopt. Options given by the user win over translated ones and over defaults. -/
theorem C73_translation (d : OptDict) (tol : Option ℚ) :
    let o := ipoptOptions d tol
    o.get (.bytes "print_level") = (userOpt d "print_level").or ((userOpt d "disp").or (some (.num 0))) ∧
    o.get (.bytes "max_iter") = (userOpt d "max_iter").or (userOpt d "maxiter") ∧
    o.get (.bytes "tol") = (userOpt d "tol").or (some (.num (tolOrDefault tol))) ∧
    o.get (.bytes "mu_strategy") = (userOpt d "mu_strategy").or (some (.text "adaptive")) ∧
    o.get (.bytes "hessian_approximation") = (userOpt d "hessian_approximation").or (some (.text "limited-memory")) ∧
    o.get (.bytes "disp") = (if (userOpt d "print_level").isSome then userOpt d "disp" else none) ∧
    o.get (.bytes "maxiter") = (if (userOpt d "max_iter").isSome then userOpt d "maxiter" else none) ∧
    (∀ s, s ∉ ["print_level", "max_iter", "tol", "mu_strategy", "hessian_approximation", "disp", "maxiter"] → o.get (.bytes s) = userOpt d s) ∧
    (∀ s, o.get (.str s) = none) ∧ ∀ n, o.get (.other n) = d.get (.other n) := by
  dsimp only
  have e : ∀ (a : Option OptVal) (v : OptVal), a.or (some v) = some (a.getD v) := by intro a v; cases a <;> rfl
  unfold ipoptOptions
  dsimp only
  refine ⟨?_, ?_, ?_, ?_, ?_, ?_, ?_, ?_, ?_, ?_⟩
  · simp only [setDefault_get, replaceOption_get _ (old := .bytes "disp") (new := .bytes "print_level") (by decide),
      replaceOption_get _ (old := .bytes "maxiter") (new := .bytes "max_iter") (by decide), convert_get]
    simp [e]
  · simp only [setDefault_get, replaceOption_get _ (old := .bytes "disp") (new := .bytes "print_level") (by decide),
      replaceOption_get _ (old := .bytes "maxiter") (new := .bytes "max_iter") (by decide), convert_get]
    simp
  · simp only [setDefault_get, replaceOption_get _ (old := .bytes "disp") (new := .bytes "print_level") (by decide),
      replaceOption_get _ (old := .bytes "maxiter") (new := .bytes "max_iter") (by decide), convert_get]
    simp [e]
  · simp only [setDefault_get, replaceOption_get _ (old := .bytes "disp") (new := .bytes "print_level") (by decide),
      replaceOption_get _ (old := .bytes "maxiter") (new := .bytes "max_iter") (by decide), convert_get]
    simp [e]
  · simp only [setDefault_get, replaceOption_get _ (old := .bytes "disp") (new := .bytes "print_level") (by decide),
      replaceOption_get _ (old := .bytes "maxiter") (new := .bytes "max_iter") (by decide), convert_get]
    simp [e]
  · simp only [setDefault_get, replaceOption_get _ (old := .bytes "disp") (new := .bytes "print_level") (by decide),
      replaceOption_get _ (old := .bytes "maxiter") (new := .bytes "max_iter") (by decide), convert_get]
    simp
  · simp only [setDefault_get, replaceOption_get _ (old := .bytes "disp") (new := .bytes "print_level") (by decide),
      replaceOption_get _ (old := .bytes "maxiter") (new := .bytes "max_iter") (by decide), convert_get]
    simp
  · intro s hs
    simp only [List.mem_cons, List.not_mem_nil, or_false, not_or] at hs
    obtain ⟨h1, h2, h3, h4, h5, h6, h7⟩ := hs
    simp only [setDefault_get, replaceOption_get _ (old := .bytes "disp") (new := .bytes "print_level") (by decide),
      replaceOption_get _ (old := .bytes "maxiter") (new := .bytes "max_iter") (by decide), convert_get]
    simp [h1, h2, h3, h4, h5, h6, h7]
  · intro s
    simp only [setDefault_get, replaceOption_get _ (old := .bytes "disp") (new := .bytes "print_level") (by decide),
      replaceOption_get _ (old := .bytes "maxiter") (new := .bytes "max_iter") (by decide), convert_get]
    simp
  · intro n
    simp only [setDefault_get, replaceOption_get _ (old := .bytes "disp") (new := .bytes "print_level") (by decide),
      replaceOption_get _ (old := .bytes "maxiter") (new := .bytes "max_iter") (by decide), convert_get]
    simp

lemma convert_id {d : OptDict} (h : ∀ s, d.get (.str s) = none) : convertToBytes d = d := by
  unfold convertToBytes
  have : ∀ ks : List OptKey, ks.foldl convertStep d = d := by
    intro ks
    induction ks with
    | nil => rfl
    | cons k ks ih =>
      rw [List.foldl_cons]
      have : convertStep d k = d := by
        cases k with
        | str s => simp [convertStep, h s]
        | bytes s => rfl
        | other n => rfl
      rw [this, ih]
  exact this _

lemma replace_id {d : OptDict} {old new : OptKey} (h : (d.get new).isSome = true ∨ d.get old = none) : replaceOption d old new = d := by
  unfold replaceOption
  cases ho : d.get old with
  | none => rfl
  | some v =>
    rw [ho] at h
    simp only [reduceCtorEq, or_false] at h
    dsimp only
    rw [if_pos ((OptDict.has_iff d new).mpr h)]

lemma setDefault_id {d : OptDict} {k : OptKey} (v : OptVal) (h : (d.get k).isSome = true) : setDefault d k v = d := by
  unfold setDefault
  rw [if_pos ((OptDict.has_iff d k).mpr h)]

/-- C73: passing the same dictionary again gives exactly the same options. -/
theorem C73_stable (d : OptDict) (tol tol' : Option ℚ) : ipoptOptions (ipoptOptions d tol) tol' = ipoptOptions d tol := by
  obtain ⟨h1, h2, h3, h4, h5, h6, h7, -, h9, -⟩ := C73_translation d tol
  set o := ipoptOptions d tol with ho
  have hp : (o.get (.bytes "print_level")).isSome = true := by
    rw [h1]; cases userOpt d "print_level" <;> cases userOpt d "disp" <;> rfl
  have ht : (o.get (.bytes "tol")).isSome = true := by rw [h3]; cases userOpt d "tol" <;> rfl
  have hm : (o.get (.bytes "mu_strategy")).isSome = true := by rw [h4]; cases userOpt d "mu_strategy" <;> rfl
  have hh : (o.get (.bytes "hessian_approximation")).isSome = true := by rw [h5]; cases userOpt d "hessian_approximation" <;> rfl
  have hx : (o.get (.bytes "max_iter")).isSome = true ∨ o.get (.bytes "maxiter") = none := by
    rw [h2, h7]
    cases userOpt d "max_iter" with
    | none => right; rfl
    | some v => left; rfl
  rw [ipoptOptions, convert_id h9, replace_id (Or.inl hp), replace_id hx, setDefault_id _ hp, setDefault_id _ ht, setDefault_id _ hm, setDefault_id _ hh]

/-- C73 is violated: the dictionary of the caller is altered. -/
theorem C73_caller_violated : ∃ (accepts : OptKey → OptVal → Bool) (d o : OptDict), (minimizeOptions accepts d none).1 = .ok o ∧
    (minimizeOptions accepts d none).2 ≠ d :=
  ⟨fun _ _ => true, [(.str "maxiter", .num 100)], _, rfl, by decide +kernel⟩

/-- C73 is violated: a call with the same dictionary and another tolerance uses the tolerance of the first call. -/
theorem C73_tolerance_violated (t t' : ℚ) (ht : t ≠ 0) (ht' : t' ≠ 0) (htt : t ≠ t') (d : OptDict) (hd : userOpt d "tol" = none) (accepts : OptKey → OptVal → Bool) :
    (ipoptOptions d (some t')).get (.bytes "tol") = some (.num t') ∧
    (ipoptOptions (minimizeOptions accepts d (some t)).2 (some t')).get (.bytes "tol") = some (.num t) ∧ OptVal.num t ≠ .num t' := by
  have h2 : (minimizeOptions accepts d (some t)).2 = ipoptOptions d (some t) := by
    unfold minimizeOptions
    cases hA : addOptions accepts (ipoptOptions d (some t)) <;> simp only [hA]
  rw [h2, C73_stable, (C73_translation d (some t')).2.2.1, (C73_translation d (some t)).2.2.1, hd]
  refine ⟨?_, ?_, ?_⟩
  · simp [tolOrDefault, ht']
  · simp [tolOrDefault, ht]
  · simpa using htt

/-- C73: without a tolerance in the options or as argument 1e-8 is used. -/
theorem C73_tolerance (d : OptDict) (hd : userOpt d "tol" = none) (t : ℚ) (ht : t ≠ 0) :
    (ipoptOptions d none).get (.bytes "tol") = some (.num (1 / 10 ^ 8)) ∧ (ipoptOptions d (some t)).get (.bytes "tol") = some (.num t) := by
  rw [(C73_translation d none).2.2.1, (C73_translation d (some t)).2.2.1, hd]
  constructor
  · norm_num [tolOrDefault]
  · simp [tolOrDefault, ht]

/-- C73 is violated: the tolerance 0, given as argument, is not used. -/
theorem C73_zero_violated (d : OptDict) (hd : userOpt d "tol" = none) :
    (ipoptOptions d (some 0)).get (.bytes "tol") = some (.num (1 / 10 ^ 8)) ∧ OptVal.num (1 / 10 ^ 8) ≠ .num 0 := by
  rw [(C73_translation d (some 0)).2.2.1, hd]
  refine ⟨by norm_num [tolOrDefault], fun h => ?_⟩
  injection h with h
  norm_num at h

lemma addOptions_error {accepts : OptKey → OptVal → Bool} {d : OptDict} {k : OptKey} {v : OptVal} (hg : d.get k = some v) (ha : accepts k v = false) :
    addOptions accepts d = .error .typeError := by
  unfold addOptions
  rw [if_neg]
  rw [List.all_eq_true]
  intro h
  unfold OptDict.get at hg
  rw [Option.map_eq_some_iff] at hg
  obtain ⟨e, he, hv⟩ := hg
  have h1 := List.mem_of_find?_eq_some he
  have h2 := List.find?_some he
  simp only [decide_eq_true_eq] at h2
  have := h e h1
  rw [h2, hv, ha] at this
  exact absurd this (by simp)

/-- C73 is violated: if both `disp` and `print_level` are given, `disp` is handed to Ipopt, which does not know it, and the call fails. -/
theorem C73_both_violated (accepts : OptKey → OptVal → Bool) (hacc : ∀ v, accepts (.bytes "disp") v = false) (d : OptDict) (tol : Option ℚ)
    (h1 : (userOpt d "print_level").isSome) (h2 : (userOpt d "disp").isSome) : (minimizeOptions accepts d tol).1 = .error .typeError := by
  have h := (C73_translation d tol).2.2.2.2.2.1
  rw [if_pos h1] at h
  obtain ⟨v, hv⟩ := Option.isSome_iff_exists.mp h2
  rw [hv] at h
  unfold minimizeOptions
  dsimp only
  rw [addOptions_error h (hacc v)]

/-- The hypotheses of the theorems above can be met. -/
example : userOpt [(.str "maxiter", .num 100)] "tol" = none ∧ (userOpt [(.str "disp", .num 1), (.bytes "print_level", .num 5)] "print_level").isSome ∧
    (userOpt [(.str "disp", .num 1), (.bytes "print_level", .num 5)] "disp").isSome := by decide +kernel

/-! ### Bounds -/

/-- The upper bound of the values of a constraint. -/
noncomputable def upperOf (inf : ℝ) (t : String) : ℝ := if t = "eq" then 0 else inf

lemma consBoundsLoop_spec {α : Type} (inf : ℝ) (x0 : α) (cons : List (IpCons α)) (cl cu : List ℝ) :
    consBoundsLoop inf x0 cons cl cu =
      if ∀ c ∈ cons, c.type = "eq" ∨ c.type = "ineq" then
        .ok (cl ++ cons.flatMap fun c => List.replicate (c.f x0).length 0, cu ++ cons.flatMap fun c => List.replicate (c.f x0).length (upperOf inf c.type))
      else .error .valueError := by
  induction cons generalizing cl cu with
  | nil => simp [consBoundsLoop]
  | cons c cs ih =>
    unfold consBoundsLoop
    dsimp only
    by_cases h1 : c.type = "eq"
    · rw [if_pos h1, ih]
      by_cases h2 : ∀ c ∈ cs, c.type = "eq" ∨ c.type = "ineq"
      · rw [if_pos h2, if_pos]
        · simp [List.flatMap_cons, upperOf, h1]
        · intro c' hc'
          rcases List.mem_cons.mp hc' with rfl | h
          · exact Or.inl h1
          · exact h2 _ h
      · rw [if_neg h2, if_neg]
        intro h
        exact h2 fun c' hc' => h c' (List.mem_cons_of_mem _ hc')
    · rw [if_neg h1]
      by_cases h3 : c.type = "ineq"
      · rw [if_pos h3, ih]
        by_cases h2 : ∀ c ∈ cs, c.type = "eq" ∨ c.type = "ineq"
        · rw [if_pos h2, if_pos]
          · simp [List.flatMap_cons, upperOf, h1]
          · intro c' hc'
            rcases List.mem_cons.mp hc' with rfl | h
            · exact Or.inr h3
            · exact h2 _ h
        · rw [if_neg h2, if_neg]
          intro h
          exact h2 fun c' hc' => h c' (List.mem_cons_of_mem _ hc')
      · rw [if_neg h3, if_neg]
        intro h
        rcases h c List.mem_cons_self with h | h
        · exact h1 h
        · exact h3 h

/-- C72: a constraint of another type raises `ValueError`, and otherwise bounds are found. -/
theorem C72_types {α : Type} (inf : ℝ) (cons : List (IpCons α)) (x0 : α) :
    ((∃ c ∈ cons, c.type ≠ "eq" ∧ c.type ≠ "ineq") → getConstraintBounds inf cons x0 = .error .valueError) ∧
    ((∀ c ∈ cons, c.type = "eq" ∨ c.type = "ineq") → ∃ b, getConstraintBounds inf cons x0 = .ok b) := by
  unfold getConstraintBounds
  rw [consBoundsLoop_spec]
  constructor
  · rintro ⟨c, hc, h1, h2⟩
    rw [if_neg]
    intro h
    rcases h c hc with h | h
    · exact h1 h
    · exact h2 h
  · intro h
    rw [if_pos h]
    exact ⟨_, rfl⟩

lemma block_within {α : Type} {inf : ℝ} (hinf : 0 < inf) (c : IpCons α) (x x0 : α) (hd : (c.f x).length = (c.f x0).length) :
    (∀ (i : ℕ) (v l u : ℝ), (c.f x)[i]? = some v → (List.replicate (c.f x0).length (0 : ℝ))[i]? = some l →
      (List.replicate (c.f x0).length (upperOf inf c.type))[i]? = some u → WithinBounds inf v l u) ↔ ConsHolds c x := by
  constructor
  · intro h v hv
    obtain ⟨i, hi, rfl⟩ := List.getElem_of_mem hv
    have := h i _ 0 (upperOf inf c.type) (List.getElem?_eq_getElem hi) (by rw [List.getElem?_replicate, if_pos (by omega)])
      (by rw [List.getElem?_replicate, if_pos (by omega)])
    unfold WithinBounds upperOf at this
    by_cases ht : c.type = "eq"
    · rw [if_pos ht] at this ⊢
      exact le_antisymm (this.2 hinf) this.1
    · rw [if_neg ht] at this ⊢
      exact this.1
  · intro h i v l u hv hl hu
    have hm := List.mem_of_getElem? hv
    have := h v hm
    rw [List.getElem?_replicate] at hl hu
    split at hl
    · cases hl
      rw [if_pos (by assumption)] at hu
      cases hu
      unfold WithinBounds upperOf
      by_cases ht : c.type = "eq"
      · rw [if_pos ht] at this ⊢
        subst this
        exact ⟨le_rfl, fun _ => le_rfl⟩
      · rw [if_neg ht] at this ⊢
        exact ⟨this, fun h => absurd h (lt_irrefl _)⟩
    · exact absurd hl (by simp)

lemma flatMap_within {α : Type} {inf : ℝ} (hinf : 0 < inf) (cons : List (IpCons α)) (x x0 : α) (hd : ∀ c ∈ cons, (c.f x).length = (c.f x0).length) :
    (∀ (i : ℕ) (v l u : ℝ), (consValues cons x)[i]? = some v → (cons.flatMap fun c => List.replicate (c.f x0).length (0 : ℝ))[i]? = some l →
      (cons.flatMap fun c => List.replicate (c.f x0).length (upperOf inf c.type))[i]? = some u → WithinBounds inf v l u) ↔ ∀ c ∈ cons, ConsHolds c x := by
  induction cons with
  | nil => simp [consValues]
  | cons c cs ih =>
    have hd' : ∀ c ∈ cs, (c.f x).length = (c.f x0).length := fun c hc => hd c (List.mem_cons_of_mem _ hc)
    have hc := hd c List.mem_cons_self
    rw [List.forall_mem_cons, ← ih hd', ← block_within hinf c x x0 hc]
    unfold consValues
    simp only [List.flatMap_cons]
    constructor
    · intro h
      refine ⟨fun i v l u hv hl hu => h i v l u ?_ ?_ ?_, fun i v l u hv hl hu => h (i + (c.f x).length) v l u ?_ ?_ ?_⟩
      · exact List.getElem?_append_left (List.getElem?_eq_some_iff.mp hv).1 ▸ hv
      · exact List.getElem?_append_left (List.getElem?_eq_some_iff.mp hl).1 ▸ hl
      · exact List.getElem?_append_left (List.getElem?_eq_some_iff.mp hu).1 ▸ hu
      · rw [List.getElem?_append_right (by omega), Nat.add_sub_cancel]; exact hv
      · rw [List.getElem?_append_right (by simp; omega), List.length_replicate, hc, Nat.add_sub_cancel]; exact hl
      · rw [List.getElem?_append_right (by simp; omega), List.length_replicate, hc, Nat.add_sub_cancel]; exact hu
    · rintro ⟨h1, h2⟩ i v l u hv hl hu
      by_cases hi : i < (c.f x).length
      · rw [List.getElem?_append_left (by omega)] at hv
        rw [List.getElem?_append_left (by simp; omega)] at hl hu
        exact h1 i v l u hv hl hu
      · rw [List.getElem?_append_right (by omega)] at hv
        rw [List.getElem?_append_right (by simp; omega), List.length_replicate] at hl hu
        rw [hc] at hv
        exact h2 _ v l u hv hl hu

lemma flatMap_replicate_length {α : Type} (cons : List (IpCons α)) (x x0 : α) (g : IpCons α → ℝ) (hd : ∀ c ∈ cons, (c.f x).length = (c.f x0).length) :
    (cons.flatMap fun c => List.replicate (c.f x0).length (g c)).length = (consValues cons x).length := by
  induction cons with
  | nil => rfl
  | cons c cs ih =>
    unfold consValues at *
    rw [List.flatMap_cons, List.flatMap_cons, List.length_append, List.length_append, List.length_replicate,
      ih fun c hc => hd c (List.mem_cons_of_mem _ hc), hd c List.mem_cons_self]

/-- C72: there is one lower and one upper bound for every scalar constraint, and a point is within the bounds, taken in order, exactly when it satisfies all
constraints. -/
theorem C72_bounds {α : Type} {inf : ℝ} (hinf : 0 < inf) (cons : List (IpCons α)) (x0 : α) (cl cu : List ℝ)
    (hb : getConstraintBounds inf cons x0 = .ok (cl, cu)) (x : α) (hd : ∀ c ∈ cons, (c.f x).length = (c.f x0).length) :
    cl.length = (consValues cons x).length ∧ cu.length = (consValues cons x).length ∧
    ((∀ (i : ℕ) (v l u : ℝ), (consValues cons x)[i]? = some v → cl[i]? = some l → cu[i]? = some u → WithinBounds inf v l u) ↔ ∀ c ∈ cons, ConsHolds c x) := by
  unfold getConstraintBounds at hb
  rw [consBoundsLoop_spec] at hb
  split at hb
  · simp only [List.nil_append, Except.ok.injEq, Prod.mk.injEq] at hb
    obtain ⟨rfl, rfl⟩ := hb
    exact ⟨flatMap_replicate_length cons x x0 (fun _ => 0) hd, flatMap_replicate_length cons x x0 (fun c => upperOf inf c.type) hd,
      flatMap_within hinf cons x x0 hd⟩
  · exact absurd hb (by simp)

/-- C72: the values of the bounds: zero below, zero or infinity above. -/
theorem C72_values {α : Type} {inf : ℝ} (cons : List (IpCons α)) (x0 : α) (cl cu : List ℝ) (hb : getConstraintBounds inf cons x0 = .ok (cl, cu)) :
    (∀ l ∈ cl, l = 0) ∧ (∀ u ∈ cu, u = 0 ∨ u = inf) ∧ ((∀ c ∈ cons, c.type = "eq") → ∀ u ∈ cu, u = 0) ∧ ((∀ c ∈ cons, c.type = "ineq") → ∀ u ∈ cu, u = inf) := by
  unfold getConstraintBounds at hb
  rw [consBoundsLoop_spec] at hb
  split at hb
  · simp only [List.nil_append, Except.ok.injEq, Prod.mk.injEq] at hb
    obtain ⟨rfl, rfl⟩ := hb
    refine ⟨?_, ?_, ?_, ?_⟩
    · intro l hl
      obtain ⟨c, -, h⟩ := List.mem_flatMap.mp hl
      exact (List.mem_replicate.mp h).2
    · intro u hu
      obtain ⟨c, -, h⟩ := List.mem_flatMap.mp hu
      rw [(List.mem_replicate.mp h).2]
      unfold upperOf
      split
      · exact Or.inl rfl
      · exact Or.inr rfl
    · intro hall u hu
      obtain ⟨c, hc, h⟩ := List.mem_flatMap.mp hu
      rw [(List.mem_replicate.mp h).2, upperOf, if_pos (hall c hc)]
    · intro hall u hu
      obtain ⟨c, hc, h⟩ := List.mem_flatMap.mp hu
      rw [(List.mem_replicate.mp h).2, upperOf, if_neg (by rw [hall c hc]; decide)]
  · exact absurd hb (by simp)

/-- C72: bounds of the variables are split in lower and upper bounds in order; no bounds give none. -/
theorem C72_variables (l : List (ℝ × ℝ)) : getBounds none = (none, none) ∧
    ∃ lb ub, getBounds (some l) = (some lb, some ub) ∧ lb.length = l.length ∧ ub.length = l.length ∧
      ∀ (i : ℕ) (b : ℝ × ℝ), l[i]? = some b → lb[i]? = some b.1 ∧ ub[i]? = some b.2 := by
  refine ⟨rfl, _, _, rfl, List.length_map _, List.length_map _, ?_⟩
  intro i b h
  rw [List.getElem?_map, List.getElem?_map, h]
  exact ⟨rfl, rfl⟩

/-- An equality and two inequalities. -/
example : ∃ cl cu, getConstraintBounds (10 ^ 19) [⟨"eq", fun x : ℝ => [x - 1]⟩, ⟨"ineq", fun x : ℝ => [x, 2 - x]⟩] 0 = .ok (cl, cu) ∧
    ∀ c ∈ [(⟨"eq", fun x : ℝ => [x - 1]⟩ : IpCons ℝ), ⟨"ineq", fun x : ℝ => [x, 2 - x]⟩], ConsHolds c 1 := by
  refine ⟨_, _, rfl, ?_⟩
  intro c hc
  simp only [List.mem_cons, List.not_mem_nil, or_false] at hc
  rcases hc with rfl | rfl
  · intro v hv
    simp at hv
    simp [hv]
  · intro v hv
    simp at hv
    rcases hv with rfl | rfl <;> simp

end Direpack
