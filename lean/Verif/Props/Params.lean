import Mathlib.Data.List.Basic
import Mathlib.Data.List.Infix
import Mathlib.Data.List.Nodup
import Verif.Params

/-! Properties C71 and C88: the parameter interface. -/

namespace Direpack

variable {V : Type} [Inhabited V]

/-- A name without a double underscore. -/
def PlainName (k : PName) : Prop := ¬ ['_', '_'] <:+: k

instance (k : PName) : Decidable (PlainName k) := by unfold PlainName; infer_instance

/-- The value that `get_params()` reports for a name. -/
def reported (names : List PName) (ops : SubOps V) (a : Attrs V) (k : PName) : Option V :=
  ((getParams names ops false a).find? fun kv => kv.1 = k).map Prod.snd

lemma partitionKey_plain : ∀ k : PName, PlainName k → partitionKey k = (k, none)
  | [], _ => rfl
  | [c], _ => by
    unfold partitionKey
    simp [partitionKey]
  | c :: d :: r, h => by
    have hcd : ¬ (c = '_' ∧ d = '_') := by
      rintro ⟨rfl, rfl⟩
      exact h ⟨[], r, rfl⟩
    have hr : PlainName (d :: r) := fun hi => h (hi.trans (List.suffix_cons c (d :: r)).isInfix)
    have ih := partitionKey_plain (d :: r) hr
    rw [partitionKey]
    · rw [ih]
    · intro r' h1 h2
      simp only [List.cons.injEq] at h2
      exact hcd ⟨h1, h2.1⟩

lemma partitionKey_join : ∀ (k s : PName), PlainName k → k.getLast? ≠ some '_' → partitionKey (joinKey k s) = (k, some s)
  | [], s, _, _ => by simp [joinKey, partitionKey]
  | [c], s, _, hl => by
    have hc : c ≠ '_' := by simpa using hl
    show partitionKey (c :: '_' :: '_' :: s) = _
    rw [partitionKey]
    · simp [partitionKey]
    · intro r' h1 _
      exact hc h1
  | c :: d :: r, s, h, hl => by
    have hcd : ¬ (c = '_' ∧ d = '_') := by
      rintro ⟨rfl, rfl⟩
      exact h ⟨[], r, rfl⟩
    have hr : PlainName (d :: r) := fun hi => h (hi.trans (List.suffix_cons c (d :: r)).isInfix)
    have ih := partitionKey_join (d :: r) s hr (by simpa using hl)
    show partitionKey (c :: joinKey (d :: r) s) = _
    rw [partitionKey]
    · rw [ih]
    · intro r' h1 h2
      simp only [joinKey, List.cons_append, List.cons.injEq] at h2
      exact hcd ⟨h1, h2.1⟩

lemma getParams_shallow (names : List PName) (ops : SubOps V) (a : Attrs V) :
    getParams names ops false a = names.map fun k => (k, (a k).getD default) := by
  unfold getParams
  simp only [Bool.false_eq_true, if_false, List.nil_append]
  induction names with
  | nil => rfl
  | cons k ks ih => rw [List.flatMap_cons, List.map_cons, ih]; rfl

lemma reported_eq (names : List PName) (ops : SubOps V) (a : Attrs V) (k : PName) (hk : k ∈ names) :
    reported names ops a k = some ((a k).getD default) := by
  unfold reported
  rw [getParams_shallow]
  induction names with
  | nil => simp at hk
  | cons n ns ih =>
    rw [List.map_cons, List.find?_cons]
    by_cases h : n = k
    · subst h; simp
    · simp only [h, decide_false]
      exact ih ((List.mem_cons.mp hk).resolve_left (Ne.symm h))

omit [Inhabited V] in
lemma setKeys_plain (names : List PName) : ∀ (ps : List (PName × V)) (a : Attrs V) (nst : List (PName × List (PName × V))),
    (∀ kv ∈ ps, kv.1 ∈ names ∧ PlainName kv.1) →
    setKeys names ps a nst = (ps.foldl (fun b kv => b.set kv.1 kv.2) a, .ok nst)
  | [], a, nst, _ => rfl
  | (k, v) :: r, a, nst, h => by
    have hk := h (k, v) (List.mem_cons_self ..)
    rw [setKeys, partitionKey_plain k hk.2]
    simp only [hk.1, if_true, List.foldl_cons]
    exact setKeys_plain names r _ _ fun kv hkv => h kv (List.mem_cons_of_mem _ hkv)

lemma setParams_plain (names : List PName) (ops : SubOps V) (ps : List (PName × V)) (a : Attrs V)
    (h : ∀ kv ∈ ps, kv.1 ∈ names ∧ PlainName kv.1) :
    setParams names ops a ps = (ps.foldl (fun b kv => b.set kv.1 kv.2) a, .ok ()) := by
  cases ps with
  | nil => rfl
  | cons p r =>
    unfold setParams
    rw [setKeys_plain names _ a [] h]
    rfl

omit [Inhabited V] in
lemma foldl_set_not_mem (k : PName) : ∀ (ps : List (PName × V)) (a : Attrs V), (∀ kv ∈ ps, kv.1 ≠ k) →
    ps.foldl (fun b kv => b.set kv.1 kv.2) a k = a k
  | [], _, _ => rfl
  | (j, v) :: r, a, h => by
    rw [List.foldl_cons, foldl_set_not_mem k r _ fun kv hkv => h kv (List.mem_cons_of_mem _ hkv)]
    have := h (j, v) (List.mem_cons_self ..)
    simp [Attrs.set, Ne.symm this]

omit [Inhabited V] in
lemma foldl_set_mem (k : PName) (v : V) : ∀ (ps : List (PName × V)) (a : Attrs V), (ps.map Prod.fst).Nodup → (k, v) ∈ ps →
    ps.foldl (fun b kv => b.set kv.1 kv.2) a k = some v
  | [], _, _, h => by simp at h
  | (j, w) :: r, a, hn, h => by
    rw [List.map_cons, List.nodup_cons] at hn
    rw [List.foldl_cons]
    rcases List.mem_cons.mp h with h1 | h1
    · cases h1
      rw [foldl_set_not_mem]
      · simp [Attrs.set]
      · intro kv hkv he
        exact hn.1 (List.mem_map.mpr ⟨kv, hkv, he⟩)
    · exact foldl_set_mem k v r _ hn.2 h1

/-- C71: after `set_params` with valid, pairwise different, unnested keys, `get_params` reports the new value for each of these keys and the old value
for every other parameter; other attributes are left alone. -/
theorem C71_get_after_set (names : List PName) (ops : SubOps V) (a : Attrs V) (ps : List (PName × V))
    (hv : ∀ kv ∈ ps, kv.1 ∈ names ∧ PlainName kv.1) (hn : (ps.map Prod.fst).Nodup) :
    (setParams names ops a ps).2 = .ok () ∧
    (∀ k v, (k, v) ∈ ps → reported names ops (setParams names ops a ps).1 k = some v) ∧
    (∀ k ∈ names, (∀ kv ∈ ps, kv.1 ≠ k) → reported names ops (setParams names ops a ps).1 k = reported names ops a k) ∧
    ∀ k, (∀ kv ∈ ps, kv.1 ≠ k) → (setParams names ops a ps).1 k = a k := by
  rw [setParams_plain names ops ps a hv]
  refine ⟨rfl, fun k v hkv => ?_, fun k hk hne => ?_, fun k hne => foldl_set_not_mem k ps a hne⟩
  · rw [reported_eq _ _ _ k (hv _ hkv).1]
    dsimp only
    rw [foldl_set_mem k v ps a hn hkv]
    rfl
  · rw [reported_eq _ _ _ _ hk, reported_eq _ _ _ _ hk]
    dsimp only
    rw [foldl_set_not_mem k ps a hne]

/-- C71: writing back what `get_params` reports changes nothing that `get_params` reports, and no attribute that was there. -/
theorem C71_set_get (names : List PName) (ops : SubOps V) (a : Attrs V) (hn : names.Nodup) (hp : ∀ k ∈ names, PlainName k) :
    (setParams names ops a (getParams names ops false a)).2 = .ok () ∧
    getParams names ops false (setParams names ops a (getParams names ops false a)).1 = getParams names ops false a ∧
    ∀ k v, a k = some v → (setParams names ops a (getParams names ops false a)).1 k = some v := by
  have hv : ∀ kv ∈ getParams names ops false a, kv.1 ∈ names ∧ PlainName kv.1 := by
    rw [getParams_shallow]
    intro kv hkv
    obtain ⟨k, hk, rfl⟩ := List.mem_map.mp hkv
    exact ⟨hk, hp k hk⟩
  have hnd : ((getParams names ops false a).map Prod.fst).Nodup := by
    rw [getParams_shallow, List.map_map]
    have : (Prod.fst ∘ fun k : PName => (k, (a k).getD default)) = id := rfl
    rw [this, List.map_id]
    exact hn
  rw [setParams_plain names ops _ a hv]
  have hval : ∀ k ∈ names, (getParams names ops false a).foldl (fun b kv => b.set kv.1 kv.2) a k = some ((a k).getD default) := by
    intro k hk
    apply foldl_set_mem k _ _ a hnd
    rw [getParams_shallow]
    exact List.mem_map.mpr ⟨k, hk, rfl⟩
  refine ⟨rfl, ?_, ?_⟩
  · conv_lhs => rw [getParams_shallow]
    conv_rhs => rw [getParams_shallow]
    exact List.map_congr_left fun k hk => by dsimp only; rw [hval k hk]; rfl
  · intro k v hk
    dsimp only
    by_cases h : k ∈ names
    · rw [hval k h, hk]; rfl
    · rw [foldl_set_not_mem, hk]
      intro kv hkv he
      exact h (he ▸ (hv kv hkv).1)

/-- C71: an unknown key anywhere makes `set_params` raise. -/
theorem C71_unknown_raises (names : List PName) (ops : SubOps V) (a : Attrs V) (ps : List (PName × V))
    (h : ∃ kv ∈ ps, (partitionKey kv.1).1 ∉ names) : (setParams names ops a ps).2 = .error .valueError := by
  have key : ∀ (ps : List (PName × V)) (a : Attrs V) (nst), (∃ kv ∈ ps, (partitionKey kv.1).1 ∉ names) →
      ∃ a', setKeys names ps a nst = (a', .error .valueError) := by
    intro ps
    induction ps with
    | nil => intro a nst h; simp at h
    | cons p r ih =>
      intro a nst h
      obtain ⟨k, v⟩ := p
      rw [setKeys]
      by_cases hk : (partitionKey k).1 ∈ names
      · have hr : ∃ kv ∈ r, (partitionKey kv.1).1 ∉ names := by
          obtain ⟨kv, hkv, hne⟩ := h
          rcases List.mem_cons.mp hkv with rfl | hkv
          · exact absurd hk hne
          · exact ⟨kv, hkv, hne⟩
        rw [if_pos hk]
        cases (partitionKey k).2 with
        | none => exact ih _ _ hr
        | some s => exact ih _ _ hr
      · rw [if_neg hk]
        exact ⟨a, rfl⟩
  cases ps with
  | nil => simp at h
  | cons p r =>
    obtain ⟨a', ha⟩ := key (p :: r) a [] h
    unfold setParams
    rw [ha]

/-- C71 (partial): an unknown key that comes first leaves the object as it was. -/
theorem C71_unknown_first_partial (names : List PName) (ops : SubOps V) (a : Attrs V) (k : PName) (v : V) (ps : List (PName × V))
    (h : (partitionKey k).1 ∉ names) : (setParams names ops a ((k, v) :: ps)).1 = a := by
  simp [setParams, setKeys, h]

/-- C71 is violated: an unknown key that comes after a known one leaves the object changed. -/
theorem C71_unknown_violated (names : List PName) (ops : SubOps V) (a : Attrs V) (k u : PName) (v w : V) (hk : k ∈ names)
    (hkp : PlainName k) (hu : (partitionKey u).1 ∉ names) (hne : a k ≠ some v) :
    (setParams names ops a [(k, v), (u, w)]).2 = .error .valueError ∧ (setParams names ops a [(k, v), (u, w)]).1 k = some v ∧
    (setParams names ops a [(k, v), (u, w)]).1 ≠ a := by
  have e : setParams names ops a [(k, v), (u, w)] = (a.set k v, .error .valueError) := by
    simp [setParams, setKeys, partitionKey_plain k hkp, hk, hu]
  rw [e]
  have h2 : a.set k v k = some v := by simp [Attrs.set]
  exact ⟨rfl, h2, fun h => hne (h ▸ h2)⟩

/-- C71: a nested key `k__s` changes the parameter `s` of the nested estimator `k` and nothing else. -/
theorem C71_nested (names : List PName) (ops : SubOps V) (a : Attrs V) (k s : PName) (v w : V) (hk : k ∈ names) (hp : PlainName k)
    (hl : k.getLast? ≠ some '_') (hs : ops.set ((a k).getD default) [(s, v)] = .ok w) :
    (setParams names ops a [(joinKey k s, v)]).2 = .ok () ∧ (setParams names ops a [(joinKey k s, v)]).1 k = some w ∧
    ∀ j, j ≠ k → (setParams names ops a [(joinKey k s, v)]).1 j = a j := by
  have e : setParams names ops a [(joinKey k s, v)] = (a.set k w, .ok ()) := by
    simp [setParams, setKeys, partitionKey_join k s hp hl, hk, addNested, setNested, hs]
  rw [e]
  exact ⟨rfl, by simp [Attrs.set], fun j hj => by simp [Attrs.set, hj]⟩

omit [Inhabited V] in
lemma setKeys_nested (names : List PName) (k : PName) (hk : k ∈ names) (hp : PlainName k) (hl : k.getLast? ≠ some '_') (a : Attrs V) :
    ∀ (ps d : List (PName × V)), setKeys names (ps.map fun sv => (joinKey k sv.1, sv.2)) a [(k, d)] = (a, .ok [(k, d ++ ps)])
  | [], d => by simp [setKeys]
  | (s, v) :: r, d => by
    rw [List.map_cons, setKeys, partitionKey_join k s hp hl]
    simp only [hk, if_true, addNested]
    rw [setKeys_nested names k hk hp hl a r (d ++ [(s, v)])]
    simp

/-- C71: several nested keys of one estimator reach it together, in the order given, and nothing else changes. -/
theorem C71_nested_several (names : List PName) (ops : SubOps V) (a : Attrs V) (k : PName) (ps : List (PName × V)) (hps : ps ≠ []) (w : V) (hk : k ∈ names)
    (hp : PlainName k) (hl : k.getLast? ≠ some '_') (hs : ops.set ((a k).getD default) ps = .ok w) :
    (setParams names ops a (ps.map fun sv => (joinKey k sv.1, sv.2))).2 = .ok () ∧
    (setParams names ops a (ps.map fun sv => (joinKey k sv.1, sv.2))).1 k = some w ∧
    ∀ j, j ≠ k → (setParams names ops a (ps.map fun sv => (joinKey k sv.1, sv.2))).1 j = a j := by
  have e : setParams names ops a (ps.map fun sv => (joinKey k sv.1, sv.2)) = (a.set k w, .ok ()) := by
    cases ps with
    | nil => exact absurd rfl hps
    | cons sv r =>
      obtain ⟨s, v⟩ := sv
      rw [List.map_cons]
      unfold setParams
      dsimp only
      rw [setKeys, partitionKey_join k s hp hl]
      simp only [hk, if_true, addNested]
      rw [setKeys_nested names k hk hp hl a r [(s, v)]]
      simp [setNested, hs]
  rw [e]
  exact ⟨rfl, by simp [Attrs.set], fun j hj => by simp [Attrs.set, hj]⟩

/-- C71: `get_params(deep=True)` reports every parameter under its name, and every parameter of a nested estimator under the name of the estimator, two
underscores and its own name; and nothing else. -/
theorem C71_deep (names : List PName) (ops : SubOps V) (a : Attrs V) (key : PName) (v : V) :
    (key, v) ∈ getParams names ops true a ↔
      (∃ k ∈ names, key = k ∧ v = (a k).getD default) ∨
      ∃ k ∈ names, ∃ items, ops.get ((a k).getD default) = some items ∧ ∃ s, key = k ++ "__".toList ++ s ∧ (s, v) ∈ items := by
  unfold getParams
  simp only [List.mem_flatMap, if_true, List.mem_append, List.mem_singleton, Prod.mk.injEq]
  have hj : ∀ k s : PName, joinKey k s = k ++ "__".toList ++ s := by
    intro k s
    show k ++ '_' :: '_' :: s = (k ++ ['_', '_']) ++ s
    simp
  constructor
  · rintro ⟨k, hk, h | h⟩
    · right
      split at h
      · rename_i items hi
        obtain ⟨kv, h1, h2⟩ := List.mem_map.mp h
        simp only [Prod.mk.injEq] at h2
        exact ⟨k, hk, items, hi, kv.1, by rw [← hj]; exact h2.1.symm, by rw [← h2.2]; exact h1⟩
      · simp at h
    · exact .inl ⟨k, hk, h.1, h.2⟩
  · rintro (⟨k, hk, h1, h2⟩ | ⟨k, hk, items, hi, s, h1, h2⟩)
    · exact ⟨k, hk, .inr ⟨h1, h2⟩⟩
    · refine ⟨k, hk, .inl ?_⟩
      rw [hi]
      exact List.mem_map.mpr ⟨(s, v), h2, by rw [hj, h1]⟩

/-- The parameter names of the three classes meet the hypotheses. -/
example : (capiArgs.map String.toList).Nodup ∧ (∀ k ∈ capiArgs.map String.toList, PlainName k) ∧
    (ppdireArgs.map String.toList).Nodup ∧ (∀ k ∈ ppdireArgs.map String.toList, PlainName k) ∧
    (sudireArgs.map String.toList).Nodup ∧ (∀ k ∈ sudireArgs.map String.toList, PlainName k) := by
  decide +kernel

example : (partitionKey "pi_arguments__mode".toList) = ("pi_arguments".toList, some "mode".toList) ∧
    (partitionKey "nonsense".toList).1 ∉ capiArgs.map String.toList := by decide +kernel

/-! ### C88 -/

/-- C88: `get_params` of a new `ppdire` object reports the constructor arguments. -/
theorem C88_ppdire (ops : SubOps V) (args : PName → V) (k : PName) (hk : k ∈ ppdireArgs.map String.toList) :
    reported (ppdireArgs.map String.toList) ops (construct ppdireStored args) k = some (args k) := by
  rw [reported_eq _ _ _ _ hk]
  have : k ∈ ppdireStored.map String.toList := hk
  simp only [construct, this, if_true]
  rfl

/-- C88: the same for `sudire`. -/
theorem C88_sudire (ops : SubOps V) (args : PName → V) (k : PName) (hk : k ∈ sudireArgs.map String.toList) :
    reported (sudireArgs.map String.toList) ops (construct sudireStored args) k = some (args k) := by
  rw [reported_eq _ _ _ _ hk]
  have h : ∀ s ∈ sudireArgs, s ∈ sudireStored := by decide +kernel
  obtain ⟨s, hs, rfl⟩ := List.mem_map.mp hk
  have : s.toList ∈ sudireStored.map String.toList := List.mem_map.mpr ⟨s, h s hs, rfl⟩
  simp only [construct, this, if_true]
  rfl

/-- C88 (partial): the same for `capi`, except for the argument `centring`. -/
theorem C88_capi_partial (ops : SubOps V) (args : PName → V) (k : PName) (hk : k ∈ capiArgs.map String.toList)
    (hc : k ≠ "centring".toList) : reported (capiArgs.map String.toList) ops (construct capiStored args) k = some (args k) := by
  rw [reported_eq _ _ _ _ hk]
  have h : ∀ s ∈ capiArgs, s ≠ "centring" → s ∈ capiStored := by decide +kernel
  obtain ⟨s, hs, rfl⟩ := List.mem_map.mp hk
  have : s.toList ∈ capiStored.map String.toList :=
    List.mem_map.mpr ⟨s, h s hs fun e => hc (by rw [e]), rfl⟩
  simp only [construct, this, if_true]
  rfl

/-- C88 is violated by `capi`: `centring` is reported as `None`, whatever was passed. -/
theorem C88_capi_violated (ops : SubOps V) (args : PName → V) :
    reported (capiArgs.map String.toList) ops (construct capiStored args) "centring".toList = some default := by
  rw [reported_eq _ _ _ _ (by decide +kernel)]
  have : "centring".toList ∉ capiStored.map String.toList := by decide +kernel
  simp only [construct, this, if_false]
  rfl

end Direpack
