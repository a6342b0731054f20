import Verif.Props.DicomoDist
import Verif.Props.Preproc

/-!
Distance statistics with trimming, bias correction and median centring: C33 and C35 for all options, and C111
(the distance variance is the distance covariance of a variable with itself).
-/

namespace Direpack

open scoped BigOperators
open Spec

/-! ### Rows -/

lemma mapE_get {α β : Type} {f : α → Except Err β} : ∀ {l : List α} {l' : List β}, mapE f l = .ok l' →
    l'.length = l.length ∧ ∀ k (h : k < l.length) (h' : k < l'.length), f l[k] = .ok l'[k]
  | [], l', h => by
    simp only [mapE, Except.ok.injEq] at h
    subst h
    exact ⟨rfl, fun k h => by simp at h⟩
  | a :: l, l', h => by
    simp only [mapE] at h
    cases hf : f a with
    | error e => rw [hf] at h; cases h
    | ok b =>
      rw [hf] at h
      cases hm : mapE f l with
      | error e => rw [hm] at h; cases h
      | ok bs =>
        rw [hm] at h
        simp only [Except.ok.injEq] at h
        subst h
        obtain ⟨h1, h2⟩ := mapE_get hm
        refine ⟨by simp [h1], fun k hk hk' => ?_⟩
        cases k with
        | zero => simpa using hf
        | succ k => simpa using h2 k (by simpa using hk) (by simpa using hk')

lemma seqE_inv {n : ℕ} {f : Fin n → Except Err ℝ} {g : Fin n → ℝ} (h : seqE f = .ok g) (i : Fin n) : f i = .ok (g i) := by
  unfold seqE at h
  cases hm : mapE f (List.finRange n) with
  | error e => rw [hm] at h; cases h
  | ok l =>
    rw [hm] at h
    simp only [Except.ok.injEq] at h
    subst h
    obtain ⟨h1, h2⟩ := mapE_get hm
    have hi : (i : ℕ) < (List.finRange n).length := by simp
    have hi' : (i : ℕ) < l.length := by rw [h1]; exact hi
    have := h2 i hi hi'
    simpa [List.getD_eq_getElem?_getD, hi'] using this

lemma seqE_of {n : ℕ} {f : Fin n → Except Err ℝ} {g : Fin n → ℝ} (h : ∀ i, f i = .ok (g i)) : seqE f = .ok g := by
  rw [show f = fun i => .ok (g i) from funext h, seqE_ok]

lemma seqE_fail {n : ℕ} {f : Fin n → Except Err ℝ} (h : ¬ ∃ g : Fin n → ℝ, ∀ i, f i = .ok (g i)) : ∃ e, seqE f = .error e := by
  cases hs : seqE f with
  | error e => exact ⟨e, rfl⟩
  | ok g => exact absurd ⟨g, seqE_inv hs⟩ h

/-! ### C33 for all options -/

/-- What a successful centring returns. -/
lemma doubleCenter_inv {n : ℕ} {t : ℝ} {b : Bool} {a A : Fin n → Fin n → ℝ} {n1 : ℝ} (ha : ∀ i j, a i j = a j i)
    (h : doubleCenter .mean t b a = .ok (A, n1)) :
    ∃ (mu : ℝ) (r : Fin n → ℝ), meanT t (flat a) = .ok mu ∧ (∀ i, meanT t (List.ofFn fun j => a i j) = .ok (r i)) ∧
      n1 = (if b then ((pyRound (n * (1 - t)) : ℤ) : ℝ) else n) ∧
      ∀ i j, A i j = if b then (if i = j then 0 else
        a i j - r i * (n1 / (n1 - 2)) - r j * (n1 / (n1 - 2)) + mu * (n1 ^ 2 / ((n1 - 1) * (n1 - 2)))) else a i j - r i - r j + mu := by
  have hcol : (fun j => meanT t (List.ofFn fun i => a i j)) = fun i => meanT t (List.ofFn fun j => a i j) := by
    funext j
    rw [show (fun i => a i j) = fun i => a j i from funext fun i => ha i j]
  unfold doubleCenter at h
  simp only [hcol, bind, Except.bind] at h
  cases hm : meanT t (flat a) with
  | error e => rw [hm] at h; cases h
  | ok mu =>
    rw [hm] at h
    simp only at h
    cases hr : seqE fun i => meanT t (List.ofFn fun j => a i j) with
    | error e => rw [hr] at h; cases h
    | ok r =>
      rw [hr] at h
      simp only [Except.ok.injEq, Prod.mk.injEq] at h
      obtain ⟨hA, hn1⟩ := h
      refine ⟨mu, r, rfl, seqE_inv hr, hn1.symm, fun i j => ?_⟩
      rw [← hA, ← hn1]
      cases b with
      | false => simp
      | true =>
        by_cases hij : i = j
        · simp [hij]
        · simp [hij]

/-- C33: whatever the centre, the trimming fraction and the bias correction, the centred distance matrix is symmetric, and with
bias correction its diagonal is zero. -/
theorem C33_symmetric {n p : ℕ} {c : Loc} {t : ℝ} {b : Bool} {x : Fin n → Fin p → ℝ} {A : Fin n → Fin n → ℝ} {n1 : ℝ}
    (h : distMatCentered c t b x = .ok (A, n1)) :
    (∀ i j, A i j = A j i) ∧ (b = true → ∀ i, A i i = 0) := by
  have hs := edist_symm x
  cases c with
  | mean =>
    obtain ⟨mu, r, -, -, -, hA⟩ := doubleCenter_inv hs h
    refine ⟨fun i j => ?_, fun hb i => ?_⟩
    · rw [hA, hA, hs i j]
      cases b with
      | false => simp only [Bool.false_eq_true, if_false]; ring
      | true =>
        by_cases hij : i = j
        · rw [hij]
        · simp only [if_true, if_neg hij, if_neg (Ne.symm hij)]; ring
    · rw [hA, hb]; simp
  | median =>
    unfold distMatCentered doubleCenter at h
    simp only [Except.ok.injEq, Prod.mk.injEq] at h
    obtain ⟨hA, -⟩ := h
    subst hA
    have hcol : ∀ j, (List.ofFn fun i => edist x i j) = List.ofFn fun i => edist x j i := fun j => by
      rw [show (fun i => edist x i j) = fun i => edist x j i from funext fun i => hs i j]
    refine ⟨fun i j => ?_, fun hb i => by simp [hb]⟩
    simp only [hcol]
    by_cases hij : b = true ∧ i = j
    · rw [if_pos hij, if_pos ⟨hij.1, hij.2.symm⟩]
    · rw [if_neg hij, if_neg (fun h => hij ⟨h.1, h.2.symm⟩), hs i j]
      ring

/-- C33: with trimming, a centred distance matrix is made of the trimmed means `r` of the rows and `mu` of all distances; the bias
correction uses the number `k` of cases that the trimming leaves (`n (1 - t)`, rounded). -/
theorem C33_trimmed_value {n p : ℕ} {t : ℝ} {x : Fin n → Fin p → ℝ} {A : Fin n → Fin n → ℝ} {n1 : ℝ} :
    (distMatCentered .mean t false x = .ok (A, n1) → ∃ (mu : ℝ) (r : Fin n → ℝ),
      meanT t (flat fun i j => rowDist (x i) (x j)) = .ok mu ∧ (∀ i, meanT t (List.ofFn fun j => rowDist (x i) (x j)) = .ok (r i)) ∧
      ∀ i j, A i j = rowDist (x i) (x j) - r i - r j + mu) ∧
    (distMatCentered .mean t true x = .ok (A, n1) → ∃ (k mu : ℝ) (r : Fin n → ℝ), k = (pyRound (n * (1 - t)) : ℤ) ∧
      meanT t (flat fun i j => rowDist (x i) (x j)) = .ok mu ∧ (∀ i, meanT t (List.ofFn fun j => rowDist (x i) (x j)) = .ok (r i)) ∧
      ∀ i j, i ≠ j → A i j = rowDist (x i) (x j) - k / (k - 2) * (r i + r j) + k ^ 2 / ((k - 1) * (k - 2)) * mu) := by
  constructor
  · intro h
    obtain ⟨mu, r, h1, h2, -, h4⟩ := doubleCenter_inv (edist_symm x) h
    exact ⟨mu, r, h1, h2, fun i j => by rw [h4]; simp [edist_rowDist]⟩
  · intro h
    obtain ⟨mu, r, h1, h2, h3, h4⟩ := doubleCenter_inv (edist_symm x) h
    refine ⟨n1, mu, r, by simpa using h3, h1, h2, fun i j hij => ?_⟩
    rw [h4]
    simp only [if_true, if_neg hij, edist_rowDist]
    ring

/-! ### C35 for all options -/

lemma fastStage_congr {n p q p' q' : ℕ} (hn : 0 < n) (inner : Inner) (a : FitArgs) {x : Fin n → Fin p → ℝ} {x' : Fin n → Fin p' → ℝ}
    {y : Fin n → Fin q → ℝ} {y' : Fin n → Fin q' → ℝ} (hx : edist x' = edist x) (hy : edist y' = edist y) :
    fastStage inner { a with y := some (dmat y') } x' = fastStage inner { a with y := some (dmat y) } x := by
  unfold fastStage
  simp only [getY_dmat hn, bind, Except.bind, dcovSqr, udcovSqr, hx, hy]

lemma naiveStage_congr {n p q p' q' : ℕ} (hn : 0 < n) (m : Mode) (inner : Inner) (c : Loc) (order : ℕ) (a : FitArgs) {x : Fin n → Fin p → ℝ}
    {x' : Fin n → Fin p' → ℝ} {y : Fin n → Fin q → ℝ} {y' : Fin n → Fin q' → ℝ} (hx : edist x' = edist x) (hy : edist y' = edist y) :
    naiveStage m inner c order { a with y := some (dmat y') } x' = naiveStage m inner c order { a with y := some (dmat y) } x := by
  unfold naiveStage
  simp only [getY_dmat hn, bind, Except.bind, distMatCentered, hx, hy]

lemma edist_col0 {n : ℕ} (y : Fin n → Fin 1 → ℝ) : edist (fun i (_ : Fin 1) => col0 y i) = edist y := by
  funext i j
  unfold edist col0
  simp

lemma mddStage_congr {n p q p' : ℕ} (hn : 0 < n) (inner : Inner) (c : Loc) (a : FitArgs) {x : Fin n → Fin p → ℝ} {x' : Fin n → Fin p' → ℝ}
    {y y' : Fin n → Fin q → ℝ} (hx : edist x' = edist x) (hy : edist y' = edist y) :
    mddStage inner c { a with y := some (dmat y') } x' = mddStage inner c { a with y := some (dmat y) } x := by
  unfold mddStage
  simp only [getY_dmat hn, bind, Except.bind]
  by_cases hq : q = 1
  · subst hq
    unfold differenceDivergence
    simp only [distMatCentered, hx, edist_col0, hy]
  · simp only [if_neg hq]

lemma compute_distance_all {n p q : ℕ} (hn : 0 < n) (m : Mode) (c : Loc) (a : FitArgs) (x : Fin n → Fin p → ℝ) (y : Fin n → Fin q → ℝ) :
    Dicomo.compute .distance m c { a with y := some (dmat y) } (dmat x) =
      match (if (modeTable m a.order).1 = .mdd ∨ (modeTable m a.order).1 = .ballcov then
          mddStage (modeTable m a.order).1 c { a with y := some (dmat y) } x
        else if a.fast ∧ c = .mean ∧ a.trimming = 0 ∧ (modeTable m a.order).2 = 2 then
          fastStage (modeTable m a.order).1 { a with y := some (dmat y) } x
        else naiveStage m (modeTable m a.order).1 c (modeTable m a.order).2 { a with y := some (dmat y) } x) with
      | .error e => .error e
      | .ok pre => finalStage m (modeTable m a.order).1 (modeTable m a.order).2 { a with y := some (dmat y) } pre := by
  unfold Dicomo.compute
  have hn' : (dmat x).n ≠ 0 := hn.ne'
  simp only [hn', if_false]
  rfl

/-- C35: shifts and rotations change no distance statistic at all: every mode, both algorithms, with or without trimming, bias correction and median centring. -/
theorem C35_rigid_motion_any {n p q : ℕ} (hn : 0 < n) (m : Mode) (c : Loc) (a : FitArgs)
    (x : Fin n → Fin p → ℝ) (y : Fin n → Fin q → ℝ) (bx : Fin p → ℝ) (by' : Fin q → ℝ)
    (Q : Fin p → Fin p → ℝ) (hQ : ∀ j k, ∑ l, Q j l * Q k l = if j = k then 1 else 0)
    (S : Fin q → Fin q → ℝ) (hS : ∀ j k, ∑ l, S j l * S k l = if j = k then 1 else 0) :
    run .distance m c a (dmat fun i l => (∑ j, x i j * Q j l) + bx l) (dmat fun i l => (∑ j, y i j * S j l) + by' l) =
      run .distance m c a (dmat x) (dmat y) := by
  have hx : edist (fun i l => (∑ k, x i k * Q k l) + bx l) = edist x := by
    funext i j
    rw [edist_rowDist, edist_rowDist]
    simp only
    rw [rowDist_shift, rowDist_orth Q hQ]
  have hy : edist (fun i l => (∑ k, y i k * S k l) + by' l) = edist y := by
    funext i j
    rw [edist_rowDist, edist_rowDist]
    simp only
    rw [rowDist_shift, rowDist_orth S hS]
  rw [run_eq, run_eq, compute_distance_all hn m _ a, compute_distance_all hn m _ a, fastStage_congr hn _ a hx hy,
    naiveStage_congr hn _ _ _ _ a hx hy, mddStage_congr hn _ _ a hx hy]
  rfl

lemma meanT_perm {t : ℝ} {l l' : List ℝ} (h : l.Perm l') : meanT t l = meanT t l' := by
  unfold meanT trimMeanL meanL
  rw [sortL_congr h, h.length_eq, h.sum_eq]

lemma medL_perm' {l l' : List ℝ} (h : l.Perm l') : medL l = medL l' := by
  unfold medL
  rw [sortL_congr h, h.length_eq]

lemma flat_perm {n : ℕ} (σ : Equiv.Perm (Fin n)) (a : Fin n → Fin n → ℝ) : (flat fun i j => a (σ i) (σ j)).Perm (flat a) := by
  have hp : ((List.finRange n).map σ).Perm (List.finRange n) := by
    rw [List.perm_ext_iff_of_nodup ((List.nodup_finRange n).map σ.injective) (List.nodup_finRange n)]
    intro k
    simp only [List.mem_map, List.mem_finRange, true_and, iff_true]
    exact ⟨σ.symm k, by simp⟩
  unfold flat
  have h1 : (List.finRange n).flatMap (fun i => (List.finRange n).map fun j => a (σ i) (σ j)) =
      ((List.finRange n).map σ).flatMap fun i => ((List.finRange n).map σ).map fun j => a i j := by
    rw [List.flatMap_map]
    simp only [List.map_map]
    rfl
  rw [h1]
  exact (hp.flatMap_right _).trans (List.Perm.flatMap_left _ fun i _ => hp.map _)

lemma ofFn_perm' {n : ℕ} (σ : Equiv.Perm (Fin n)) (v : Fin n → ℝ) : (List.ofFn fun i => v (σ i)).Perm (List.ofFn v) := by
  have hp : ((List.finRange n).map σ).Perm (List.finRange n) := by
    rw [List.perm_ext_iff_of_nodup ((List.nodup_finRange n).map σ.injective) (List.nodup_finRange n)]
    intro k
    simp only [List.mem_map, List.mem_finRange, true_and, iff_true]
    exact ⟨σ.symm k, by simp⟩
  rw [List.ofFn_eq_map, List.ofFn_eq_map, show (fun i => v (σ i)) = v ∘ σ from rfl, ← List.map_map]
  exact hp.map v

/-- Whether a trimmed mean exists depends on the number of values only. -/
lemma meanT_len (t : ℝ) (k : ℕ) : (∀ l : List ℝ, l.length = k → ∃ m, meanT t l = .ok m) ∨
    ∃ e, ∀ l : List ℝ, l.length = k → meanT t l = .error e := by
  by_cases ht : t = 0
  · exact .inl fun l _ => ⟨_, by simp [meanT, ht]; rfl⟩
  · by_cases h1 : k < ⌊t * k⌋₊ + ⌊t * k⌋₊
    · refine .inr ⟨.valueError, fun l hl => ?_⟩
      simp only [meanT, if_neg ht, trimMeanL, hl, if_pos h1, ofNaN]
    · by_cases h2 : k - ⌊t * (k : ℝ)⌋₊ - ⌊t * (k : ℝ)⌋₊ = 0
      · refine .inr ⟨.other, fun l hl => ?_⟩
        simp only [meanT, if_neg ht, trimMeanL, hl, if_neg h1, List.length_take, List.length_drop, sortL_length, h2]
        simp [ofNaN]
      · refine .inl fun l hl => ?_
        simp only [meanT, if_neg ht, trimMeanL, hl, if_neg h1, List.length_take, List.length_drop, sortL_length]
        rw [if_neg (by omega)]
        exact ⟨_, rfl⟩

lemma seqE_const_error {n : ℕ} (hn : 0 < n) (e : Err) : (seqE fun _ : Fin n => (.error e : Except Err ℝ)) = .error e := by
  unfold seqE
  obtain ⟨k, rfl⟩ : ∃ k, n = k + 1 := ⟨n - 1, by omega⟩
  rw [List.finRange_succ]
  simp [mapE]

lemma seqE_perm {n : ℕ} (hn : 0 < n) (t : ℝ) (σ : Equiv.Perm (Fin n)) (f f' : Fin n → List ℝ) (hf : ∀ i, (f i).length = n)
    (hff : ∀ i, (f' i).Perm (f (σ i))) :
    (seqE fun i => meanT t (f' i)) = (seqE fun i => meanT t (f i)).map fun g i => g (σ i) := by
  have h1 : ∀ i, meanT t (f' i) = meanT t (f (σ i)) := fun i => meanT_perm (hff i)
  simp only [h1]
  rcases meanT_len t n with h | ⟨e, h⟩
  · choose g hg using fun i => h (f i) (hf i)
    rw [seqE_of hg, seqE_of fun i => hg (σ i)]
    rfl
  · have h2 : ∀ i, meanT t (f i) = .error e := fun i => h _ (hf i)
    simp only [h2, seqE_const_error hn, Except.map]

lemma doubleCenter_perm {n : ℕ} (hn : 0 < n) (c : Loc) (t : ℝ) (b : Bool) (σ : Equiv.Perm (Fin n)) (a : Fin n → Fin n → ℝ) :
    doubleCenter c t b (fun i j => a (σ i) (σ j)) = (doubleCenter c t b a).map fun r => (fun i j => r.1 (σ i) (σ j), r.2) := by
  cases c with
  | mean =>
    have hr := seqE_perm hn t σ (fun i => List.ofFn fun j => a i j) (fun i => List.ofFn fun j => a (σ i) (σ j)) (by simp)
      fun i => ofFn_perm' σ fun j => a (σ i) j
    have hc := seqE_perm hn t σ (fun j => List.ofFn fun i => a i j) (fun j => List.ofFn fun i => a (σ i) (σ j)) (by simp)
      fun j => ofFn_perm' σ fun i => a i (σ j)
    unfold doubleCenter
    simp only [hr, hc, meanT_perm (flat_perm σ a), bind, Except.bind]
    cases meanT t (flat a) with
    | error e => rfl
    | ok mu =>
      simp only
      cases seqE fun j => meanT t (List.ofFn fun i => a i j) with
      | error e => rfl
      | ok rc =>
        simp only [Except.map]
        cases seqE fun i => meanT t (List.ofFn fun j => a i j) with
        | error e => rfl
        | ok rr =>
          simp only [Except.ok.injEq, Prod.mk.injEq, and_true]
          funext i j
          cases b <;> simp
  | median =>
    unfold doubleCenter
    simp only [Except.map, Except.ok.injEq, Prod.mk.injEq, and_true]
    funext i j
    rw [medL_perm' (flat_perm σ a), medL_perm' (ofFn_perm' σ fun j => a (σ i) j), medL_perm' (ofFn_perm' σ fun i => a i (σ j))]
    simp

lemma sqIter_perm {n : ℕ} (k : ℕ) (σ : Equiv.Perm (Fin n)) (A : Fin n → Fin n → ℝ) :
    sqIter k (fun i j => A (σ i) (σ j)) = fun i j => sqIter k A (σ i) (σ j) := by
  funext i j
  rw [sqIter_pow, sqIter_pow]

lemma distanceMoment_perm {n : ℕ} (σ : Equiv.Perm (Fin n)) (same : Bool) (c : Loc) (t : ℝ) (b : Bool) (n1 : ℝ) (order option : ℕ)
    (A B : Fin n → Fin n → ℝ) :
    distanceMoment same c t b n1 order option (fun i j => A (σ i) (σ j)) (fun i j => B (σ i) (σ j)) =
      (distanceMoment same c t b n1 order option A B).map
        fun r => (r.1, (fun i j => r.2.1 (σ i) (σ j)), fun i j => r.2.2 (σ i) (σ j)) := by
  have hd : dmSquared same order option (fun i j => A (σ i) (σ j)) (fun i j => B (σ i) (σ j)) =
      ((fun i j => (dmSquared same order option A B).1 (σ i) (σ j)), fun i j => (dmSquared same order option A B).2 (σ i) (σ j)) := by
    unfold dmSquared
    split_ifs <;> simp only [sqIter_perm]
  have hf := flat_perm σ fun i j => (dmSquared same order option A B).1 i j * (dmSquared same order option A B).2 i j
  unfold distanceMoment
  rw [hd]
  cases c with
  | mean =>
    simp only
    split_ifs
    · rfl
    · simp only [meanT_perm hf, bind, Except.bind]
      cases meanT t (flat fun i j => (dmSquared same order option A B).1 i j * (dmSquared same order option A B).2 i j) <;> rfl
  | median =>
    simp only [medL_perm' hf]
    rfl

lemma edist_perm {n p : ℕ} (σ : Equiv.Perm (Fin n)) (x : Fin n → Fin p → ℝ) :
    edist (fun i => x (σ i)) = fun i j => edist x (σ i) (σ j) := rfl

lemma naiveStage_perm {n p q : ℕ} (hn : 0 < n) (m : Mode) (inner : Inner) (c : Loc) (order : ℕ) (a : FitArgs) (σ : Equiv.Perm (Fin n))
    (x : Fin n → Fin p → ℝ) (y : Fin n → Fin q → ℝ) :
    naiveStage m inner c order { a with y := some (dmat fun i => y (σ i)) } (fun i => x (σ i)) =
      naiveStage m inner c order { a with y := some (dmat y) } x := by
  unfold naiveStage
  simp only [getY_dmat hn, bind, Except.bind, distMatCentered, edist_perm, doubleCenter_perm hn]
  cases doubleCenter c a.trimming a.biascorr (edist x) with
  | error e => rfl
  | ok dm =>
    simp only [Except.map]
    set opt := if 2 < order then a.option else 0
    by_cases hi : inner = .com
    · simp only [hi, if_true, reduceCtorEq, if_false, or_self]
      by_cases h1 : a.y1d = true
      · simp only [h1, if_true]
      simp only [h1, if_false]
      cases doubleCenter c a.trimming a.biascorr (edist y) with
      | error e => rfl
      | ok dmy =>
      simp only [distanceMoment_perm, Except.map]
      cases distanceMoment false c a.trimming a.biascorr n order opt dm.1 dmy.1 with
      | error e => rfl
      | ok co =>
      simp only [distanceMoment_perm, Except.map]
      cases distanceMoment true c a.trimming a.biascorr n 2 opt co.2.1 co.2.1 <;>
        cases distanceMoment true c a.trimming a.biascorr n 2 opt co.2.2 co.2.2 <;> rfl
    · simp only [hi, if_false, distanceMoment_perm]
      cases distanceMoment true c a.trimming a.biascorr dm.2 order opt dm.1 dm.1 with
      | error e => rfl
      | ok xr =>
      simp only [distanceMoment_perm, Except.map]
      by_cases h1 : a.y1d = true
      · simp only [h1, if_true]
        cases distanceMoment true c a.trimming a.biascorr dm.2 2 opt xr.2.1 xr.2.1 <;> rfl
      simp only [h1, if_false]
      cases doubleCenter c a.trimming a.biascorr (edist y) with
      | error e => cases distanceMoment true c a.trimming a.biascorr dm.2 2 opt xr.2.1 xr.2.1 <;> rfl
      | ok dmy =>
      simp only [distanceMoment_perm, Except.map]
      cases distanceMoment false c a.trimming a.biascorr n order opt xr.2.1 dmy.1 with
      | error e => cases distanceMoment true c a.trimming a.biascorr dm.2 2 opt xr.2.1 xr.2.1 <;> rfl
      | ok co =>
      simp only [distanceMoment_perm, Except.map]
      cases distanceMoment true c a.trimming a.biascorr n 2 opt co.2.1 co.2.1 <;>
        cases distanceMoment true c a.trimming a.biascorr n 2 opt co.2.2 co.2.2 <;>
        cases distanceMoment true c a.trimming a.biascorr n order opt co.2.2 co.2.2 <;>
        cases distanceMoment true c a.trimming a.biascorr dm.2 2 opt xr.2.1 xr.2.1 <;> rfl

lemma dcovSqr_perm {n p q : ℕ} (σ : Equiv.Perm (Fin n)) (x : Fin n → Fin p → ℝ) (y : Fin n → Fin q → ℝ) :
    dcovSqr (fun i => x (σ i)) (fun i => y (σ i)) = dcovSqr x y := by
  rw [dcovSqr_eq, dcovSqr_eq]
  exact dcov2_perm σ x y

lemma udcovSqr_perm {n p q : ℕ} (σ : Equiv.Perm (Fin n)) (x : Fin n → Fin p → ℝ) (y : Fin n → Fin q → ℝ) :
    udcovSqr (fun i => x (σ i)) (fun i => y (σ i)) = udcovSqr x y := by
  have h1 : ∀ (d : Fin n → Fin n → ℝ) (i : Fin n), ∑ k, d (σ i) (σ k) = ∑ k, d (σ i) k := fun d i => Equiv.sum_comp σ fun k => d (σ i) k
  have h2 : ∀ (d : Fin n → Fin n → ℝ) (j : Fin n), ∑ k, d (σ k) (σ j) = ∑ k, d k (σ j) := fun d j => Equiv.sum_comp σ fun k => d k (σ j)
  have h3 : ∀ (d : Fin n → Fin n → ℝ), ∑ k, ∑ l, d (σ k) l = ∑ k, ∑ l, d k l := fun d => Equiv.sum_comp σ fun k => ∑ l, d k l
  unfold udcovSqr
  simp only [edist_perm, h1, h2, h3]
  congr 1
  symm
  rw [← Equiv.sum_comp σ]
  refine Finset.sum_congr rfl fun i _ => ?_
  rw [← Equiv.sum_comp σ]
  refine Finset.sum_congr rfl fun j _ => ?_
  simp only [EmbeddingLike.apply_eq_iff_eq]

lemma fastStage_perm {n p q : ℕ} (hn : 0 < n) (inner : Inner) (a : FitArgs) (σ : Equiv.Perm (Fin n)) (x : Fin n → Fin p → ℝ)
    (y : Fin n → Fin q → ℝ) :
    fastStage inner { a with y := some (dmat fun i => y (σ i)) } (fun i => x (σ i)) = fastStage inner { a with y := some (dmat y) } x := by
  unfold fastStage
  simp only [getY_dmat hn, bind, Except.bind, dcovSqr_perm, udcovSqr_perm]

lemma mddStage_perm {n p q : ℕ} (hn : 0 < n) (inner : Inner) (c : Loc) (a : FitArgs) (σ : Equiv.Perm (Fin n)) (x : Fin n → Fin p → ℝ)
    (y : Fin n → Fin q → ℝ) :
    mddStage inner c { a with y := some (dmat fun i => y (σ i)) } (fun i => x (σ i)) =
      mddStage inner c { a with y := some (dmat y) } x := by
  have hin : ∀ (b : Bool) (t : ℝ) (A B : Fin n → Fin n → ℝ),
      innerProd b t (fun i j => A (σ i) (σ j)) (fun i j => B (σ i) (σ j)) = innerProd b t A B := fun b t A B => by
    unfold innerProd
    simp only [sortL_congr (flat_perm σ fun i j => A i j * B i j)]
  unfold mddStage
  simp only [getY_dmat hn, bind, Except.bind]
  by_cases hq : q = 1
  · subst hq
    have hd : differenceDivergence c a.trimming a.biascorr (fun i => x (σ i)) (col0 fun i => y (σ i)) =
        differenceDivergence c a.trimming a.biascorr x (col0 y) := by
      unfold differenceDivergence
      simp only [edist_col0, distMatCentered, edist_perm, doubleCenter_perm hn, bind, Except.bind]
      rw [doubleCenter_perm hn c a.trimming a.biascorr σ (fun i k => 1 / 2 * edist y i k ^ 2)]
      cases doubleCenter c a.trimming a.biascorr (edist x) with
      | error e => rfl
      | ok A =>
        simp only [Except.map]
        cases doubleCenter c a.trimming a.biascorr fun i k => 1 / 2 * edist y i k ^ 2 with
        | error e => rfl
        | ok B => simp only [hin]
    simp only [hd]
  · simp only [if_neg hq]

/-- C35: reordering the cases changes no distance statistic, whatever the mode, algorithm, trimming, bias correction and centre. -/
theorem C35_permutation_any {n p q : ℕ} (hn : 0 < n) (m : Mode) (c : Loc) (a : FitArgs)
    (x : Fin n → Fin p → ℝ) (y : Fin n → Fin q → ℝ) (σ : Equiv.Perm (Fin n)) :
    run .distance m c a (dmat fun i => x (σ i)) (dmat fun i => y (σ i)) = run .distance m c a (dmat x) (dmat y) := by
  rw [run_eq, run_eq, compute_distance_all hn m _ a, compute_distance_all hn m _ a, fastStage_perm hn, naiveStage_perm hn, mddStage_perm hn]
  rfl

/-! ### C111: variance and covariance -/

/-- Second order distance moments: both matrices are kept. -/
lemma distanceMoment_two' {n : ℕ} (same : Bool) (c : Loc) (t : ℝ) (b : Bool) (n1 : ℝ) (opt : ℕ) (A B : Fin n → Fin n → ℝ) :
    distanceMoment same c t b n1 2 opt A B =
      (match c with
        | .mean => (meanT t (flat fun i j => A i j * B i j)).map fun m => √|m * corr4bias n n1 t b|
        | .median => .ok (medL (flat fun i j => A i j * B i j))).map fun v => (v, A, B) := by
  unfold distanceMoment
  cases c with
  | mean =>
    simp only [dmSquared, lt_irrefl, if_false, bind, Except.bind, OfNat.ofNat_ne_zero, pow_half]
    cases meanT t (flat fun i j => A i j * B i j) <;> rfl
  | median => simp only [dmSquared, lt_irrefl, if_false]; rfl

/-- The distance variance by the naive algorithm. -/
lemma run_dvar_naive {n p q : ℕ} (hn : 0 < n) (c : Loc) (a : FitArgs) (hf : ¬ (a.fast = true ∧ c = .mean ∧ a.trimming = 0))
    (x : Fin n → Fin p → ℝ) (y : Fin n → Fin q → ℝ) :
    run .distance .var c a (dmat x) (dmat y) = (distMatCentered c a.trimming a.biascorr x).bind fun A =>
      (distanceMoment true c a.trimming a.biascorr A.2 2 0 A.1 A.1).map fun r => r.1 := by
  refine (run_distance hn .var c a x y ⟨by simp [modeTable], by simp [modeTable]⟩ rfl).trans ?_
  simp only [modeTable]
  rw [if_neg (by tauto)]
  unfold naiveStage finalStage
  simp only [bind, Except.bind, reduceCtorEq, if_false, if_true, isCoMode, isStdMode, or_self, decide_false, Bool.false_eq_true, false_and,
    lt_irrefl]
  cases distMatCentered c a.trimming a.biascorr x with
  | error e => rfl
  | ok A =>
    simp only
    cases distanceMoment true c a.trimming a.biascorr A.2 2 0 A.1 A.1 <;> rfl

/-- The distance covariance by the naive algorithm. -/
lemma run_dcov_naive {n p q : ℕ} (hn : 0 < n) (c : Loc) (a : FitArgs) (hf : ¬ (a.fast = true ∧ c = .mean ∧ a.trimming = 0))
    (hy : a.y1d = false) (x : Fin n → Fin p → ℝ) (y : Fin n → Fin q → ℝ) :
    run .distance .cov c a (dmat x) (dmat y) = (distMatCentered c a.trimming a.biascorr x).bind fun A =>
      (distMatCentered c a.trimming a.biascorr y).bind fun B =>
      (distanceMoment false c a.trimming a.biascorr n 2 0 A.1 B.1).map fun r => r.1 := by
  refine (run_distance hn .cov c a x y ⟨by simp [modeTable], by simp [modeTable]⟩ rfl).trans ?_
  simp only [modeTable]
  rw [if_neg (by tauto)]
  unfold naiveStage finalStage
  simp only [bind, Except.bind, reduceCtorEq, if_false, if_true, isCoMode, or_self, decide_false, Bool.false_eq_true, false_and,
    lt_irrefl, hy, getY_dmat hn]
  cases distMatCentered c a.trimming a.biascorr x with
  | error e => rfl
  | ok A =>
    simp only
    cases distMatCentered c a.trimming a.biascorr y with
    | error e => rfl
    | ok B =>
      simp only
      cases distanceMoment false c a.trimming a.biascorr n 2 0 A.1 B.1 <;> rfl

lemma distanceMoment_n1 {n : ℕ} (same : Bool) (c : Loc) (t : ℝ) (b : Bool) (n1 n2 : ℝ) (opt : ℕ) (A B : Fin n → Fin n → ℝ)
    (h : b = false ∨ t = 0 ∨ c = .median) :
    distanceMoment same c t b n1 2 opt A B = distanceMoment (!same) c t b n2 2 opt A B := by
  rw [distanceMoment_two', distanceMoment_two']
  rcases h with h | h | h
  · simp only [h, corr4bias_false]
  · have : ∀ n1, corr4bias n n1 t b = corr4bias n 0 t b := fun n1 => by unfold corr4bias; simp [h]
    simp only [this]
  · simp only [h]

/-- C111 (partial): the distance covariance of a data set with itself is its distance variance, for every centre, with trimming or with
bias correction.  Missing: trimming together with bias correction (see `C111_self_violated`), and a response passed as a
one-dimensional array, which the naive algorithm refuses (`C36_y1d_violated`). -/
theorem C111_self_partial {n p : ℕ} (hn : 0 < n) (c : Loc) (a : FitArgs) (hy : a.y1d = false) (h : a.biascorr = false ∨ a.trimming = 0)
    (x : Fin n → Fin p → ℝ) :
    run .distance .cov c a (dmat x) (dmat x) = run .distance .var c a (dmat x) (dmat x) := by
  by_cases hf : a.fast = true ∧ c = .mean ∧ a.trimming = 0
  · obtain ⟨h1, rfl, h3⟩ := hf
    rw [run_distance hn .cov .mean a x x ⟨by simp [modeTable], by simp [modeTable]⟩ rfl,
      run_distance hn .var .mean a x x ⟨by simp [modeTable], by simp [modeTable]⟩ rfl]
    simp only [modeTable]
    simp only [h1, h3, and_self, if_true]
    unfold fastStage finalStage
    simp only [bind, Except.bind, reduceCtorEq, if_false, if_true, isCoMode, or_self, decide_false, Bool.false_eq_true, false_and,
      getY_dmat hn]
    cases sqrtE (if a.biascorr = true then udcovSqr x x else dcovSqr x x) <;> rfl
  · rw [run_dcov_naive hn c a hf hy, run_dvar_naive hn c a hf]
    cases hd : distMatCentered c a.trimming a.biascorr x with
    | error e => rfl
    | ok A =>
      simp only [Except.bind]
      rw [distanceMoment_n1 false c a.trimming a.biascorr n A.2 0 A.1 A.1 (by tauto)]
      rfl

lemma corr4bias_true {n : ℕ} {m t : ℝ} (ht : t ≠ 0) : corr4bias n m t true = m / (m - 3) := by
  unfold corr4bias
  simp only [if_true, if_neg ht]
  by_cases h : m = 0
  · simp [h]
  · rw [pow_two, mul_div_mul_left _ _ h]

/-- C111, what happens with trimming and bias correction: the covariance is corrected for all `n` cases, the variance for the `k` cases
that the trimming leaves. -/
theorem C111_self_ratio {n p : ℕ} (hn : 0 < n) (a : FitArgs) (hy : a.y1d = false) (hb : a.biascorr = true) (ht : a.trimming ≠ 0)
    (x : Fin n → Fin p → ℝ) (v w k : ℝ) (hk : k = (pyRound (n * (1 - a.trimming)) : ℤ))
    (hv : run .distance .var .mean a (dmat x) (dmat x) = .ok v) (hw : run .distance .cov .mean a (dmat x) (dmat x) = .ok w) :
    0 ≤ v ∧ 0 ≤ w ∧ w ^ 2 * |k / (k - 3)| = v ^ 2 * |(n : ℝ) / (n - 3)| := by
  have hf : ¬ (a.fast = true ∧ Loc.mean = .mean ∧ a.trimming = 0) := fun h => ht h.2.2
  rw [run_dcov_naive hn .mean a hf hy] at hw
  rw [run_dvar_naive hn .mean a hf] at hv
  cases hd : distMatCentered .mean a.trimming a.biascorr x with
  | error e => rw [hd] at hv; cases hv
  | ok A =>
    obtain ⟨A, n1⟩ := A
    rw [hd] at hv hw
    simp only [Except.bind] at hv hw
    obtain ⟨-, -, -, -, h1, -⟩ := doubleCenter_inv (edist_symm x) hd
    rw [distanceMoment_two'] at hv hw
    simp only [hb, if_true] at h1
    rw [hb, corr4bias_true ht] at hv hw
    rw [h1, ← hk] at hv
    cases hm : meanT a.trimming (flat fun i j => A i j * A i j) with
    | error e => rw [hm] at hv; cases hv
    | ok m =>
      rw [hm] at hv hw
      cases hv
      cases hw
      refine ⟨Real.sqrt_nonneg _, Real.sqrt_nonneg _, ?_⟩
      simp only
      rw [Real.sq_sqrt (abs_nonneg _), Real.sq_sqrt (abs_nonneg _), abs_mul, abs_mul]
      ring

/-- The trimmed mean of numbers given as values of a monotone function. -/
lemma meanT_map {f : ℕ → ℝ} (hf : Monotone f) (l s : List ℕ) (hp : s.Perm l) (hs : s.Pairwise (· ≤ ·)) {t : ℝ} (ht : t ≠ 0) (c : ℕ)
    (hc : ⌊t * (l.length : ℕ)⌋₊ = c) (h : c + c < l.length) :
    meanT t (l.map f) = .ok (meanL (((s.drop c).take (l.length - c - c)).map f)) := by
  have hsort : sortL (l.map f) = s.map f :=
    sortL_unique (hp.map f) (List.pairwise_map.mpr (hs.imp fun h => hf h))
  have hl := hp.length_eq
  unfold meanT trimMeanL
  simp only [if_neg ht, List.length_map, hc, hsort, if_neg (not_lt.mpr h.le)]
  rw [← List.map_drop, ← List.map_take, if_neg (by simp; omega)]
  rfl

/-- Four equal points and one at distance 1. -/
def line5 : Fin 5 → Fin 1 → ℝ := fun i _ => if i = 4 then 1 else 0

/-- The options of the witness: a tenth is trimmed on each side, with bias correction. -/
noncomputable def trimBias : FitArgs := { trimming := 1 / 10, biascorr := true }

lemma flat_map {n : ℕ} (f : ℕ → ℝ) (c : Fin n → Fin n → ℕ) :
    flat (fun i j => f (c i j)) = ((List.finRange n).flatMap fun i => (List.finRange n).map fun j => c i j).map f := by
  unfold flat
  rw [List.map_flatMap]
  simp only [List.map_map]
  rfl

def line5c : Fin 5 → Fin 5 → ℕ := fun i j => if decide (i = 4) = decide (j = 4) then 0 else 1

def line5d : Fin 5 → Fin 5 → ℕ := fun i j => if i = j then 0 else if decide (i = 4) = decide (j = 4) then 1 else 2

/-- The squared entries of the centred matrix. -/
noncomputable def line5v : ℕ → ℝ := fun k => if k = 0 then 0 else if k = 1 then 16 / 11025 else 25 / 441

lemma line5v_mono : Monotone line5v := by
  intro i j h
  unfold line5v
  split_ifs <;> first | omega | norm_num

lemma line5_dist (i j : Fin 5) : edist line5 i j = ((line5c i j : ℕ) : ℝ) := by
  unfold edist line5 line5c
  simp only [Finset.univ_unique, Finset.sum_const, Finset.card_singleton, one_smul]
  by_cases h1 : i = 4 <;> by_cases h2 : j = 4 <;> simp [h1, h2]

lemma line5_row (i : Fin 5) : meanT (1 / 10) (List.ofFn fun j => edist line5 i j) = .ok (if i = 4 then 4 / 5 else 1 / 5) := by
  have e : (List.ofFn fun j => edist line5 i j) = (List.ofFn fun j => line5c i j).map fun k : ℕ => (k : ℝ) := by
    rw [List.map_ofFn]
    congr 1
    funext j
    rw [line5_dist]; rfl
  rw [e, meanT_map (f := fun k : ℕ => (k : ℝ)) (fun a b h => Nat.cast_le.mpr h) _
    (if i = 4 then [0, 1, 1, 1, 1] else [0, 0, 0, 0, 1]) (by clear e; revert i; decide) (by clear e; revert i; decide) (by norm_num) 0
    (by rw [List.length_ofFn, Nat.floor_eq_zero]; norm_num) (by rw [List.length_ofFn]; norm_num)]
  by_cases h : i = 4
  · simp [h, meanL]; norm_num
  · simp [h, meanL]

lemma line5_flat : meanT (1 / 10) (flat (edist line5)) = .ok (2 / 7) := by
  have e : edist line5 = fun i j => (fun k : ℕ => (k : ℝ)) (line5c i j) := by
    funext i j; exact line5_dist i j
  rw [e, flat_map, meanT_map (f := fun k : ℕ => (k : ℝ)) (fun a b h => Nat.cast_le.mpr h) _
    (List.replicate 17 0 ++ List.replicate 8 1) (by decide) (by decide) (by norm_num) 2
    (by rw [show (List.length _ : ℕ) = 25 from by decide, Nat.floor_eq_iff (by norm_num)]; norm_num) (by decide)]
  rw [show (List.length _ : ℕ) = 25 from by decide]
  simp [meanL, List.replicate]
  norm_num

lemma pyRound_45 : pyRound (((5 : ℕ) : ℝ) * (1 - 1 / 10)) = 4 := by
  have h : ⌊((5 : ℕ) : ℝ) * (1 - 1 / 10)⌋ = 4 := by rw [Int.floor_eq_iff]; norm_num
  unfold pyRound
  simp only [h]
  norm_num

lemma line5_centered : ∃ A : Fin 5 → Fin 5 → ℝ, distMatCentered .mean (1 / 10) true line5 = .ok (A, 4) ∧
    ∀ i j, A i j * A i j = line5v (line5d i j) := by
  have hcol : (fun j => meanT (1 / 10) (List.ofFn fun i => edist line5 i j)) = fun i => meanT (1 / 10) (List.ofFn fun j => edist line5 i j) := by
    funext j
    rw [show (fun i => edist line5 i j) = fun i => edist line5 j i from funext fun i => edist_symm _ i j]
  refine ⟨fun i j => if i = j then 0 else edist line5 i j - (if i = 4 then 4 / 5 else 1 / 5) * 2 - (if j = 4 then 4 / 5 else 1 / 5) * 2
    + 2 / 7 * (8 / 3), ?_, ?_⟩
  · unfold distMatCentered doubleCenter
    simp only [hcol, line5_flat, line5_row, seqE_ok, bind, Except.bind, if_true, true_and, pyRound_45]
    norm_num
  · intro i j
    simp only [line5_dist]
    unfold line5c line5d line5v
    by_cases hij : i = j
    · simp [hij]
    · by_cases h1 : i = 4 <;> by_cases h2 : j = 4 <;>
        simp only [hij, h1, h2, if_false, if_true, decide_true, decide_false, reduceCtorEq, Nat.cast_zero, Nat.cast_one] <;>
        first | (exfalso; apply hij; rw [h1, h2]) | (norm_num; done) | (have h3 : ¬ (4 : Fin 5) = j := fun h => h2 h.symm; norm_num [h3])

/-- The trimmed mean of the squares. -/
lemma line5_sq : meanT (1 / 10) (flat fun i j => line5v (line5d i j)) = .ok ((12 * (16 / 11025) + 6 * (25 / 441)) / 21) := by
  rw [flat_map, meanT_map line5v_mono _
    (List.replicate 5 0 ++ List.replicate 12 1 ++ List.replicate 8 2) (by decide) (by decide) (by norm_num) 2
    (by rw [show (List.length _ : ℕ) = 25 from by decide, Nat.floor_eq_iff (by norm_num)]; norm_num) (by decide)]
  rw [show (List.length _ : ℕ) = 25 from by decide]
  simp [meanL, List.replicate, line5v]
  norm_num

/-- C111 is false with trimming and bias correction: five numbers, four of them equal, whose distance covariance with themselves is not
their distance variance. -/
theorem C111_self_violated : ∃ v w : ℝ, run .distance .var .mean trimBias (dmat line5) (dmat line5) = .ok v ∧
    run .distance .cov .mean trimBias (dmat line5) (dmat line5) = .ok w ∧ w < v := by
  have hf : ¬ (trimBias.fast = true ∧ Loc.mean = .mean ∧ trimBias.trimming = 0) := fun h => by
    have := h.2.2; norm_num [trimBias] at this
  obtain ⟨A, hA, hsq⟩ := line5_centered
  have hsq' : (fun i j => A i j * A i j) = fun i j => line5v (line5d i j) := by funext i j; exact hsq i j
  rw [run_dvar_naive (by norm_num) .mean _ hf, run_dcov_naive (by norm_num) .mean _ hf rfl]
  simp only [trimBias, hA, Except.bind, distanceMoment_two', hsq', line5_sq, Except.map, corr4bias_true (show (1 / 10 : ℝ) ≠ 0 by norm_num)]
  refine ⟨_, _, rfl, rfl, ?_⟩
  apply Real.sqrt_lt_sqrt (abs_nonneg _)
  rw [abs_of_pos (by norm_num), abs_of_pos (by norm_num)]
  norm_num

/-- Trimming with bias correction gives a centred matrix on `line5` (hypothesis of `C33_symmetric` and `C33_trimmed_value`), which is not
zero. -/
example : ∃ A : Fin 5 → Fin 5 → ℝ, distMatCentered .mean (1 / 10) true line5 = .ok (A, 4) ∧ A 0 4 ≠ 0 := by
  obtain ⟨A, hA, hsq⟩ := line5_centered
  refine ⟨A, hA, fun h => ?_⟩
  have := hsq 0 4
  rw [h] at this
  simp [line5v, line5d] at this
  norm_num at this

/-- The options of `C111_self_partial` include trimming without bias correction and bias correction without trimming. -/
example : run .distance .cov .mean { trimming := 1 / 10 } (dmat line5) (dmat line5) =
      run .distance .var .mean { trimming := 1 / 10 } (dmat line5) (dmat line5) ∧
    run .distance .cov .median { biascorr := true } (dmat line5) (dmat line5) =
      run .distance .var .median { biascorr := true } (dmat line5) (dmat line5) :=
  ⟨C111_self_partial (by norm_num) .mean _ rfl (Or.inl rfl) line5, C111_self_partial (by norm_num) .median _ rfl (Or.inr rfl) line5⟩

/-- Reordering and moving the data of the witness changes nothing. -/
example (σ : Equiv.Perm (Fin 5)) : run .distance .corr .median trimBias (dmat fun i => line5 (σ i)) (dmat fun i => line5 (σ i)) =
    run .distance .corr .median trimBias (dmat line5) (dmat line5) :=
  C35_permutation_any (by norm_num) .corr .median trimBias line5 line5 σ

/-! ### C38 with trimming -/

/-- C38: with trimming, the average of the products of the entries is a trimmed mean: `difference_divergence` is the `t`-trimmed mean of
the `n²` products of the two matrices centred with `t`-trimmed means. -/
theorem C38_mdd_trimmed {n p : ℕ} (c : Loc) {t : ℝ} (ht : 0 ≤ t) (x : Fin n → Fin p → ℝ) (y : Fin n → ℝ) (r : ℝ)
    (h : differenceDivergence c t false x y = .ok r) :
    ∃ A B k l, distMatCentered c t false x = .ok (A, k) ∧ doubleCenter c t false (fun i j => (y i - y j) ^ 2 / 2) = .ok (B, l) ∧
      meanT t ((List.finRange n).flatMap fun i => (List.finRange n).map fun j => A i j * B i j) = .ok r := by
  have hy : (fun i k => 1 / 2 * edist (fun i (_ : Fin 1) => y i) i k ^ 2) = fun i j => (y i - y j) ^ 2 / 2 := by
    funext i j
    unfold edist
    rw [Real.sq_sqrt (Finset.sum_nonneg fun _ _ => sq_nonneg _)]
    simp
    ring
  unfold differenceDivergence at h
  simp only [hy, bind, Except.bind] at h
  cases hA : distMatCentered c t false x with
  | error e => rw [hA] at h; cases h
  | ok A =>
    cases hB : doubleCenter c t false fun i j => (y i - y j) ^ 2 / 2 with
    | error e => rw [hA, hB] at h; cases h
    | ok B =>
      rw [hA, hB] at h
      refine ⟨A.1, B.1, A.2, B.2, rfl, rfl, ?_⟩
      change meanT t (flat fun i j => A.1 i j * B.1 i j) = _
      simp only [innerProd, Bool.false_eq_true, if_false] at h
      have hl : (sortL (flat fun i j => A.1 i j * B.1 i j)).length = n ^ 2 := by rw [sortL_length, flat_length]
      split at h
      · cases h
      · rename_i h0
        rw [← Except.ok.inj h]
        have h1 : ∀ m : ℕ, 1 / (√(m : ℝ) * √(m : ℝ)) = 1 / (m : ℝ) := fun m => by rw [Real.mul_self_sqrt (Nat.cast_nonneg m)]
        rw [h1, one_div_mul_eq_div]
        unfold meanT
        by_cases t0 : t = 0
        · subst t0
          simp only [if_true, zero_mul, Nat.floor_zero, List.drop_zero, tsub_zero]
          rw [List.take_of_length_le (by rw [hl]), (sortL_perm _).sum_eq, sortL_length]
          rfl
        · simp only [if_neg t0, trimMeanL, flat_length, Nat.cast_pow]
          rw [List.length_take, List.length_drop, hl] at h0
          rw [if_neg (by omega), if_neg (by rw [List.length_take, List.length_drop, hl]; exact h0)]
          rfl

/-! ### C35: change of scale for all options -/

lemma flat_ne_nil {n : ℕ} (hn : 0 < n) (a : Fin n → Fin n → ℝ) : flat a ≠ [] := fun h => by
  have := flat_length a
  rw [h] at this
  simp only [List.length_nil] at this
  exact absurd this (by positivity)

lemma flat_smul {n : ℕ} (k : ℝ) (a : Fin n → Fin n → ℝ) : flat (fun i j => k * a i j) = (flat a).map fun v => k * v + 0 := by
  unfold flat
  rw [List.map_flatMap]
  simp only [List.map_map, add_zero]
  rfl

lemma ofFn_smul {n : ℕ} (k : ℝ) (a : Fin n → ℝ) : List.ofFn (fun i => k * a i) = (List.ofFn a).map fun v => k * v + 0 := by
  rw [List.map_ofFn]
  simp only [add_zero]
  rfl

lemma meanT_smul {t k : ℝ} {l : List ℝ} (hl : l ≠ []) : meanT t (l.map fun v => k * v + 0) = (meanT t l).map fun m => k * m := by
  rw [C11_trim_affine _ hl]
  simp only [add_zero]

lemma medL_smul {k : ℝ} {l : List ℝ} (hl : l ≠ []) : medL (l.map fun v => k * v + 0) = k * medL l := by
  rw [medL_map_affine _ _ hl, add_zero]

lemma seqE_smul {n : ℕ} (hn : 0 < n) (t k : ℝ) (f : Fin n → List ℝ) (hf : ∀ i, (f i).length = n) :
    (seqE fun i => meanT t ((f i).map fun v => k * v + 0)) = (seqE fun i => meanT t (f i)).map fun g i => k * g i := by
  have hne : ∀ i, f i ≠ [] := fun i h => by have := hf i; rw [h] at this; simp at this; omega
  simp only [fun i => meanT_smul (t := t) (k := k) (hne i)]
  rcases meanT_len t n with h | ⟨e, h⟩
  · choose g hg using fun i => h (f i) (hf i)
    simp only [hg, Except.map, seqE_ok]
  · simp only [fun i => h (f i) (hf i), Except.map, seqE_const_error hn]

lemma doubleCenter_smul {n : ℕ} (hn : 0 < n) (c : Loc) (t : ℝ) (b : Bool) (k : ℝ) (a : Fin n → Fin n → ℝ) :
    doubleCenter c t b (fun i j => k * a i j) = (doubleCenter c t b a).map fun r => (fun i j => k * r.1 i j, r.2) := by
  cases c with
  | mean =>
    unfold doubleCenter
    simp only [flat_smul, ofFn_smul, meanT_smul (flat_ne_nil hn a), bind, Except.bind]
    rw [seqE_smul hn t k (fun j => List.ofFn fun i => a i j) (by simp), seqE_smul hn t k (fun i => List.ofFn fun j => a i j) (by simp)]
    cases meanT t (flat a) with
    | error e => rfl
    | ok mu =>
      simp only [Except.map]
      cases seqE fun j => meanT t (List.ofFn fun i => a i j) with
      | error e => rfl
      | ok rc =>
        simp only
        cases seqE fun i => meanT t (List.ofFn fun j => a i j) with
        | error e => rfl
        | ok rr =>
          simp only [Except.ok.injEq, Prod.mk.injEq, and_true]
          funext i j
          cases b
          · simp; ring
          · by_cases hij : i = j
            · simp [hij]
            · simp [hij]; ring
  | median =>
    unfold doubleCenter
    simp only [flat_smul, ofFn_smul, medL_smul (flat_ne_nil hn a), fun v : Fin n → ℝ => medL_smul (k := k) (ofFn_ne_nil hn v), Except.map,
      Except.ok.injEq, Prod.mk.injEq, and_true]
    funext i j
    cases b
    · simp; ring
    · by_cases hij : i = j
      · simp [hij]
      · simp [hij]; ring

lemma edist_smul {n p : ℕ} (r : ℝ) (x : Fin n → Fin p → ℝ) : edist (fun i j => r * x i j) = fun i j => |r| * edist x i j := by
  funext i j
  rw [edist_rowDist, edist_rowDist]
  exact rowDist_smul r (x i) (x j)

/-- The factor of a second order distance moment: its root for the mean, itself for the median. -/
noncomputable def scaleFac (c : Loc) (k : ℝ) : ℝ :=
  match c with
  | .mean => √k
  | .median => k

lemma distanceMoment_smul {n : ℕ} (hn : 0 < n) (same : Bool) (c : Loc) (t : ℝ) (b : Bool) (n1 : ℝ) (opt : ℕ) {k l : ℝ} (hk : 0 ≤ k)
    (hl : 0 ≤ l) (A B : Fin n → Fin n → ℝ) :
    distanceMoment same c t b n1 2 opt (fun i j => k * A i j) (fun i j => l * B i j) =
      (distanceMoment same c t b n1 2 opt A B).map fun r => (scaleFac c k * scaleFac c l * r.1, (fun i j => k * A i j), fun i j => l * B i j) := by
  rw [distanceMoment_two', distanceMoment_two']
  have e : (fun i j => k * A i j * (l * B i j)) = fun i j => (k * l) * (A i j * B i j) := by funext i j; ring
  rw [e, flat_smul]
  cases c with
  | mean =>
    simp only [meanT_smul (flat_ne_nil hn _), scaleFac]
    cases meanT t (flat fun i j => A i j * B i j) with
    | error e => rfl
    | ok m =>
      simp only [Except.map, Except.ok.injEq, Prod.mk.injEq, and_true]
      rw [mul_assoc (k * l), abs_mul, Real.sqrt_mul (abs_nonneg _), abs_of_nonneg (mul_nonneg hk hl), Real.sqrt_mul hk]
  | median =>
    simp only [medL_smul (flat_ne_nil hn _), scaleFac, Except.map]

/-- The distance correlation by the naive algorithm. -/
lemma run_dcorr_naive {n p q : ℕ} (hn : 0 < n) (c : Loc) (a : FitArgs) (hf : ¬ (a.fast = true ∧ c = .mean ∧ a.trimming = 0))
    (ho : a.order = 2) (hy : a.y1d = false) (x : Fin n → Fin p → ℝ) (y : Fin n → Fin q → ℝ) :
    run .distance .corr c a (dmat x) (dmat y) = (distMatCentered c a.trimming a.biascorr x).bind fun A =>
      (distanceMoment true c a.trimming a.biascorr A.2 2 0 A.1 A.1).bind fun xr =>
      (distMatCentered c a.trimming a.biascorr y).bind fun B =>
      (distanceMoment false c a.trimming a.biascorr n 2 0 A.1 B.1).bind fun co =>
      (distanceMoment true c a.trimming a.biascorr n 2 0 B.1 B.1).bind fun ym =>
      (sqrtE xr.1).bind fun sx => (sqrtE ym.1).map fun sy => co.1 / (sx * sy) := by
  have h2 : ∀ (same : Bool) (n1 : ℝ) (A B : Fin n → Fin n → ℝ) (r), distanceMoment same c a.trimming a.biascorr n1 2 0 A B = .ok r →
      r.2.1 = A ∧ r.2.2 = B := by
    intro same n1 A B r h
    rw [distanceMoment_two'] at h
    cases c with
    | mean =>
      simp only at h
      cases hm : meanT a.trimming (flat fun i j => A i j * B i j) with
      | error e => rw [hm] at h; cases h
      | ok v => rw [hm] at h; cases h; exact ⟨rfl, rfl⟩
    | median => cases h; exact ⟨rfl, rfl⟩
  refine (run_distance hn .corr c a x y ⟨by simp [modeTable], by simp [modeTable]⟩ rfl).trans ?_
  simp only [modeTable, ho]
  rw [if_neg (by tauto)]
  unfold naiveStage finalStage
  simp only [bind, Except.bind, reduceCtorEq, if_false, if_true, isCoMode, isStdMode, or_self, decide_false, Bool.false_eq_true, false_and,
    lt_irrefl, hy, getY_dmat hn, or_false]
  cases distMatCentered c a.trimming a.biascorr x with
  | error e => rfl
  | ok A =>
    simp only
    cases hx : distanceMoment true c a.trimming a.biascorr A.2 2 0 A.1 A.1 with
    | error e => rfl
    | ok xr =>
      simp only [(h2 _ _ _ _ _ hx).1]
      cases distMatCentered c a.trimming a.biascorr y with
      | error e => rfl
      | ok B =>
        simp only
        cases hc : distanceMoment false c a.trimming a.biascorr n 2 0 A.1 B.1 with
        | error e => rfl
        | ok co =>
          simp only [(h2 _ _ _ _ _ hc).2]
          cases distanceMoment true c a.trimming a.biascorr n 2 0 B.1 B.1 with
          | error e => rfl
          | ok ym =>
            simp only
            cases sqrtE xr.1 with
            | error e => rfl
            | ok sx =>
              simp only
              cases sqrtE ym.1 <;> rfl

/-- The fast algorithm: covariance, variance and correlation. -/
lemma run_fast {n p q : ℕ} (hn : 0 < n) (a : FitArgs) (hf : a.fast = true ∧ a.trimming = 0) (x : Fin n → Fin p → ℝ)
    (y : Fin n → Fin q → ℝ) :
    run .distance .cov .mean a (dmat x) (dmat y) = sqrtE (if a.biascorr then udcovSqr x y else dcovSqr x y) ∧
    run .distance .var .mean a (dmat x) (dmat y) = sqrtE (if a.biascorr then udcovSqr x x else dcovSqr x x) ∧
    (a.order = 2 → run .distance .corr .mean a (dmat x) (dmat y) =
      (sqrtE (if a.biascorr then udcovSqr x x else dcovSqr x x)).bind fun xm =>
      (sqrtE (if a.biascorr then udcovSqr x y else dcovSqr x y)).bind fun co =>
      (sqrtE (if a.biascorr then udcovSqr y y else dcovSqr y y)).bind fun ym =>
      (sqrtE xm).bind fun sx => (sqrtE ym).map fun sy => co / (sx * sy)) := by
  refine ⟨?_, ?_, fun ho => ?_⟩
  · refine (run_distance hn .cov .mean a x y ⟨by simp [modeTable], by simp [modeTable]⟩ rfl).trans ?_
    simp only [modeTable, hf.1, hf.2, and_self, if_true]
    unfold fastStage finalStage
    simp only [bind, Except.bind, reduceCtorEq, if_false, if_true, isCoMode, or_self, decide_false, Bool.false_eq_true, false_and,
      getY_dmat hn]
    cases sqrtE (if a.biascorr = true then udcovSqr x y else dcovSqr x y) <;> rfl
  · refine (run_distance hn .var .mean a x y ⟨by simp [modeTable], by simp [modeTable]⟩ rfl).trans ?_
    simp only [modeTable, hf.1, hf.2, and_self, if_true]
    unfold fastStage finalStage
    simp only [bind, Except.bind, reduceCtorEq, if_false, if_true, isCoMode, or_self, decide_false, Bool.false_eq_true, false_and]
    cases sqrtE (if a.biascorr = true then udcovSqr x x else dcovSqr x x) <;> rfl
  · refine (run_distance hn .corr .mean a x y ⟨by simp [modeTable], by simp [modeTable]⟩ rfl).trans ?_
    simp only [modeTable, hf.1, hf.2, ho, and_self, if_true]
    unfold fastStage finalStage
    simp only [bind, Except.bind, reduceCtorEq, if_false, if_true, isCoMode, or_self, decide_false, Bool.false_eq_true, false_and,
      getY_dmat hn]
    cases sqrtE (if a.biascorr = true then udcovSqr x x else dcovSqr x x) with
    | error e => rfl
    | ok xm =>
      simp only
      cases sqrtE (if a.biascorr = true then udcovSqr x y else dcovSqr x y) with
      | error e => rfl
      | ok co =>
        simp only
        cases sqrtE (if a.biascorr = true then udcovSqr y y else dcovSqr y y) with
        | error e => rfl
        | ok ym =>
          simp only
          cases sqrtE xm with
          | error e => rfl
          | ok sx =>
            simp only
            cases sqrtE ym <;> rfl

lemma sqrtE_mul {k : ℝ} (hk : 0 < k) (v : ℝ) : sqrtE (k * v) = (sqrtE v).map fun w => √k * w := by
  unfold sqrtE
  by_cases h : v < 0
  · rw [if_pos h, if_pos (mul_neg_of_pos_of_neg hk h)]; rfl
  · rw [if_neg h, if_neg (not_lt.mpr (mul_nonneg hk.le (not_lt.mp h))), Real.sqrt_mul hk.le]; rfl

lemma fastSq_smul {n p q : ℕ} (b : Bool) (r s : ℝ) (x : Fin n → Fin p → ℝ) (y : Fin n → Fin q → ℝ) :
    (if b then udcovSqr (fun i j => r * x i j) (fun i j => s * y i j) else dcovSqr (fun i j => r * x i j) fun i j => s * y i j) =
      |r| * |s| * (if b then udcovSqr x y else dcovSqr x y) := by
  cases b with
  | false =>
    simp only [Bool.false_eq_true, if_false]
    rw [dcovSqr_eq, dcovSqr_eq, dcov2_smul]
  | true =>
    simp only [if_true]
    unfold udcovSqr
    simp only [edist_smul, ← Finset.mul_sum]
    rw [← mul_div_assoc]
    congr 1
    simp only [Finset.mul_sum (Finset.univ : Finset (Fin n)) _ (|r| * |s|)]
    refine Finset.sum_congr rfl fun i _ => ?_
    refine Finset.sum_congr rfl fun j _ => ?_
    split_ifs <;> ring

lemma scaleFac_pos {c : Loc} {k : ℝ} (hk : 0 < k) : 0 < scaleFac c k := by
  cases c
  · exact Real.sqrt_pos.mpr hk
  · exact hk

lemma scale_any {n p q : ℕ} (hn : 0 < n) (c : Loc) (a : FitArgs) (hy : a.y1d = false) (x : Fin n → Fin p → ℝ)
    (y : Fin n → Fin q → ℝ) {r s : ℝ} (hr : r ≠ 0) (hs : s ≠ 0) :
    run .distance .cov c a (dmat fun i j => r * x i j) (dmat fun i j => s * y i j) =
      (run .distance .cov c a (dmat x) (dmat y)).map (fun v => scaleFac c |r| * scaleFac c |s| * v) ∧
    run .distance .var c a (dmat fun i j => r * x i j) (dmat fun i j => s * y i j) =
      (run .distance .var c a (dmat x) (dmat y)).map (fun v => scaleFac c |r| * scaleFac c |r| * v) ∧
    (a.order = 2 → run .distance .corr c a (dmat fun i j => r * x i j) (dmat fun i j => s * y i j) =
      run .distance .corr c a (dmat x) (dmat y)) := by
  have hr' := abs_pos.mpr hr
  have hs' := abs_pos.mpr hs
  have key : ∀ u v w : ℝ, scaleFac c |r| * scaleFac c |s| * u / (√(scaleFac c |r| * scaleFac c |r|) * v * (√(scaleFac c |s| * scaleFac c |s|) * w)) =
      u / (v * w) := fun u v w => by
    have h1 := scaleFac_pos (c := c) hr'
    have h2 := scaleFac_pos (c := c) hs'
    rw [Real.sqrt_mul_self h1.le, Real.sqrt_mul_self h2.le,
      show scaleFac c |r| * v * (scaleFac c |s| * w) = scaleFac c |r| * scaleFac c |s| * (v * w) by ring, mul_div_mul_left _ _ (by positivity)]
  have hpr : 0 < scaleFac c |r| * scaleFac c |r| := mul_pos (scaleFac_pos hr') (scaleFac_pos hr')
  have hps : 0 < scaleFac c |s| * scaleFac c |s| := mul_pos (scaleFac_pos hs') (scaleFac_pos hs')
  by_cases hf : a.fast = true ∧ c = .mean ∧ a.trimming = 0
  · obtain ⟨h1, rfl, h3⟩ := hf
    obtain ⟨c1, v1, k1⟩ := run_fast hn a ⟨h1, h3⟩ x y
    obtain ⟨c2, v2, k2⟩ := run_fast hn a ⟨h1, h3⟩ (fun i j => r * x i j) fun i j => s * y i j
    rw [fastSq_smul, sqrtE_mul (mul_pos hr' hs')] at c2
    rw [fastSq_smul, sqrtE_mul (mul_pos hr' hr')] at v2
    refine ⟨?_, ?_, fun ho => ?_⟩
    · rw [c1, c2]; simp only [scaleFac, Real.sqrt_mul hr'.le]
    · rw [v1, v2]; simp only [scaleFac, Real.sqrt_mul hr'.le]
    · rw [k1 ho, k2 ho, fastSq_smul, fastSq_smul, fastSq_smul, sqrtE_mul (mul_pos hr' hr'), sqrtE_mul (mul_pos hr' hs'),
        sqrtE_mul (mul_pos hs' hs')]
      cases sqrtE (if a.biascorr = true then udcovSqr x x else dcovSqr x x) with
      | error e => rfl
      | ok xm =>
        simp only [Except.map, Except.bind]
        cases sqrtE (if a.biascorr = true then udcovSqr x y else dcovSqr x y) with
        | error e => rfl
        | ok co =>
          simp only
          cases sqrtE (if a.biascorr = true then udcovSqr y y else dcovSqr y y) with
          | error e => rfl
          | ok ym =>
            simp only [Real.sqrt_mul hr'.le, Real.sqrt_mul hs'.le]
            simp only [scaleFac] at hpr hps key
            rw [sqrtE_mul hpr, sqrtE_mul hps]
            cases sqrtE xm with
            | error e => rfl
            | ok sx =>
              simp only [Except.map]
              cases sqrtE ym with
              | error e => rfl
              | ok sy => simp only [key]
  · have hx : distMatCentered c a.trimming a.biascorr (fun i j => r * x i j) =
        (distMatCentered c a.trimming a.biascorr x).map fun A => (fun i j => |r| * A.1 i j, A.2) := by
      unfold distMatCentered
      rw [edist_smul, doubleCenter_smul hn]
    have hy' : distMatCentered c a.trimming a.biascorr (fun i j => s * y i j) =
        (distMatCentered c a.trimming a.biascorr y).map fun A => (fun i j => |s| * A.1 i j, A.2) := by
      unfold distMatCentered
      rw [edist_smul, doubleCenter_smul hn]
    refine ⟨?_, ?_, fun ho => ?_⟩
    · rw [run_dcov_naive hn c a hf hy, run_dcov_naive hn c a hf hy, hx, hy']
      cases distMatCentered c a.trimming a.biascorr x with
      | error e => rfl
      | ok A =>
        simp only [Except.map, Except.bind]
        cases distMatCentered c a.trimming a.biascorr y with
        | error e => rfl
        | ok B =>
          simp only
          rw [distanceMoment_smul hn _ _ _ _ _ _ hr'.le hs'.le]
          cases distanceMoment false c a.trimming a.biascorr n 2 0 A.1 B.1 <;> rfl
    · rw [run_dvar_naive hn c a hf, run_dvar_naive hn c a hf, hx]
      cases distMatCentered c a.trimming a.biascorr x with
      | error e => rfl
      | ok A =>
        simp only [Except.map, Except.bind]
        rw [distanceMoment_smul hn _ _ _ _ _ _ hr'.le hr'.le]
        cases distanceMoment true c a.trimming a.biascorr A.2 2 0 A.1 A.1 <;> rfl
    · rw [run_dcorr_naive hn c a hf ho hy, run_dcorr_naive hn c a hf ho hy, hx, hy']
      cases distMatCentered c a.trimming a.biascorr x with
      | error e => rfl
      | ok A =>
        simp only [Except.map, Except.bind]
        rw [distanceMoment_smul hn _ _ _ _ _ _ hr'.le hr'.le]
        cases distanceMoment true c a.trimming a.biascorr A.2 2 0 A.1 A.1 with
        | error e => rfl
        | ok xr =>
          simp only [Except.map]
          cases distMatCentered c a.trimming a.biascorr y with
          | error e => rfl
          | ok B =>
            simp only
            rw [distanceMoment_smul hn _ _ _ _ _ _ hr'.le hs'.le, distanceMoment_smul hn _ _ _ _ _ _ hs'.le hs'.le]
            cases distanceMoment false c a.trimming a.biascorr n 2 0 A.1 B.1 with
            | error e => rfl
            | ok co =>
              simp only [Except.map]
              cases distanceMoment true c a.trimming a.biascorr n 2 0 B.1 B.1 with
              | error e => rfl
              | ok ym =>
                simp only
                rw [sqrtE_mul hpr, sqrtE_mul hps]
                cases sqrtE xr.1 with
                | error e => rfl
                | ok sx =>
                  simp only [Except.map]
                  cases sqrtE ym.1 with
                  | error e => rfl
                  | ok sy => simp only [key]

/-- C35: with the mean as centre, multiplying the data by `r` and `s` multiplies distance covariance by `√|r| √|s|` and distance variance
by `|r|`, and leaves distance correlation alone, by either algorithm and with any trimming and bias correction. -/
theorem C35_scale_mean_any {n p q : ℕ} (hn : 0 < n) (a : FitArgs) (hy : a.y1d = false) (x : Fin n → Fin p → ℝ) (y : Fin n → Fin q → ℝ)
    {r s : ℝ} (hr : r ≠ 0) (hs : s ≠ 0) :
    run .distance .cov .mean a (dmat fun i j => r * x i j) (dmat fun i j => s * y i j) =
      (run .distance .cov .mean a (dmat x) (dmat y)).map (fun v => √|r| * √|s| * v) ∧
    run .distance .var .mean a (dmat fun i j => r * x i j) (dmat fun i j => s * y i j) =
      (run .distance .var .mean a (dmat x) (dmat y)).map (fun v => |r| * v) ∧
    (a.order = 2 → run .distance .corr .mean a (dmat fun i j => r * x i j) (dmat fun i j => s * y i j) =
      run .distance .corr .mean a (dmat x) (dmat y)) := by
  obtain ⟨h1, h2, h3⟩ := scale_any hn .mean a hy x y hr hs
  refine ⟨h1, ?_, h3⟩
  rw [h2]
  simp only [scaleFac, Real.mul_self_sqrt (abs_nonneg r)]

/-- C35: with the median as centre no root is taken: distance covariance is multiplied by `|r| |s|` and distance variance by `r²`;
distance correlation is unchanged. -/
theorem C35_scale_median_any {n p q : ℕ} (hn : 0 < n) (a : FitArgs) (hy : a.y1d = false) (x : Fin n → Fin p → ℝ) (y : Fin n → Fin q → ℝ)
    {r s : ℝ} (hr : r ≠ 0) (hs : s ≠ 0) :
    run .distance .cov .median a (dmat fun i j => r * x i j) (dmat fun i j => s * y i j) =
      (run .distance .cov .median a (dmat x) (dmat y)).map (fun v => |r| * |s| * v) ∧
    run .distance .var .median a (dmat fun i j => r * x i j) (dmat fun i j => s * y i j) =
      (run .distance .var .median a (dmat x) (dmat y)).map (fun v => r ^ 2 * v) ∧
    (a.order = 2 → run .distance .corr .median a (dmat fun i j => r * x i j) (dmat fun i j => s * y i j) =
      run .distance .corr .median a (dmat x) (dmat y)) := by
  obtain ⟨h1, h2, h3⟩ := scale_any hn .median a hy x y hr hs
  refine ⟨h1, ?_, h3⟩
  rw [h2]
  simp only [scaleFac, abs_mul_abs_self, pow_two]

end Direpack
