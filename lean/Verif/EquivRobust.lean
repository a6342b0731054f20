import Verif.EquivLemmas
import Verif.RMLemmas
import Verif.Spec.LeastSquares

/-!
The reweighting loop, starting weights and residual scales of RM and SPRM under changes of units and of order.
-/

namespace Direpack

open scoped BigOperators
open Spec

variable {n p : ℕ}

/-! ### The reweighting loop -/

/-- Two outcomes of the reweighting loop that agree up to the order of the cases. -/
def RwRel {β β' : Type} (R : β → β' → Prop) (σ : Equiv.Perm (Fin n)) : Option (RwOut β n) → Option (RwOut β' n) → Prop
  | none, none => True
  | some o, some o' => R o.b o'.b ∧ (o'.we = fun i => o.we (σ i)) ∧ (o'.wye = fun i => o.wye (σ i)) ∧
      (o'.wte = fun i => o.wte (σ i)) ∧ (∀ i, i ∈ o'.w0 ↔ σ i ∈ o.w0) ∧ o'.fits = o.fits
  | _, _ => False

open Classical in
theorem rwLoop_rel {β β' : Type} (R : β → β' → Prop) (σ : Equiv.Perm (Fin n))
    {step : (Fin n → ℝ) → Except Err (β × ℝ × (Fin n → ℝ) × (Fin n → ℝ))}
    {step' : (Fin n → ℝ) → Except Err (β' × ℝ × (Fin n → ℝ) × (Fin n → ℝ))}
    (hstep : ∀ we b s wy wt, (∀ i, wMin ≤ we i) → step we = .ok (b, s, wy, wt) → ∃ b', R b b' ∧
      step' (fun i => we (σ i)) = .ok (b', s, (fun i => wy (σ i)), fun i => wt (σ i))) (tol : ℝ) (maxit : ℤ) :
    ∀ (fuel : ℕ) (loops : ℤ) (rold : ℝ) (go : Prop) (we : Fin n → ℝ) (out : Option (RwOut β n)) (out' : Option (RwOut β' n))
      (res : Option (RwOut β n)), (∀ i, wMin ≤ we i) → RwRel R σ out out' → rwLoop step tol maxit fuel loops rold go we out = some (.ok res) →
      ∃ res', rwLoop step' tol maxit fuel loops rold go (fun i => we (σ i)) out' = some (.ok res') ∧ RwRel R σ res res' := by
  intro fuel
  induction fuel with
  | zero => intro loops rold go we out out' res _ _ h; simp [rwLoop] at h
  | succ fuel ih =>
    intro loops rold go we out out' res hwe hrel h
    rw [rwLoop] at h ⊢
    by_cases hg : go ∧ loops < maxit
    · rw [if_pos hg] at h ⊢
      cases hs : step we with
      | error e => rw [hs] at h; simp at h
      | ok r =>
        obtain ⟨b, s, wy, wt⟩ := r
        obtain ⟨b', hb, hs'⟩ := hstep we b s wy wt hwe hs
        rw [hs] at h
        rw [hs']
        simp only at h ⊢
        have hcard : (Finset.univ.filter fun i => wy (σ i) * wt (σ i) < wMin).card = (Finset.univ.filter fun i => wy i * wt i < wMin).card := by
          refine Finset.card_bij (fun i _ => σ i) ?_ ?_ ?_
          · intro i hi; simpa using hi
          · intro i _ k _ e; exact σ.injective e
          · intro i hi
            refine ⟨σ.symm i, ?_, σ.apply_symm_apply i⟩
            simpa using hi
        have hfits : (out'.elim 0 fun o => o.fits) = out.elim 0 fun o => o.fits := by
          cases out <;> cases out' <;> simp_all [RwRel]
        have hrel' : RwRel R σ (some ⟨b, fun i => if wy i * wt i < wMin then wMin else wy i * wt i, wy, wt,
            Finset.univ.filter fun i => wy i * wt i < wMin, (out.elim 0 fun o => o.fits) + 1⟩)
            (some ⟨b', fun i => if wy (σ i) * wt (σ i) < wMin then wMin else wy (σ i) * wt (σ i), fun i => wy (σ i), fun i => wt (σ i),
            Finset.univ.filter fun i => wy (σ i) * wt (σ i) < wMin, (out'.elim 0 fun o => o.fits) + 1⟩) := by
          refine ⟨hb, rfl, rfl, rfl, fun i => by simp, by rw [hfits]⟩
        rw [hcard]
        by_cases hn : (n : ℝ) / 2 ≤ ((Finset.univ.filter fun i => wy i * wt i < wMin).card : ℝ)
        · rw [if_pos hn] at h ⊢
          simp only [Option.some.injEq, Except.ok.injEq] at h
          exact ⟨_, rfl, by rw [← h]; exact hrel'⟩
        · rw [if_neg hn] at h ⊢
          exact ih _ _ _ (fun i => if wy i * wt i < wMin then wMin else wy i * wt i) _ _ _
            (fun i => clip_ge (fun i => wy i * wt i) i) hrel' h
    · rw [if_neg hg] at h ⊢
      simp only [Option.some.injEq, Except.ok.injEq] at h
      exact ⟨_, rfl, by rw [← h]; exact hrel⟩

/-! ### Weights, distances, residual scale -/

theorem WFun.run_perm (f : WFun) (x : Fin n → ℝ) (σ : Equiv.Perm (Fin n)) (c : ℝ × ℝ × ℝ) :
    f.run (fun i => x (σ i)) c = fun i => f.run x c (σ i) := by
  cases f <;> rfl

theorem clipW_perm (w : Fin n → ℝ) (σ : Equiv.Perm (Fin n)) : clipW (fun i => w (σ i)) = fun i => clipW w (σ i) := rfl

theorem rowDistances_rel {q : ℕ} (σ : Equiv.Perm (Fin n)) (τ : Fin q ≃ Fin p) {X : Fin n → Fin p → ℝ} {X' : Fin n → Fin q → ℝ}
    (hX : ∀ i j, |X' i j| = |X (σ i) (τ j)|) {d : Fin n → ℝ} (h : rowDistances X = .ok d) :
    rowDistances X' = .ok fun i => d (σ i) := by
  have e : (fun i => Real.sqrt (∑ j, X' i j ^ 2)) = fun i => (fun i => Real.sqrt (∑ j, X i j ^ 2)) (σ i) := by
    funext i
    simp only
    rw [← Equiv.sum_comp τ (fun j => X (σ i) j ^ 2)]
    congr 1
    exact Finset.sum_congr rfl fun j _ => by rw [← sq_abs, hX, sq_abs]
  unfold rowDistances at h ⊢
  simp only at h ⊢
  have hi : ∀ i, Real.sqrt (∑ j, X' i j ^ 2) = Real.sqrt (∑ j, X (σ i) j ^ 2) := fun i => congrFun e i
  have hm' : (med fun i => Real.sqrt (∑ j, X (σ i) j ^ 2)) = med fun i => Real.sqrt (∑ j, X i j ^ 2) :=
    C05_median_perm σ fun i => Real.sqrt (∑ j, X i j ^ 2)
  simp only [hi, hm']
  split at h
  · cases h
  · rename_i hm
    rw [if_neg hm]
    simp only [Except.ok.injEq] at h ⊢
    rw [← h]

theorem ofFn_perm {α : Type} (r : Fin n → α) (σ : Equiv.Perm (Fin n)) : (List.ofFn fun i => r (σ i)).Perm (List.ofFn r) :=
  σ.ofFn_comp_perm r

open Classical in
theorem scaleRes_rel (σ : Equiv.Perm (Fin n)) {e : ℝ} (he : e = 1 ∨ e = -1) {r d : Fin n → ℝ} (h : scaleRes r = .ok d) :
    scaleRes (fun i => e * r (σ i)) = .ok fun i => d (σ i) := by
  have habs : ∀ v : ℝ, |e * v| = |v| := fun v => by rw [abs_mul]; rcases he with rfl | rfl <;> simp
  have hz : ∀ v : ℝ, e * v = 0 ↔ v = 0 := fun v => by rcases he with rfl | rfl <;> simp
  have hcard : (Finset.univ.filter fun i => r (σ i) = 0).card = (Finset.univ.filter fun i => r i = 0).card := by
    refine Finset.card_bij (fun i _ => σ i) ?_ ?_ ?_
    · intro i hi; simpa using hi
    · intro i _ k _ e; exact σ.injective e
    · intro i hi
      refine ⟨σ.symm i, ?_, σ.apply_symm_apply i⟩
      simpa using hi
  have hnz : ((((List.ofFn fun i => e * r (σ i)).filter fun v => v ≠ 0).map fun v => |v|)).Perm
      (((List.ofFn r).filter fun v => v ≠ 0).map fun v => |v|) := by
    have e1 : (List.ofFn fun i => e * r (σ i)) = (List.ofFn fun i => r (σ i)).map fun v => e * v := by
      rw [List.map_ofFn]; rfl
    rw [e1, List.filter_map, List.map_map]
    have e2 : ((fun v : ℝ => |v|) ∘ fun v => e * v) = fun v => |v| := by funext v; exact habs v
    have e3 : (((fun v : ℝ => decide (v ≠ 0)) ∘ fun v => e * v)) = fun v => decide (v ≠ 0) := by
      funext v; simp only [Function.comp, ne_eq, hz]
    rw [e2, e3]
    exact ((ofFn_perm r σ).filter _).map _
  unfold scaleRes at h ⊢
  simp only [habs, hz, hcard] at h ⊢
  rw [C05_median_perm σ (fun k => |r k|)]
  split at h
  · rename_i hc
    rw [if_pos hc]
    simp only [Except.ok.injEq] at h ⊢
    rw [← h]
  · rename_i hc
    rw [if_neg hc]
    rw [medL_congr hnz]
    split at h
    · cases h
    · rename_i hne
      rw [if_neg (fun h0 => hne (by rw [h0] at hnz; exact List.Perm.nil_eq hnz ▸ rfl))]
      simp only [Except.ok.injEq] at h ⊢
      rw [← h]

/-! ### Uniqueness of the shortest least squares solution -/

theorem rss_mid (A : Fin n → Fin p → ℝ) (y : Fin n → ℝ) (b c : Fin p → ℝ) :
    rss A y (fun j => (b j + c j) / 2) ≤ (rss A y b + rss A y c) / 2 := by
  unfold rss
  rw [← Finset.sum_add_distrib, Finset.sum_div]
  refine Finset.sum_le_sum fun i _ => ?_
  have e : ∑ j, A i j * ((b j + c j) / 2) = (∑ j, A i j * b j + ∑ j, A i j * c j) / 2 := by
    rw [← Finset.sum_add_distrib, Finset.sum_div]
    exact Finset.sum_congr rfl fun j _ => by ring
  rw [e]
  nlinarith [sq_nonneg ((y i - ∑ j, A i j * b j) - (y i - ∑ j, A i j * c j))]

theorem IsMinNormLS.unique {A : Fin n → Fin p → ℝ} {y : Fin n → ℝ} {b c : Fin p → ℝ} (hb : IsMinNormLS A y b) (hc : IsMinNormLS A y c) :
    b = c := by
  have hm : ∀ b'', rss A y (fun j => (b j + c j) / 2) ≤ rss A y b'' := by
    intro b''
    have := rss_mid A y b c
    have h1 := hb.1 b''
    have h2 := hc.1 b''
    linarith
  have h1 := hb.2 _ hm
  have h2 := hc.2 _ hm
  have h3 : ∑ j, ((b j + c j) / 2) ^ 2 = (∑ j, b j ^ 2 + ∑ j, c j ^ 2) / 2 - (∑ j, (b j - c j) ^ 2) / 4 := by
    rw [← Finset.sum_add_distrib, Finset.sum_div, Finset.sum_div, ← Finset.sum_sub_distrib]
    exact Finset.sum_congr rfl fun j _ => by ring
  have h4 : ∑ j, (b j - c j) ^ 2 ≤ 0 := by linarith
  have h5 := (Finset.sum_eq_zero_iff_of_nonneg (fun j _ => sq_nonneg (b j - c j))).1 (le_antisymm h4 (Finset.sum_nonneg fun j _ => sq_nonneg _))
  funext j
  have := h5 j (Finset.mem_univ j)
  have := pow_eq_zero_iff (two_ne_zero) |>.1 this
  linarith

theorem rss_rel (σ : Equiv.Perm (Fin n)) (τ : Equiv.Perm (Fin p)) (D : Fin p → ℝ) (hD : ∀ j, D j = 1 ∨ D j = -1) {e : ℝ} (he : e = 1 ∨ e = -1)
    (A : Fin n → Fin p → ℝ) (y : Fin n → ℝ) (b : Fin p → ℝ) :
    rss (fun i j => D j * A (σ i) (τ j)) (fun i => e * y (σ i)) (fun j => e * D j * b (τ j)) = rss A y b := by
  have hDD : ∀ j, D j * D j = 1 := fun j => by rcases hD j with h | h <;> rw [h] <;> norm_num
  have hee : e * e = 1 := by rcases he with rfl | rfl <;> norm_num
  unfold rss
  rw [← Equiv.sum_comp σ (fun i => (y i - ∑ j, A i j * b j) ^ 2)]
  refine Finset.sum_congr rfl fun i _ => ?_
  have e1 : ∑ j, D j * A (σ i) (τ j) * (e * D j * b (τ j)) = e * ∑ j, A (σ i) j * b j := by
    rw [← Equiv.sum_comp τ (fun j => A (σ i) j * b j), Finset.mul_sum]
    refine Finset.sum_congr rfl fun j _ => ?_
    calc _ = (D j * D j) * (e * (A (σ i) (τ j) * b (τ j))) := by ring
      _ = _ := by rw [hDD, one_mul]
  rw [e1]
  calc _ = (e * e) * (y (σ i) - ∑ j, A (σ i) j * b j) ^ 2 := by ring
    _ = _ := by rw [hee, one_mul]

/-- A solver that returns the shortest least squares solution follows signs and order of the variables and cases. -/
theorem lstsq_rel {ls : (Fin n → Fin p → ℝ) → (Fin n → ℝ) → Fin p → ℝ} (hls : ∀ A y, IsMinNormLS A y (ls A y))
    (σ : Equiv.Perm (Fin n)) (τ : Equiv.Perm (Fin p)) (D : Fin p → ℝ) (hD : ∀ j, D j = 1 ∨ D j = -1) {e : ℝ} (he : e = 1 ∨ e = -1)
    (A : Fin n → Fin p → ℝ) (y : Fin n → ℝ) :
    ls (fun i j => D j * A (σ i) (τ j)) (fun i => e * y (σ i)) = fun j => e * D j * ls A y (τ j) := by
  have hDD : ∀ j, D j * D j = 1 := fun j => by rcases hD j with h | h <;> rw [h] <;> norm_num
  have hee : e * e = 1 := by rcases he with rfl | rfl <;> norm_num
  have hsurj : ∀ c : Fin p → ℝ, ∃ b : Fin p → ℝ, c = fun j => e * D j * b (τ j) := by
    intro c
    refine ⟨fun k => e * D (τ.symm k) * c (τ.symm k), ?_⟩
    funext j
    simp only [Equiv.symm_apply_apply]
    calc c j = (e * e) * (D j * D j) * c j := by rw [hee, hDD]; ring
      _ = _ := by ring
  have hnorm : ∀ b : Fin p → ℝ, ∑ j, (e * D j * b (τ j)) ^ 2 = ∑ j, b j ^ 2 := by
    intro b
    rw [← Equiv.sum_comp τ (fun j => b j ^ 2)]
    refine Finset.sum_congr rfl fun j _ => ?_
    calc _ = (e * e) * (D j * D j) * b (τ j) ^ 2 := by ring
      _ = _ := by rw [hee, hDD]; ring
  refine IsMinNormLS.unique (hls _ _) ⟨?_, ?_⟩
  · intro b'
    obtain ⟨b, rfl⟩ := hsurj b'
    rw [rss_rel σ τ D hD he, rss_rel σ τ D hD he]
    exact (hls A y).1 _
  · intro b' hb'
    obtain ⟨b, rfl⟩ := hsurj b'
    rw [hnorm, hnorm]
    refine (hls A y).2 _ fun b'' => ?_
    have := hb' (fun j => e * D j * b'' (τ j))
    rwa [rss_rel σ τ D hD he, rss_rel σ τ D hD he] at this

end Direpack
