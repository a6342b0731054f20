import Verif.Spec.ReweightRun
import Verif.Props.RM
import Verif.Props.SPRM
import Verif.Props.RMExample
import Verif.Props.SPRMExample

/-! C128: the complete run of the reweighting loop of RM and SPRM, and the reasons for which it ends. -/

namespace Direpack

open scoped BigOperators
open Spec

variable {n p : ℕ}

lemma clipW_eq_raised (w : Fin n → ℝ) : clipW w = raised w := by
  funext i
  unfold clipW raised wMin
  split
  · rename_i h; rw [max_eq_right h.le]
  · rename_i h; rw [max_eq_left (not_lt.mp h)]

lemma half_iff (w : Fin n → ℝ) :
    (n : ℝ) / 2 ≤ ((Finset.univ.filter fun i => w i < wMin).card : ℝ) ↔ mostlyDiscarded w := by
  unfold mostlyDiscarded
  have hc : Fintype.card {i // w i < 1 / 1000000} = (Finset.univ.filter fun i => w i < wMin).card := by
    rw [Fintype.card_subtype]
    rfl
  rw [hc, div_le_iff₀ (by norm_num : (0 : ℝ) < 2), ← Nat.cast_two, ← Nat.cast_mul, Nat.cast_le, mul_comm]

lemma diffExceeds_iff (tol b r : ℝ) (hr : 0 ≤ r) : diffExceeds tol b r ↔ ¬ |b - r| ≤ tol * r := by
  unfold diffExceeds
  split
  · rename_i h; simp [h]
  · rename_i h
    have : 0 < r := lt_of_le_of_ne hr (Ne.symm h)
    rw [lt_div_iff₀ this, not_le]

/-- Size before fit `k`, from an arbitrary starting value. -/
def sizeFrom (r0 : ℝ) (size : ℕ → ℝ) : ℕ → ℝ
  | 0 => r0
  | k + 1 => size k

/-- A sequence with one more term in front. -/
def consSeq {α : Type} (a : α) (s : ℕ → α) : ℕ → α
  | 0 => a
  | k + 1 => s k

lemma rwLoop_run {β : Type} (step : (Fin n → ℝ) → Except Err (β × ℝ × (Fin n → ℝ) × (Fin n → ℝ))) (tol : ℝ)
    (maxit : ℤ) (fuel : ℕ) : ∀ (loops : ℤ) (rold : ℝ) (go : Prop) (we : Fin n → ℝ) (out : Option (RwOut β n))
      (o : RwOut β n), go → loops < maxit →
      rwLoop step tol maxit fuel loops rold go we out = some (.ok (some o)) →
      ∃ (K : ℕ) (W : ℕ → Fin n → ℝ) (b : ℕ → β) (s : ℕ → ℝ) (wy wt : ℕ → Fin n → ℝ),
        1 ≤ K ∧ loops + K ≤ maxit ∧ W 0 = we ∧
        (∀ k, k < K → step (W k) = .ok (b k, s k, wy k, wt k)) ∧
        (∀ k, k + 1 < K → W (k + 1) = raised (fun i => wy k i * wt k i)) ∧
        (∀ k, k + 1 < K → ¬ mostlyDiscarded (fun i => wy k i * wt k i) ∧ diffExceeds tol (s k) (sizeFrom rold s k)) ∧
        (loops + K = maxit ∨ mostlyDiscarded (fun i => wy (K - 1) i * wt (K - 1) i) ∨
          ¬ diffExceeds tol (s (K - 1)) (sizeFrom rold s (K - 1))) ∧
        o.b = b (K - 1) ∧ o.wye = wy (K - 1) ∧ o.wte = wt (K - 1) ∧ o.fits = fitsOf out + K := by
  induction fuel with
  | zero => intro loops rold go we out o _ _ h; simp [rwLoop] at h
  | succ fuel ih =>
    intro loops rold go we out o hgo hlt h
    rw [rwLoop, if_pos ⟨hgo, hlt⟩] at h
    cases hs : step we with
    | error e => rw [hs] at h; simp at h
    | ok t =>
      obtain ⟨b1, s1, y1, t1⟩ := t
      rw [hs] at h
      simp only at h
      have single : (loops + 1 = maxit ∨ mostlyDiscarded (fun i => y1 i * t1 i) ∨ ¬ diffExceeds tol s1 rold) →
          o.b = b1 → o.wye = y1 → o.wte = t1 → o.fits = fitsOf out + 1 → _ :=
        fun hstop hb hy ht hf => (⟨1, fun _ => we, fun _ => b1, fun _ => s1, fun _ => y1, fun _ => t1, le_rfl,
          by push_cast; omega, rfl, fun k _ => hs, fun k hk => by omega, fun k hk => by omega,
          by simpa [sizeFrom] using hstop, hb, hy, ht, hf⟩ :
          ∃ (K : ℕ) (W : ℕ → Fin n → ℝ) (b : ℕ → β) (s : ℕ → ℝ) (wy wt : ℕ → Fin n → ℝ),
        1 ≤ K ∧ loops + K ≤ maxit ∧ W 0 = we ∧
        (∀ k, k < K → step (W k) = .ok (b k, s k, wy k, wt k)) ∧
        (∀ k, k + 1 < K → W (k + 1) = raised (fun i => wy k i * wt k i)) ∧
        (∀ k, k + 1 < K → ¬ mostlyDiscarded (fun i => wy k i * wt k i) ∧ diffExceeds tol (s k) (sizeFrom rold s k)) ∧
        (loops + K = maxit ∨ mostlyDiscarded (fun i => wy (K - 1) i * wt (K - 1) i) ∨
          ¬ diffExceeds tol (s (K - 1)) (sizeFrom rold s (K - 1))) ∧
        o.b = b (K - 1) ∧ o.wye = wy (K - 1) ∧ o.wte = wt (K - 1) ∧ o.fits = fitsOf out + K)
      split at h
      · rename_i hhalf
        simp only [Option.some.injEq, Except.ok.injEq] at h
        subst h
        exact single (Or.inr (Or.inl ((half_iff _).mp hhalf))) rfl rfl rfl rfl
      · rename_i hhalf
        by_cases hgo' : diffExceeds tol s1 rold ∧ loops + 1 < maxit
        · obtain ⟨K, W, b, s, wy, wt, hK, hle, hW0, hst, hn, hg, hstop, hb, hy, ht, hf⟩ :=
            ih _ _ _ _ _ _ hgo'.1 hgo'.2 h
          obtain ⟨K, rfl⟩ : ∃ j, K = j + 1 := ⟨K - 1, by omega⟩
          refine ⟨K + 1 + 1, consSeq we W, consSeq b1 b, consSeq s1 s,
            consSeq y1 wy, consSeq t1 wt, by omega, by push_cast at hle ⊢; omega, rfl,
            ?_, ?_, ?_, ?_, hb, hy, ht, ?_⟩
          · rintro (_ | k) hk
            · exact hs
            · exact hst k (by omega)
          · rintro (_ | k) hk
            · show W 0 = _
              rw [hW0, ← clipW_eq_raised]
              rfl
            · exact hn k (by omega)
          · rintro (_ | k) hk
            · exact ⟨fun hc => hhalf ((half_iff _).mpr hc), hgo'.1⟩
            · obtain ⟨h1, h2⟩ := hg k (by omega)
              refine ⟨h1, ?_⟩
              cases k with
              | zero => exact h2
              | succ k => exact h2
          · rcases hstop with hc | hc | hc
            · left; push_cast at hc ⊢; omega
            · right; left; exact hc
            · right; right
              cases K with
              | zero => exact hc
              | succ K => exact hc
          · rw [hf]; simp [fitsOf]; omega
        · have hend : rwLoop step tol maxit fuel (loops + 1) s1 (diffExceeds tol s1 rold)
              (fun i => if y1 i * t1 i < wMin then wMin else y1 i * t1 i)
              (some ⟨b1, fun i => if y1 i * t1 i < wMin then wMin else y1 i * t1 i, y1, t1,
                Finset.univ.filter fun i => y1 i * t1 i < wMin, (out.elim 0 fun o => o.fits) + 1⟩)
              = some (.ok (some o)) := h
          cases fuel with
          | zero => simp [rwLoop] at hend
          | succ fuel =>
            rw [rwLoop, if_neg hgo'] at hend
            simp only [Option.some.injEq, Except.ok.injEq] at hend
            subst hend
            refine single ?_ rfl rfl rfl rfl
            by_cases hd : diffExceeds tol s1 rold
            · left
              have : ¬ loops + 1 < maxit := fun hc => hgo' ⟨hd, hc⟩
              omega
            · exact Or.inr (Or.inr hd)

lemma sizeFrom_eq (s : ℕ → ℝ) : sizeFrom (1 / 100000) s = sizeBefore s := by
  funext k; cases k <;> rfl

/-- The loop as the two estimators call it is a run in the sense of the specification. -/
lemma rwLoop_isRun {β : Type} (step : (Fin n → ℝ) → Except Err (β × ℝ × (Fin n → ℝ) × (Fin n → ℝ))) (tol : ℝ)
    (maxit : ℤ) (start : Fin n → ℝ) (o : RwOut β n)
    (hpos : ∀ w b s y t, step w = .ok (b, s, y, t) → 0 ≤ s)
    (h : rwLoop step tol maxit (maxit.toNat + 1) 1 (1 / 100000) (tol < 1) (clipW start) none = some (.ok (some o))) :
    ∃ (W : ℕ → Fin n → ℝ) (b : ℕ → β) (s : ℕ → ℝ) (wy wt : ℕ → Fin n → ℝ),
      (∀ k, k < o.fits → step (W k) = .ok (b k, s k, wy k, wt k)) ∧
      IsReweightRun tol maxit start o.fits W s (fun k i => wy k i * wt k i) ∧
      o.b = b (o.fits - 1) ∧ o.wye = wy (o.fits - 1) ∧ o.wte = wt (o.fits - 1) := by
  have hgo : tol < 1 ∧ 1 < maxit := by
    by_contra hg
    rw [rwLoop, if_neg hg] at h
    simp at h
  obtain ⟨K, W, b, s, wy, wt, hK, hle, hW0, hst, hn, hg, hstop, hb, hy, ht, hf⟩ :=
    rwLoop_run step tol maxit _ _ _ _ _ _ _ hgo.1 hgo.2 h
  have hfK : o.fits = K := by rw [hf]; simp [fitsOf]
  subst hfK
  rw [sizeFrom_eq] at hg hstop
  have hnn : ∀ k, k < o.fits → 0 ≤ sizeBefore s k := by
    rintro (_ | k) hk
    · show (0 : ℝ) ≤ 1 / 100000; norm_num
    · exact hpos _ _ _ _ _ (hst k (by omega))
  refine ⟨W, b, s, wy, wt, hst, ⟨hK, by omega, by rw [hW0, clipW_eq_raised], hn, fun k hk => ⟨(hg k hk).1, ?_⟩, ?_⟩,
    hb, hy, ht⟩
  · exact (diffExceeds_iff _ _ _ (hnn k (by omega))).mp (hg k hk).2
  · rcases hstop with hc | hc | hc
    · left; omega
    · right; left; exact hc
    · right; right
      by_contra hd
      exact hc ((diffExceeds_iff _ _ _ (hnn _ (by omega))).mpr hd)

/-- What the scaling of residuals returns. -/
lemma scaleRes_spec {res r : Fin n → ℝ} (h : scaleRes res = .ok r) :
    ∃ m, IsScaledBy m res r ∧ (2 * Fintype.card {i // res i = 0} < n → m = med fun i => |res i|) ∧
      (n ≤ 2 * Fintype.card {i // res i = 0} → m = medL (((List.ofFn res).filter (· ≠ 0)).map abs)) := by
  classical
  unfold scaleRes at h
  have hc : ((Finset.univ.filter fun i => res i = 0).card : ℝ) < (n : ℝ) / 2 ↔
      2 * Fintype.card {i // res i = 0} < n := by
    rw [Fintype.card_subtype, lt_div_iff₀ (by norm_num : (0 : ℝ) < 2), ← Nat.cast_two, ← Nat.cast_mul, Nat.cast_lt,
      mul_comm]
  dsimp only at h
  split at h
  · rename_i hz
    simp only [Except.ok.injEq] at h
    have hz' := hc.mp (by convert hz)
    exact ⟨_, fun i => by rw [← h], fun _ => rfl, fun hn => by omega⟩
  · rename_i hz
    have hz' : ¬ 2 * Fintype.card {i // res i = 0} < n := fun hh => hz (by convert hc.mpr hh)
    split at h
    · simp at h
    · simp only [Except.ok.injEq] at h
      exact ⟨_, fun i => by rw [← h], fun hn => absurd hn hz', fun _ => by congr 2⟩

/-- What the norms of rows divided by their median are. -/
lemma rowDistances_spec {X : Fin n → Fin p → ℝ} {d : Fin n → ℝ} (h : rowDistances X = .ok d) :
    IsDividedBy (med fun i => Real.sqrt (∑ j, X i j ^ 2)) (fun i => Real.sqrt (∑ j, X i j ^ 2)) d := by
  unfold rowDistances at h
  dsimp only at h
  split at h
  · simp at h
  · rename_i hne
    simp only [Except.ok.injEq] at h
    rw [← h]
    exact ⟨hne, fun i => div_mul_cancel₀ _ hne⟩

/-- What the starting values of the response weights are. -/
lemma startY_spec {c : Centre} {s : ScaleOpt} {ys y dy : Fin n → ℝ} (h : startY c s ys y = .ok dy) :
    (c = .median → s = .mad → dy = fun i => |ys i|) ∧
    (¬ (c = .median ∧ s = .mad) → IsDividedBy (14826 / 10000 * med fun i => |y i - med y|) (fun i => y i - med y) dy) := by
  unfold startY at h
  split at h
  · rename_i hm
    simp only [Except.ok.injEq] at h
    have : c = .median ∧ s = .mad := by
      unfold isMedianMad at hm
      split at hm
      · exact ⟨rfl, rfl⟩
      · simp at hm
    exact ⟨fun _ _ => h.symm, fun hn => absurd this hn⟩
  · rename_i hm
    dsimp only at h
    split at h
    · simp at h
    · rename_i hne
      simp only [Except.ok.injEq] at h
      refine ⟨fun h1 h2 => ?_, fun _ => ?_⟩
      · subst h1 h2; simp [isMedianMad] at hm
      · rw [← h]
        exact ⟨hne, fun i => div_mul_cancel₀ _ hne⟩

/-- C128 for RM.  A fitted model is the end of a run of reweighted least squares fits to the standardised data.  Fit `k` is
the least squares fit with the rows multiplied by the roots of the weights in use; the weights it finds are the product of
the predictor weights `wx`, which never change, and the weight function at the absolute residuals of the
*unweighted* standardised data, divided by 1.4826 times their median (over the nonzero residuals, if
at least half of them vanish).  The run goes on exactly as long as it must: until `maxit - 1` fits have been made, or at least half
of the cases got a weight below `1e-6`, or the sum of squares of the coefficients has changed by at most the fraction `tol`.
The reported coefficients and case weights are those of the last fit, weights below `1e-6` being reported as 0.
The run starts from the predictor weights, the weight function at the norms of the standardised cases divided by their median, times the weight
function at the absolute standardised responses for (`'median'`, `'mad'`), and for other estimators at the responses themselves minus their median
divided by 1.4826 times the median absolute deviation. -/
theorem C128_rm_run (ext : RmExt) (pr : RmParams) (X : Fin n → Fin p → ℝ) (y : Fin n → ℝ) (f : RmFit n p)
    (h : rmFit ext pr X y = .ok f) :
    ∃ (wx wy0 : Fin n → ℝ) (used : ℕ → Fin n → ℝ) (coef : ℕ → Fin p → ℝ) (wy : ℕ → Fin n → ℝ),
      IsReweightRun pr.tol pr.maxit (fun i => wx i * wy0 i) f.fits used (fun k => ∑ j, coef k j ^ 2)
        (fun k i => wy k i * wx i) ∧
      (∀ k, k < f.fits →
        coef k = ext.lstsq (fun i j => stdMat X f.xLoc f.xSca i j * Real.sqrt (used k i))
          (fun i => stdVec y f.yLoc f.ySca i * Real.sqrt (used k i)) ∧
        ∃ (m : ℝ) (r : Fin n → ℝ),
          IsScaledBy m (fun i => stdVec y f.yLoc f.ySca i - lin (stdMat X f.xLoc f.xSca) (coef k) i) r ∧
          (2 * Fintype.card {i // stdVec y f.yLoc f.ySca i - lin (stdMat X f.xLoc f.xSca) (coef k) i = 0} < n →
            m = med fun i => |stdVec y f.yLoc f.ySca i - lin (stdMat X f.xLoc f.xSca) (coef k) i|) ∧
          (n ≤ 2 * Fintype.card {i // stdVec y f.yLoc f.ySca i - lin (stdMat X f.xLoc f.xSca) (coef k) i = 0} →
            m = medL (((List.ofFn fun i => stdVec y f.yLoc f.ySca i - lin (stdMat X f.xLoc f.xSca) (coef k) i).filter
              (· ≠ 0)).map abs)) ∧
          wy k = pr.fn.apply r (ext.normPpf pr.probp1) (ext.normPpf pr.probp2) (ext.normPpf pr.probp3)) ∧
      f.coefScaled = coef (f.fits - 1) ∧
      (∀ i, f.caseweights i = if wy (f.fits - 1) i * wx i < 1 / 1000000 then 0 else wy (f.fits - 1) i * wx i) ∧
      (∃ d, IsDividedBy (med fun i => Real.sqrt (∑ j, stdMat X f.xLoc f.xSca i j ^ 2))
          (fun i => Real.sqrt (∑ j, stdMat X f.xLoc f.xSca i j ^ 2)) d ∧
        (pr.specific = true → wx = pr.fn.apply d (ext.chi2Ppf pr.probp1 p) (ext.chi2Ppf pr.probp2 p) (ext.chi2Ppf pr.probp3 p)) ∧
        (pr.specific = false → wx = pr.fn.apply d (ext.normPpf pr.probp1) (ext.normPpf pr.probp2) (ext.normPpf pr.probp3))) ∧
      ∃ d, wy0 = pr.fn.apply d (ext.normPpf pr.probp1) (ext.normPpf pr.probp2) (ext.normPpf pr.probp3) ∧
        (pr.centre = .median → pr.scale = .mad → d = fun i => |stdVec y f.yLoc f.ySca i|) ∧
        (¬ (pr.centre = .median ∧ pr.scale = .mad) →
          IsDividedBy (14826 / 10000 * med fun i => |y i - med y|) (fun i => y i - med y) d) := by
  obtain ⟨-, -, -, -, -, -, dx, dy, o, hdx, hdy, hl, hb, -, -, -, hcw, -, -, -, hf, -⟩ := rmFit_inv h
  set wx := pr.fn.run dx (cutX ext pr.specific p pr.probp1 pr.probp2 pr.probp3) with hwx
  have hstep : ∀ w b s y' t, rmStep ext pr.fn (cutY ext pr.probp1 pr.probp2 pr.probp3) (stdMat X f.xLoc f.xSca)
      (stdVec y f.yLoc f.ySca) wx w = .ok (b, s, y', t) →
      b = ext.lstsq (weightRows (stdMat X f.xLoc f.xSca) w) (fun i => stdVec y f.yLoc f.ySca i * Real.sqrt (w i)) ∧
      s = ∑ j, b j ^ 2 ∧ t = wx ∧ ∃ r, scaleRes (fun i => stdVec y f.yLoc f.ySca i -
        ∑ j, stdMat X f.xLoc f.xSca i j * b j) = .ok r ∧ y' = pr.fn.run r (cutY ext pr.probp1 pr.probp2 pr.probp3) := by
    intro w b s y' t hs
    unfold rmStep at hs
    dsimp only at hs
    split at hs
    · simp at hs
    · rename_i r hr
      simp only [Except.ok.injEq, Prod.mk.injEq] at hs
      obtain ⟨rfl, rfl, rfl, rfl⟩ := hs
      exact ⟨rfl, rfl, rfl, r, hr, rfl⟩
  obtain ⟨W, b, s, wy, wt, hst, hrun, hbo, hyo, hto⟩ := rwLoop_isRun _ _ _ _ _ (fun w b s y' t hs => by
    rw [(hstep w b s y' t hs).2.1]; exact Finset.sum_nonneg fun j _ => sq_nonneg _) hl
  have hlast : o.fits - 1 < o.fits := by have := hrun.atLeastOne; omega
  have hwt : ∀ k, k < o.fits → wt k = wx := fun k hk => (hstep _ _ _ _ _ (hst k hk)).2.2.1
  have hsz : ∀ k, k < o.fits → s k = ∑ j, b k j ^ 2 := fun k hk => (hstep _ _ _ _ _ (hst k hk)).2.1
  rw [hf]
  refine ⟨wx, _, W, b, wy, ⟨hrun.atLeastOne, hrun.atMost, hrun.first, fun k hk => ?_, fun k hk => ?_, ?_⟩, fun k hk => ?_,
    hb.trans hbo, fun i => ?_, ⟨dx, rowDistances_spec hdx, fun hsp => ?_, fun hsp => ?_⟩, dy, rfl, startY_spec hdy⟩
  · rw [hrun.next k hk, hwt k (by omega)]
  · have := hrun.goesOn k hk
    rw [hwt k (by omega)] at this
    refine ⟨this.1, ?_⟩
    unfold settledAt at this ⊢
    dsimp only
    rw [← hsz k (by omega)]
    cases k with
    | zero => exact this.2
    | succ k => have h2 := this.2; simp only [sizeBefore] at h2 ⊢; rw [← hsz k (by omega)]; exact h2
  · have := hrun.stops
    rw [hwt _ hlast] at this
    rcases this with h1 | h1 | h1
    · exact Or.inl h1
    · exact Or.inr (Or.inl h1)
    · refine Or.inr (Or.inr ?_)
      unfold settledAt at h1 ⊢
      dsimp only
      rw [← hsz _ hlast]
      generalize hkk : o.fits - 1 = k at h1 hlast ⊢
      cases k with
      | zero => exact h1
      | succ k => simp only [sizeBefore] at h1 ⊢; rw [← hsz k (by omega)]; exact h1
  · obtain ⟨h1, -, -, r, hr, hy⟩ := hstep _ _ _ _ _ (hst k hk)
    obtain ⟨m, hm1, hm2, hm3⟩ := scaleRes_spec hr
    exact ⟨h1, m, r, hm1, hm2, hm3, hy⟩
  · have hp := rwLoop_pass _ _ _ _ _ _ _ _ _ _ (clip_ge _) (by simp) hl o rfl
    rw [hcw]
    unfold zeroOut
    have e : o.wye i * o.wte i = wy (o.fits - 1) i * wx i := by rw [hyo, hto, hwt _ hlast]
    by_cases hi : o.wye i * o.wte i < wMin
    · rw [if_pos ((hp.w0 i).mpr hi), if_pos (by rw [← e]; exact hi)]
    · rw [if_neg (fun hc => hi ((hp.w0 i).mp hc)), if_neg (by rw [← e]; exact hi), hp.we i, if_neg hi, e]
  · rw [hwx, hsp]; rfl
  · rw [hwx, hsp]; rfl

/-- What one pass of the loop of SPRM computes. -/
lemma sprmStep_spec {ext : SprmExt} {pr : SprmParams} {sc : ScaleOpt} {cx : ℝ × ℝ × ℝ} {Xs : Fin n → Fin p → ℝ}
    {ys we : Fin n → ℝ} {f : SnFit n p} {b2 : ℝ} {wye wte : Fin n → ℝ}
    (h : sprmStep ext pr sc cx Xs ys we = .ok (f, b2, wye, wte)) :
    snFit ⟨pr.eta, pr.nComponents.toNat, .mean, .noneOpt⟩ (weightRows Xs we) (fun i => ys i * Real.sqrt (we i)) = .ok f ∧
    b2 = ∑ j, f.coef j ^ 2 ∧
    (∃ r, scaleRes (fun i => ys i - f.fitted i) = .ok r ∧
      wye = pr.fn.run r (cutY ext.toRm pr.probp1 pr.probp2 pr.probp3)) ∧
    ∃ d, rowDistances (stdMat (fun i (a : Fin f.comps.length) => compT f.comps i a / Real.sqrt (we i))
        (pr.centre.run fun i (a : Fin f.comps.length) => compT f.comps i a / Real.sqrt (we i))
        ((scoreScale sc).run fun i (a : Fin f.comps.length) => compT f.comps i a / Real.sqrt (we i))) = .ok d ∧
      wte = pr.fn.run d (if pr.fn = .hampel then
            cutX ext.toRm true pr.nComponents.toNat pr.probp1 pr.probp2 pr.probp3 else cx) := by
  unfold sprmStep at h
  split at h
  · simp at h
  · rename_i g hg
    simp only [scaleMat_eq] at h
    split at h
    · simp at h
    · rename_i r hr
      split at h
      · simp at h
      · rename_i d hd
        simp only [Except.ok.injEq, Prod.mk.injEq] at h
        obtain ⟨rfl, rfl, rfl, rfl⟩ := h
        exact ⟨hg, rfl, ⟨r, hr, rfl⟩, d, hd, rfl⟩

/-- C128 for SPRM.  A fitted model is the end of a run of SNIPLS fits to the standardised, row-weighted data.  Fit `k` finds
the weights `wy k i * wt k i`: the first factor is the weight function at the scaled absolute differences between the
standardised response and the fitted values of fit `k`, the second the weight function at the norms, divided by their
median, of the standardised unweighted scores.  The run ends as that of RM does.  It starts from weights of the standardised cases, or, with `start_X_init='pcapp'`,
of the standardised leading left singular vectors, as many as the broken stick rule says, and from response weights as in RM.  (`start_cutoff_mode='specific'` needs `'pcapp'`.) -/
theorem C128_sprm_run (ext : SprmExt) (pr : SprmParams) (X : Fin n → Fin p → ℝ) (y : Fin n → ℝ) (f : SprmFit n p)
    (h : (sprmFit ext pr X y).2 = .ok f) :
    ∃ (wx wy0 : Fin n → ℝ) (used : ℕ → Fin n → ℝ) (fit : ℕ → SnFit n f.keep.length) (wy wt : ℕ → Fin n → ℝ)
      (c : ℝ × ℝ × ℝ),
      IsReweightRun pr.tol pr.maxit (fun i => wx i * wy0 i) f.fits used (fun k => ∑ j, (fit k).coef j ^ 2)
        (fun k i => wy k i * wt k i) ∧
      (∀ k, k < f.fits →
        snFit ⟨pr.eta, pr.nComponents.toNat, .mean, .noneOpt⟩
          (fun i a => stdMat X f.xLoc f.xSca i (f.keep.get a) * Real.sqrt (used k i))
          (fun i => stdVec y f.yLoc f.ySca i * Real.sqrt (used k i)) = .ok (fit k) ∧
        (∃ (m : ℝ) (r : Fin n → ℝ), IsScaledBy m (fun i => stdVec y f.yLoc f.ySca i - (fit k).fitted i) r ∧
          (2 * Fintype.card {i // stdVec y f.yLoc f.ySca i - (fit k).fitted i = 0} < n →
            m = med fun i => |stdVec y f.yLoc f.ySca i - (fit k).fitted i|) ∧
          (n ≤ 2 * Fintype.card {i // stdVec y f.yLoc f.ySca i - (fit k).fitted i = 0} →
            m = medL (((List.ofFn fun i => stdVec y f.yLoc f.ySca i - (fit k).fitted i).filter (· ≠ 0)).map abs)) ∧
          wy k = pr.fn.apply r (ext.normPpf pr.probp1) (ext.normPpf pr.probp2) (ext.normPpf pr.probp3)) ∧
        ∃ (d norm : Fin n → ℝ) (T Z : Fin n → Fin (fit k).comps.length → ℝ),
          (∀ i a, T i a * Real.sqrt (used k i) = compT (fit k).comps i a) ∧
          (∃ sc : ScaleOpt, Z = stdMat T (pr.centre.run T) (sc.run T) ∧
            ((pr.scale.resolve X).opt = .noneOpt → sc = .mad) ∧
            ((pr.scale.resolve X).opt ≠ .noneOpt → sc = (pr.scale.resolve X).opt)) ∧
          (∀ i, norm i = Real.sqrt (∑ a, Z i a ^ 2)) ∧ (∀ i, d i * med norm = norm i) ∧
          wt k = pr.fn.apply d c.1 c.2.1 c.2.2) ∧
      f.inner = fit (f.fits - 1) ∧ f.coefScaled = (fit (f.fits - 1)).coef ∧
      (∀ i, f.caseweights i = if wy (f.fits - 1) i * wt (f.fits - 1) i < 1 / 1000000 then 0
        else wy (f.fits - 1) i * wt (f.fits - 1) i) ∧
      (pr.fn = .hampel → c = (ext.chi2Ppf pr.probp1 pr.nComponents.toNat, ext.chi2Ppf pr.probp2 pr.nComponents.toNat,
        ext.chi2Ppf pr.probp3 pr.nComponents.toNat)) ∧
      (pr.fn ≠ .hampel → pr.specific = false → c.1 = ext.normPpf pr.probp1) ∧
      (pr.fn ≠ .hampel → pr.specific = true → ∃ rc, c.1 = ext.chi2Ppf pr.probp1 rc) ∧
      (pr.pcapp = false → pr.specific = false ∧
        ∃ d, IsDividedBy (med fun i => Real.sqrt (∑ a, stdMat X f.xLoc f.xSca i (f.keep.get a) ^ 2))
          (fun i => Real.sqrt (∑ a, stdMat X f.xLoc f.xSca i (f.keep.get a) ^ 2)) d ∧
          wx = pr.fn.apply d (ext.normPpf pr.probp1) (ext.normPpf pr.probp2) (ext.normPpf pr.probp3)) ∧
      (∀ U S, pr.pcapp = true → ext.svd (fun i a => stdMat X f.xLoc f.xSca i (f.keep.get a)) = (U, S) →
        ∃ (rc : ℕ) (T : Fin n → Fin (min rc n) → ℝ) (d : Fin n → ℝ), relcomp (fun k => S k ^ 2 / ∑ l, S l ^ 2) = .ok rc ∧
          (∀ i (a : Fin (min rc n)) (b : Fin n), b.1 = a.1 → T i a = U i b) ∧
          IsDividedBy (med fun i => Real.sqrt (∑ a, stdMat T (pr.centre.run T) ((pr.scale.resolve X).opt.run T) i a ^ 2))
            (fun i => Real.sqrt (∑ a, stdMat T (pr.centre.run T) ((pr.scale.resolve X).opt.run T) i a ^ 2)) d ∧
          (pr.specific = true → wx = pr.fn.apply d (ext.chi2Ppf pr.probp1 rc) (ext.chi2Ppf pr.probp2 rc) (ext.chi2Ppf pr.probp3 rc)) ∧
          (pr.specific = false → wx = pr.fn.apply d (ext.normPpf pr.probp1) (ext.normPpf pr.probp2) (ext.normPpf pr.probp3))) ∧
      ∃ d, wy0 = pr.fn.apply d (ext.normPpf pr.probp1) (ext.normPpf pr.probp2) (ext.normPpf pr.probp3) ∧
        (pr.centre = .median → (pr.scale.resolve X).opt = .mad → d = fun i => |stdVec y f.yLoc f.ySca i|) ∧
        (¬ (pr.centre = .median ∧ (pr.scale.resolve X).opt = .mad) →
          IsDividedBy (14826 / 10000 * med fun i => |y i - med y|) (fun i => y i - med y) d) := by
  obtain ⟨-, -, -, -, -, -, -, rc, dx, dy, cx, o, hdx, hdy, hcx, hl, hin, hb, -, -, -, -, hcw, -, -, -, hf, -⟩ := sprmFit_inv h
  obtain ⟨W, b, s, wy, wt, hst, hrun, hbo, hyo, hto⟩ := rwLoop_isRun _ _ _ _ _ (fun w b s y' t hs => by
    rw [(sprmStep_spec hs).2.1]; exact Finset.sum_nonneg fun j _ => sq_nonneg _) hl
  have hlast : o.fits - 1 < o.fits := by have := hrun.atLeastOne; omega
  have hsz : ∀ k, k < o.fits → s k = ∑ j, (b k).coef j ^ 2 := fun k hk => (sprmStep_spec (hst k hk)).2.1
  rw [hf]
  refine ⟨_, _, W, b, wy, wt, if pr.fn = .hampel then
    cutX ext.toRm true pr.nComponents.toNat pr.probp1 pr.probp2 pr.probp3 else cx, ⟨hrun.atLeastOne, hrun.atMost, hrun.first, hrun.next, fun k hk => ?_, ?_⟩,
    fun k hk => ?_, hin.trans hbo, by rw [hb, hbo], fun i => ?_, fun hh => if_pos hh, fun hh hsp => ?_, fun hh hsp => ?_, fun hpc => ?_, fun U S hpc hUS => ?_, dy, rfl, startY_spec hdy⟩
  · have := hrun.goesOn k hk
    refine ⟨this.1, ?_⟩
    unfold settledAt at this ⊢
    dsimp only
    rw [← hsz k (by omega)]
    cases k with
    | zero => exact this.2
    | succ k => have h2 := this.2; simp only [sizeBefore] at h2 ⊢; rw [← hsz k (by omega)]; exact h2
  · rcases hrun.stops with h1 | h1 | h1
    · exact Or.inl h1
    · exact Or.inr (Or.inl h1)
    · refine Or.inr (Or.inr ?_)
      unfold settledAt at h1 ⊢
      dsimp only
      rw [← hsz _ hlast]
      generalize hkk : o.fits - 1 = k at h1 hlast ⊢
      cases k with
      | zero => exact h1
      | succ k => simp only [sizeBefore] at h1 ⊢; rw [← hsz k (by omega)]; exact h1
  · obtain ⟨h1, -, ⟨r, hr, hy⟩, d, hd, ht⟩ := sprmStep_spec (hst k hk)
    obtain ⟨m, hm1, hm2, hm3⟩ := scaleRes_spec hr
    refine ⟨h1, ⟨m, r, hm1, hm2, hm3, hy⟩, d, _,
      fun i (a : Fin (b k).comps.length) => compT (b k).comps i a / Real.sqrt (W k i), _, fun i a => ?_, ⟨scoreScale (sprmAfter pr X).scale.opt, rfl, fun hs => ?_, fun hs => ?_⟩, fun i => rfl, fun i => ?_, ht⟩
    · refine div_mul_cancel₀ _ (Real.sqrt_ne_zero'.mpr ?_)
      have : 1 / 1000000 ≤ W k i := by
        cases k with
        | zero => rw [hrun.first]; exact le_max_right _ _
        | succ k => rw [hrun.next k hk]; exact le_max_right _ _
      linarith
    · show scoreScale (pr.scale.resolve X).opt = _
      rw [hs]; rfl
    · show scoreScale (pr.scale.resolve X).opt = _
      unfold scoreScale
      split
      · rename_i he; exact absurd he hs
      · rfl
    · unfold rowDistances at hd
      dsimp only at hd
      split at hd
      · simp at hd
      · rename_i hne
        simp only [Except.ok.injEq] at hd
        rw [← hd]
        exact div_mul_cancel₀ _ hne
  · have hp := rwLoop_pass _ _ _ _ _ _ _ _ _ _ (clip_ge _) (by simp) hl o rfl
    rw [hcw]
    unfold zeroOut
    have e : o.wye i * o.wte i = wy (o.fits - 1) i * wt (o.fits - 1) i := by rw [hyo, hto]
    by_cases hi : o.wye i * o.wte i < wMin
    · rw [if_pos ((hp.w0 i).mpr hi), if_pos (by rw [← e]; exact hi)]
    · rw [if_neg (fun hc => hi ((hp.w0 i).mp hc)), if_neg (by rw [← e]; exact hi), hp.we i, if_neg hi, e]
  · rw [if_neg hh]
    unfold sprmStartCut at hcx
    rw [hsp] at hcx
    simp only [Bool.false_eq_true, if_false, Except.ok.injEq] at hcx
    rw [← hcx]; rfl
  · rw [if_neg hh]
    unfold sprmStartCut at hcx
    rw [hsp] at hcx
    simp only [if_true] at hcx
    split at hcx
    · simp at hcx
    · rename_i r
      simp only [Except.ok.injEq] at hcx
      exact ⟨r, by rw [← hcx]; rfl⟩
  · unfold sprmStartX at hdx
    rw [hpc] at hdx
    simp only [Bool.false_eq_true, if_false] at hdx
    split at hdx
    · simp at hdx
    · rename_i d hd
      simp only [Except.ok.injEq, Prod.mk.injEq] at hdx
      obtain ⟨rfl, rfl⟩ := hdx
      have hsp : pr.specific = false := by
        by_contra hc
        unfold sprmStartCut at hcx
        rw [if_pos (by simpa using hc)] at hcx
        simp at hcx
      unfold sprmStartCut at hcx
      rw [hsp] at hcx
      simp only [Bool.false_eq_true, if_false, Except.ok.injEq] at hcx
      refine ⟨hsp, d, rowDistances_spec hd, ?_⟩
      rw [← hcx]; rfl
  · unfold sprmStartX at hdx
    have hUS' : ext.svd (selCols (stdMat X f.xLoc f.xSca) f.keep) = (U, S) := hUS
    rw [hpc] at hdx
    simp only [if_true, hUS'] at hdx
    split at hdx
    · simp at hdx
    · split at hdx
      · simp at hdx
      · rename_i rc' hrc
        split at hdx
        · simp at hdx
        · rename_i d hd
          simp only [Except.ok.injEq, Prod.mk.injEq] at hdx
          obtain ⟨rfl, rfl⟩ := hdx
          rw [scaleMat_eq] at hd
          refine ⟨rc', _, d, hrc, fun i a b hb => ?_, rowDistances_spec hd, fun hsp => ?_, fun hsp => ?_⟩
          · exact congrArg (U i) (Fin.ext hb.symm)
          · unfold sprmStartCut at hcx
            rw [hsp] at hcx
            simp only [if_true, Except.ok.injEq] at hcx
            rw [← hcx]; rfl
          · unfold sprmStartCut at hcx
            rw [hsp] at hcx
            simp only [Bool.false_eq_true, if_false, Except.ok.injEq] at hcx
            rw [← hcx]; rfl

/-- C04 in `sprm.fit`: with `start_X_init='pcapp'` the search for the number of singular vectors succeeds as soon as one singular value is not zero, it finds between 1 and
`min p n` of them, and the starting distances are those of these vectors whenever the median of the norms is not zero.  With singular values all zero there is an exception. -/
theorem C04_sprm_start (ext : SprmExt) (pr : SprmParams) (sc : ScaleOpt) (Xs : Fin n → Fin p → ℝ) (hpc : pr.pcapp = true) (U : Fin n → Fin n → ℝ)
    (S : Fin (min p n) → ℝ) (hUS : ext.svd Xs = (U, S)) :
    ((∃ k, S k ≠ 0) → ∃ rc : ℕ, 1 ≤ rc ∧ rc ≤ min p n ∧
      ∀ T : Fin n → Fin (min rc n) → ℝ, (∀ i (a : Fin (min rc n)) (b : Fin n), b.1 = a.1 → T i a = U i b) →
        ((∃ d, sprmStartX ext pr sc Xs = .ok (some rc, d)) ↔ med (fun i => Real.sqrt (∑ a, stdMat T (pr.centre.run T) (sc.run T) i a ^ 2)) ≠ 0)) ∧
    ((∀ k, S k = 0) → ∃ e, sprmStartX ext pr sc Xs = .error e) := by
  constructor
  · rintro ⟨k, hk⟩
    have htot : ∑ l, S l ^ 2 ≠ 0 := by
      refine (Finset.sum_pos' (fun l _ => sq_nonneg _) ⟨k, Finset.mem_univ k, by positivity⟩).ne'
    obtain ⟨rc, hrc, h1, h2, -⟩ := C04_relcomp_total (min p n) (Fin.pos k) (fun l => S l ^ 2 / ∑ l, S l ^ 2)
      (by rw [← Finset.sum_div, div_self htot])
    refine ⟨rc, h1, h2, fun T hT => ?_⟩
    have hTU : (fun i (a : Fin (min rc n)) => U i ⟨a, lt_of_lt_of_le a.2 (min_le_right _ _)⟩) = T := by
      funext i a
      exact (hT i a _ rfl).symm
    unfold sprmStartX
    simp only [hpc, if_true, hUS, if_neg htot, hrc]
    rw [hTU, scaleMat_eq]
    unfold rowDistances
    dsimp only
    by_cases hm : med (fun i => Real.sqrt (∑ a, stdMat T (pr.centre.run T) (sc.run T) i a ^ 2)) = 0
    · rw [if_pos hm]
      simp [hm]
    · rw [if_neg hm]
      simp [hm]
  · intro h0
    unfold sprmStartX
    simp only [hpc, if_true, hUS]
    rw [if_pos (by simp [h0])]
    exact ⟨_, rfl⟩

/-- The hypotheses are met by the examples of RM and SPRM, which end after one fit because `maxit = 2`. -/
example : ∃ f, rmFit rmExt0 (rmPr true) rmX rmY = .ok f ∧ f.fits = 1 := by
  obtain ⟨f, hf⟩ : ∃ f, rmFit rmExt0 (rmPr true) rmX rmY = .ok f := by
    obtain ⟨f, hf, -⟩ := rmExFit rmExt0 rmExt0_lstsq (by simp only [rmExt0]; norm_num) (by simp only [rmExt0]; norm_num) true
    exact ⟨f, hf⟩
  obtain ⟨wx, wy0, used, coef, wy, hr, -⟩ := C128_rm_run _ _ _ _ _ hf
  refine ⟨f, hf, ?_⟩
  have h1 := hr.atLeastOne
  have h2 := hr.atMost
  simp only [rmPr] at h2
  omega

end Direpack
