import Verif.Lemmas.TnsReturns
import Verif.Spec.LinearPrediction
import Mathlib.Analysis.Complex.AbsMax
import Mathlib.Analysis.Complex.Polynomial.Basic
/-!
# The Levinson recursion and its inverse

In exact arithmetic. `levinson` solves the normal equations; its filter has no zero in the closed unit disc; the step down
recursion of a filter without zeros in the closed unit disc yields reflection coefficients below one.
-/

namespace Lc3
open Scalar Spec Finset

theorem lag_comm (m n : ℕ) : lag m n = lag n m := by unfold lag; omega

/-! ## One step -/

/-- the coefficients after step `k` in terms of those before -/
theorem levStep_coef (r a : List ℝ) (e : ℝ) (k : Nat) (hk : 0 < k) (hl : a.length = k) (h0 : at0 a 0 = 1) :
    ∃ rc : ℝ, rc = (if e = 0 then -∑ n ∈ range k, at0 a n * at0 r (k - n) else (-∑ n ∈ range k, at0 a n * at0 r (k - n)) / e) ∧
      (levStep r k (a, e)).2 = e * (1 - rc * rc) ∧ (levStep r k (a, e)).1.length = k + 1 ∧
      ∀ n ≤ k, at0 (levStep r k (a, e)).1 n = at0 a n + rc * at0 a (k - n) := by
  have hz : (zero : ℝ) = 0 := Rat.cast_zero
  have ho : (one : ℝ) = 1 := Rat.cast_one
  have hf : (List.range k).foldl (fun c n => c - at0 a n * at0 r (k - n)) (zero : ℝ) = -∑ n ∈ range k, at0 a n * at0 r (k - n) := by
    have : ∀ j, (List.range j).foldl (fun c n => c - at0 a n * at0 r (k - n)) (zero : ℝ) = -∑ n ∈ range j, at0 a n * at0 r (k - n) := by
      intro j
      induction j with
      | zero => simp [hz]
      | succ j ih =>
        rw [List.range_succ, List.foldl_append, ih, Finset.sum_range_succ]
        simp only [List.foldl_cons, List.foldl_nil]
        ring
    exact this k
  have hak : at0 a k = 0 := by unfold at0; simp [hl, hz]
  unfold levStep
  simp only [hf]
  have heq : (Scalar.eq e (zero : ℝ) = true) = (e = 0) := by
    rw [hz]
    show (decide (e = 0) = true) = _
    simp
  simp only [heq]
  refine ⟨_, rfl, by rw [ho], by simp; omega, ?_⟩
  generalize (if e = 0 then -∑ n ∈ range k, at0 a n * at0 r (k - n) else (-∑ n ∈ range k, at0 a n * at0 r (k - n)) / e) = rc
  intro n hn
  rcases n with _ | n
  · rw [Nat.sub_zero, hak, h0]
    simp [at0, ho]
  · by_cases hnk : n + 1 = k
    · subst hnk
      rw [hak, Nat.sub_self, h0]
      simp [at0]
    · have h1 : n < k - 1 := by omega
      simp [at0, List.getElem?_append, h1]

/-! ## The recursion -/

/-- the state after `k` steps: the normal equations of order `k` -/
structure LevInv (r : ℕ → ℝ) (k : Nat) (a : List ℝ) (e : ℝ) : Prop where
  len : a.length = k + 1
  first : at0 a 0 = 1
  normal : ∀ m ≤ k, ∑ n ∈ range (k + 1), at0 a n * r (lag m n) = if m = 0 then e else 0

theorem at0_beyond {a : List ℝ} {n : Nat} (h : a.length ≤ n) : at0 a n = 0 := by
  unfold at0
  rw [List.getD_eq_getElem?_getD, List.getElem?_eq_none h]
  exact Rat.cast_zero

theorem LevInv.energy {r : ℕ → ℝ} {k : Nat} {a : List ℝ} {e : ℝ} (h : LevInv r k a e) (hk : k ≤ 8) :
    filteredEnergy r (at0 a) = e := by
  have hz : ∀ n, n ∉ range (k + 1) → at0 a n = 0 := fun n hn => at0_beyond (by rw [h.len]; simpa using hn)
  have hs : range (k + 1) ⊆ range 9 := by intro n; simp; omega
  unfold filteredEnergy
  rw [← Finset.sum_subset hs (fun m _ hm => by rw [hz m hm]; simp)]
  have : ∀ m ∈ range (k + 1), ∑ n ∈ range 9, at0 a m * at0 a n * r (lag m n) = at0 a m * if m = 0 then e else 0 := by
    intro m hm
    rw [← h.normal m (by simpa [Nat.lt_succ_iff] using hm), Finset.mul_sum,
      ← Finset.sum_subset hs (fun n _ hn => by rw [hz n hn]; simp)]
    exact Finset.sum_congr rfl fun n _ => by ring
  rw [Finset.sum_congr rfl this, Finset.sum_eq_single 0 (fun m _ hm => by simp [hm]) (fun h => by simp at h)]
  simp [h.first]

theorem LevInv.pos {r : ℕ → ℝ} (hr : Nonsingular r) {k : Nat} {a : List ℝ} {e : ℝ} (h : LevInv r k a e) (hk : k ≤ 8) : 0 < e := by
  rw [← h.energy hk]
  exact hr _ ⟨0, by norm_num, by rw [h.first]; norm_num⟩

theorem LevInv.step {r : List ℝ} {k : Nat} {a : List ℝ} {e : ℝ} (h : LevInv (at0 r) k a e) (he : e ≠ 0) :
    LevInv (at0 r) (k + 1) (levStep r (k + 1) (a, e)).1 (levStep r (k + 1) (a, e)).2 ∧
    ∃ rc : ℝ, (levStep r (k + 1) (a, e)).2 = e * (1 - rc * rc) ∧
      ∀ n ≤ k + 1, at0 (levStep r (k + 1) (a, e)).1 n = at0 a n + rc * at0 a (k + 1 - n) := by
  obtain ⟨rc, hrc, h2, hl, hc⟩ := levStep_coef r a e (k + 1) (by omega) h.len h.first
  refine ⟨⟨hl, ?_, ?_⟩, rc, h2, hc⟩
  · rw [hc 0 (by omega), h.first, at0_beyond (by rw [h.len]; omega)]; ring
  · have hak : at0 a (k + 1) = 0 := at0_beyond (by rw [h.len])
    rw [if_neg he] at hrc
    -- the sum with the old coefficients
    have S : ∀ m ≤ k + 1, ∑ n ∈ range (k + 2), at0 a n * at0 r (lag m n) = if m = 0 then e else if m = k + 1 then -rc * e else 0 := by
      intro m hm
      rw [Finset.sum_range_succ, hak, zero_mul, add_zero]
      by_cases hm2 : m = k + 1
      · subst hm2
        rw [if_neg (by omega), if_pos rfl, hrc, neg_mul, div_mul_cancel₀ _ he, neg_neg]
        refine Finset.sum_congr rfl fun n hn => ?_
        have : n < k + 1 := by simpa using hn
        rw [show lag (k + 1) n = k + 1 - n by unfold lag; omega]
      · rw [h.normal m (by omega)]
        split
        · rfl
        · rfl
    have R : ∀ m ≤ k + 1, ∑ n ∈ range (k + 2), at0 a (k + 1 - n) * at0 r (lag m n) =
        ∑ n ∈ range (k + 2), at0 a n * at0 r (lag (k + 1 - m) n) := by
      intro m hm
      rw [← Finset.sum_range_reflect]
      refine Finset.sum_congr rfl fun n hn => ?_
      have hn' : n < k + 2 := by simpa using hn
      rw [show k + 2 - 1 - n = k + 1 - n by omega, show k + 1 - (k + 1 - n) = n by omega]
      congr 2
      unfold lag
      omega
    intro m hm
    have : ∑ n ∈ range (k + 1 + 1), at0 (levStep r (k + 1) (a, e)).1 n * at0 r (lag m n) =
        (∑ n ∈ range (k + 2), at0 a n * at0 r (lag m n)) + rc * ∑ n ∈ range (k + 2), at0 a (k + 1 - n) * at0 r (lag m n) := by
      rw [Finset.mul_sum, ← Finset.sum_add_distrib]
      refine Finset.sum_congr rfl fun n hn => ?_
      rw [hc n (by simpa [Nat.lt_succ_iff] using hn)]
      ring
    rw [this, R m hm, S m hm, S (k + 1 - m) (by omega), h2]
    by_cases h0 : m = 0
    · subst h0
      rw [if_pos rfl, if_pos rfl, if_neg (by omega), if_pos (by omega)]
      ring
    · rw [if_neg h0, if_neg h0]
      by_cases h1 : m = k + 1
      · subst h1
        rw [if_pos rfl, if_pos (by omega)]
        ring
      · rw [if_neg h1, if_neg (by omega), if_neg (by omega)]
        ring

/-! ## Zeros -/

/-- the filter as a polynomial -/
noncomputable def pol (k : Nat) (a : ℕ → ℝ) (w : ℂ) : ℂ := ∑ n ∈ range (k + 1), (a n : ℂ) * w ^ n

/-- the reversed filter -/
noncomputable def rev (k : Nat) (a : ℕ → ℝ) (w : ℂ) : ℂ := ∑ n ∈ range (k + 1), (a (k - n) : ℂ) * w ^ n

/-- no zero in the closed unit disc -/
def NoZero (k : Nat) (a : ℕ → ℝ) : Prop := ∀ w : ℂ, ‖w‖ ≤ 1 → pol k a w ≠ 0

theorem pol_extend {k : Nat} {a : ℕ → ℝ} (h : a (k + 1) = 0) (w : ℂ) : pol (k + 1) a w = pol k a w := by
  unfold pol
  rw [Finset.sum_range_succ, h]
  simp

theorem rev_extend {k : Nat} {a : ℕ → ℝ} (h : a (k + 1) = 0) (w : ℂ) : rev (k + 1) a w = w * rev k a w := by
  unfold rev
  rw [Finset.sum_range_succ', Nat.sub_zero, h, Finset.mul_sum]
  simp only [Complex.ofReal_zero, zero_mul, add_zero]
  refine Finset.sum_congr rfl fun n hn => ?_
  rw [show k + 1 - (n + 1) = k - n by omega, pow_succ]
  ring

theorem pol_combine {k : Nat} {a b : ℕ → ℝ} {c s : ℝ} (h : ∀ n ≤ k, b n = s * (a n + c * a (k - n))) (w : ℂ) :
    pol k b w = s * (pol k a w + c * rev k a w) ∧ rev k b w = s * (rev k a w + c * pol k a w) := by
  unfold pol rev
  constructor
  · rw [Finset.mul_sum, ← Finset.sum_add_distrib, Finset.mul_sum]
    refine Finset.sum_congr rfl fun n hn => ?_
    rw [h n (by simpa [Nat.lt_succ_iff] using hn)]
    push_cast
    ring
  · rw [Finset.mul_sum, ← Finset.sum_add_distrib, Finset.mul_sum]
    refine Finset.sum_congr rfl fun n hn => ?_
    have hn' : n < k + 1 := by simpa using hn
    rw [h (k - n) (by omega), show k - (k - n) = n by omega]
    push_cast
    ring

theorem lattice_norm {u v : ℂ} {c : ℝ} (hc : |c| < 1) (h : ‖v‖ ≤ ‖u‖) : ‖v + c * u‖ ≤ ‖u + c * v‖ := by
  have e : ∀ p q : ℂ, ‖p + c * q‖ ^ 2 = ‖p‖ ^ 2 + c ^ 2 * ‖q‖ ^ 2 + 2 * c * (p.re * q.re + p.im * q.im) := by
    intro p q
    rw [← Complex.normSq_eq_norm_sq, ← Complex.normSq_eq_norm_sq, ← Complex.normSq_eq_norm_sq, Complex.normSq_apply,
      Complex.normSq_apply, Complex.normSq_apply]
    simp
    ring
  have hsq : ‖v + c * u‖ ^ 2 ≤ ‖u + c * v‖ ^ 2 := by
    rw [e, e]
    have h1 : c ^ 2 < 1 := by rw [← sq_abs]; exact pow_lt_one₀ (abs_nonneg c) hc (by norm_num)
    have h2 : ‖v‖ ^ 2 ≤ ‖u‖ ^ 2 := pow_le_pow_left₀ (norm_nonneg _) h 2
    nlinarith
  exact le_of_sq_le_sq hsq (norm_nonneg _)

theorem lattice_ne {u v : ℂ} {c : ℝ} (hc : |c| < 1) (h : ‖v‖ ≤ ‖u‖) (hu : u ≠ 0) : u + c * v ≠ 0 := by
  intro h0
  have h1 : u = -(c * v) := eq_neg_of_add_eq_zero_left h0
  have h2 : ‖u‖ = |c| * ‖v‖ := by
    rw [h1, norm_neg, norm_mul, Complex.norm_real, Real.norm_eq_abs]
  have h3 : 0 < ‖u‖ := norm_pos_iff.2 hu
  have h4 : |c| * ‖v‖ ≤ |c| * ‖u‖ := mul_le_mul_of_nonneg_left h (abs_nonneg c)
  nlinarith

/-- a step up with a reflection coefficient below one keeps the zeros outside -/
theorem stepUp_noZero {k : Nat} {a b : ℕ → ℝ} {c : ℝ} (hc : |c| < 1) (ha : a (k + 1) = 0)
    (hb : ∀ n ≤ k + 1, b n = a n + c * a (k + 1 - n))
    (hz : NoZero k a) (hr : ∀ w : ℂ, ‖w‖ ≤ 1 → ‖rev k a w‖ ≤ ‖pol k a w‖) :
    NoZero (k + 1) b ∧ ∀ w : ℂ, ‖w‖ ≤ 1 → ‖rev (k + 1) b w‖ ≤ ‖pol (k + 1) b w‖ := by
  have hb' : ∀ n ≤ k + 1, b n = 1 * (a n + c * a (k + 1 - n)) := fun n hn => by rw [hb n hn, one_mul]
  have key : ∀ w : ℂ, ‖w‖ ≤ 1 → ‖rev (k + 1) a w‖ ≤ ‖pol (k + 1) a w‖ := by
    intro w hw
    rw [pol_extend ha, rev_extend ha, norm_mul]
    exact (mul_le_of_le_one_left (norm_nonneg _) hw).trans (hr w hw)
  constructor
  · intro w hw
    rw [(pol_combine hb' w).1, Complex.ofReal_one, one_mul]
    refine lattice_ne hc (key w hw) ?_
    rw [pol_extend ha]
    exact hz w hw
  · intro w hw
    rw [(pol_combine hb' w).1, (pol_combine hb' w).2, Complex.ofReal_one, one_mul, one_mul]
    exact lattice_norm hc (key w hw)

/-- reversal reflects the polynomial at the unit circle -/
theorem rev_eq {k : Nat} {a : ℕ → ℝ} {w : ℂ} (hw : w ≠ 0) : rev k a w = w ^ k * pol k a w⁻¹ := by
  unfold rev pol
  rw [← Finset.sum_range_reflect, Finset.mul_sum]
  refine Finset.sum_congr rfl fun n hn => ?_
  have hn' : n < k + 1 := by simpa using hn
  rw [show k + 1 - 1 - n = k - n by omega, show k - (k - n) = n by omega]
  have : w ^ k = w ^ (k - n) * w ^ n := by rw [← pow_add]; congr 1; omega
  rw [this, inv_pow]
  have hp : w ^ n ≠ 0 := pow_ne_zero _ hw
  field_simp

theorem pol_conj (k : Nat) (a : ℕ → ℝ) (w : ℂ) : pol k a ((starRingEnd ℂ) w) = (starRingEnd ℂ) (pol k a w) := by
  unfold pol
  rw [map_sum]
  refine Finset.sum_congr rfl fun n _ => ?_
  rw [map_mul, map_pow, Complex.conj_ofReal]

theorem pol_differentiable (k : Nat) (a : ℕ → ℝ) : Differentiable ℂ (pol k a) := by
  unfold pol
  fun_prop

theorem rev_differentiable (k : Nat) (a : ℕ → ℝ) : Differentiable ℂ (rev k a) := by
  unfold rev
  fun_prop

/-- the maximum principle: inside the disc the reversed filter is not larger -/
theorem rev_le {k : Nat} {a : ℕ → ℝ} (hz : NoZero k a) {w : ℂ} (hw : ‖w‖ ≤ 1) : ‖rev k a w‖ ≤ ‖pol k a w‖ := by
  have hcl : closure (Metric.ball (0 : ℂ) 1) = Metric.closedBall 0 1 := closure_ball 0 (by norm_num)
  have hd : DiffContOnCl ℂ (fun w => rev k a w / pol k a w) (Metric.ball 0 1) := by
    apply DifferentiableOn.diffContOnCl
    rw [hcl]
    intro z hz'
    have hz1 : ‖z‖ ≤ 1 := by simpa using hz'
    exact ((rev_differentiable k a z).div (pol_differentiable k a z) (hz z hz1)).differentiableWithinAt
  have hle := Complex.norm_le_of_forall_mem_frontier_norm_le (C := 1) Metric.isBounded_ball hd (fun z hz' => ?_)
    (z := w) (by rw [hcl]; simpa using hw)
  · simp only [norm_div] at hle
    rwa [div_le_one (norm_pos_iff.2 (hz w hw))] at hle
  · rw [frontier_ball (0 : ℂ) (by norm_num)] at hz'
    have h1 : ‖z‖ = 1 := by simpa using hz'
    have hz0 : z ≠ 0 := by intro h; rw [h] at h1; simp at h1
    have hinv : z⁻¹ = (starRingEnd ℂ) z := by
      rw [Complex.inv_def, Complex.normSq_eq_norm_sq, h1]
      simp
    rw [norm_div, rev_eq hz0, norm_mul, norm_pow, h1, one_pow, one_mul, hinv, pol_conj, RCLike.norm_conj]
    rw [div_self (norm_pos_iff.2 (hz z h1.le)).ne']

/-- without zeros in the disc the last coefficient is below the first -/
theorem last_lt {k : Nat} {a : ℕ → ℝ} (h0 : a 0 = 1) (hz : NoZero (k + 1) a) : |a (k + 1)| < 1 := by
  by_cases hk : a (k + 1) = 0
  · rw [hk]; simp
  obtain ⟨p, hp⟩ : ∃ p : Polynomial ℂ, p = ∑ n ∈ range (k + 2), Polynomial.C (a n : ℂ) * Polynomial.X ^ n := ⟨_, rfl⟩
  have hcoef : ∀ n ≤ k + 1, p.coeff n = a n := by
    intro n hn
    rw [hp]
    simp only [Polynomial.finsetSum_coeff, Polynomial.coeff_C_mul_X_pow]
    rw [Finset.sum_ite_eq]
    rw [if_pos (by simp; omega)]
  have hdeg : p.natDegree = k + 1 := by
    apply le_antisymm
    · rw [hp]
      refine Polynomial.natDegree_sum_le_of_forall_le _ _ fun n hn => ?_
      exact (Polynomial.natDegree_C_mul_X_pow_le _ _).trans (by have : n < k + 2 := by simpa using hn
                                                                omega)
    · apply Polynomial.le_natDegree_of_ne_zero
      rw [hcoef _ (le_refl _)]
      exact_mod_cast hk
  have heval : ∀ w, p.eval w = pol (k + 1) a w := by
    intro w
    rw [hp]
    unfold pol
    simp [Polynomial.eval_finsetSum]
  have hp0 : p ≠ 0 := by
    intro h
    rw [h] at hdeg
    simp at hdeg
  have hsp : p.Splits := IsAlgClosed.splits p
  have hroots : ∀ z ∈ p.roots, 1 < ‖z‖ := by
    intro z hzr
    by_contra hc
    rw [Polynomial.mem_roots hp0] at hzr
    exact hz z (not_lt.1 hc) (by rw [← heval]; exact hzr)
  have hcard : Multiset.card p.roots = k + 1 := by
    rw [← hdeg]
    exact hsp.natDegree_eq_card_roots.symm
  have hprod : p.coeff 0 = (-1) ^ p.natDegree * p.leadingCoeff * p.roots.prod := hsp.coeff_zero_eq_leadingCoeff_mul_prod_roots
  have hnorm : 1 < ‖p.roots.prod‖ := by
    have key : ∀ s : Multiset ℂ, (∀ z ∈ s, 1 < ‖z‖) → 1 ≤ ‖s.prod‖ ∧ (s ≠ 0 → 1 < ‖s.prod‖) := by
      intro s
      induction s using Multiset.induction_on with
      | empty => intro _; simp
      | cons z s ih =>
        intro h
        have h1 := (ih fun y hy => h y (Multiset.mem_cons_of_mem hy)).1
        have h2 := h z (Multiset.mem_cons_self z s)
        rw [Multiset.prod_cons, norm_mul]
        constructor
        · nlinarith
        · intro _; nlinarith
    refine (key _ hroots).2 ?_
    intro h
    rw [h] at hcard
    simp at hcard
  have h1 : ‖p.coeff 0‖ = |a (k + 1)| * ‖p.roots.prod‖ := by
    rw [hprod, norm_mul, norm_mul, norm_pow, norm_neg, norm_one, one_pow, one_mul]
    congr 1
    rw [Polynomial.leadingCoeff, hdeg, hcoef _ (le_refl _), Complex.norm_real, Real.norm_eq_abs]
  rw [hcoef 0 (by omega), h0] at h1
  simp at h1
  have : 0 < |a (k + 1)| := abs_pos.2 hk
  nlinarith

/-- the step down recursion: all reflection coefficients are below one -/
theorem stepDown_lt : ∀ (k : Nat) (a acc : List ℝ), at0 a 0 = 1 → NoZero k (at0 a) → (∀ c ∈ acc, |c| < 1) →
    ∀ c ∈ stepDown k a acc, |c| < 1
  | 0, a, acc, _, _, hacc => hacc
  | k + 1, a, acc, h0, hz, hacc => by
    have ho : (one : ℝ) = 1 := Rat.cast_one
    have hl := last_lt h0 hz
    unfold stepDown
    simp only
    obtain ⟨rc, hrc⟩ : ∃ rc, rc = at0 a (k + 1) := ⟨_, rfl⟩
    rw [← hrc] at hl ⊢
    have h1 : 0 < 1 - rc * rc := by
      have : rc ^ 2 < 1 := by rw [← sq_abs]; exact pow_lt_one₀ (abs_nonneg _) hl (by norm_num)
      nlinarith
    obtain ⟨b, hb⟩ : ∃ b : List ℝ, b = one :: (List.range k).map fun n => (at0 a (n + 1) - rc * at0 a (k + 1 - (n + 1))) / (one - rc * rc) :=
      ⟨_, rfl⟩
    rw [← hb]
    have hbn : ∀ n ≤ k + 1, at0 b n = (1 / (1 - rc * rc)) * (at0 a n + (-rc) * at0 a (k + 1 - n)) := by
      intro n hn
      rcases n with _ | n
      · rw [Nat.sub_zero, ← hrc, h0, hb]
        simp only [at0, List.getD_cons_zero, ho]
        rw [one_div, show 1 + -rc * rc = 1 - rc * rc by ring, inv_mul_cancel₀ h1.ne']
      · by_cases hnk : n = k
        · subst hnk
          rw [at0_beyond (by rw [hb]; simp), Nat.sub_self, h0, ← hrc]
          ring
        · have hnk' : n < k := by omega
          rw [hb]
          have : at0 (one :: (List.range k).map fun n => (at0 a (n + 1) - rc * at0 a (k + 1 - (n + 1))) / (one - rc * rc)) (n + 1)
              = (at0 a (n + 1) - rc * at0 a (k + 1 - (n + 1))) / (one - rc * rc) := by
            simp [at0, hnk']
          rw [this, ho]
          field_simp
          ring
    refine stepDown_lt k b (rc :: acc) ?_ ?_ ?_
    · rw [hb]; simp [at0, ho]
    · intro w hw
      have hbk : at0 b (k + 1) = 0 := at0_beyond (by rw [hb]; simp)
      rw [← pol_extend hbk, (pol_combine hbn w).1]
      refine mul_ne_zero ?_ ?_
      · rw [Ne, Complex.ofReal_eq_zero]
        positivity
      · exact lattice_ne (by rwa [abs_neg]) (rev_le hz hw) (hz w hw)
    · intro c hc
      rcases List.mem_cons.1 hc with rfl | hc
      · exact hl
      · exact hacc c hc

end Lc3
