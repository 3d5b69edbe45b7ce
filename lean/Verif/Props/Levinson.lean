import Verif.Lemmas.Levinson
import Mathlib.Data.List.GetD
/-! C73, C74: the linear prediction of the temporal noise shaping, in exact arithmetic -/

namespace Lc3
open Scalar Spec Finset

/-- the first `k` steps -/
theorem levinson_steps {r : List ℝ} (hr : Nonsingular (at0 r)) : ∀ k ≤ 8, ∃ a e,
    (List.range k).foldl (fun s k => levStep r (k + 1) s) ([one], at0 r 0) = (a, e) ∧ LevInv (at0 r) k a e ∧
      NoZero k (at0 a) ∧ ∀ w : ℂ, ‖w‖ ≤ 1 → ‖rev k (at0 a) w‖ ≤ ‖pol k (at0 a) w‖
  | 0, _ => by
    have ho : (one : ℝ) = 1 := Rat.cast_one
    refine ⟨[one], at0 r 0, rfl, ⟨rfl, by simp [at0, ho], ?_⟩, ?_, ?_⟩
    · intro m hm
      have : m = 0 := by omega
      subst this
      simp [at0, ho, lag]
    · intro w _
      simp [pol, at0, ho]
    · intro w _
      simp [pol, rev]
  | k + 1, hk => by
    obtain ⟨a, e, hs, hi, hz, hrev⟩ := levinson_steps hr k (by omega)
    have he : 0 < e := hi.pos hr (by omega)
    obtain ⟨hi', rc, h2, hc⟩ := hi.step he.ne'
    have he' := hi'.pos hr (by omega)
    refine ⟨(levStep r (k + 1) (a, e)).1, (levStep r (k + 1) (a, e)).2, ?_, hi', ?_⟩
    · rw [List.range_succ, List.foldl_append, hs]
      rfl
    · have hrc : |rc| < 1 := by
        rw [h2] at he'
        have : 0 < 1 - rc * rc := by
          by_contra hcon
          have := mul_nonpos_of_nonneg_of_nonpos he.le (not_lt.1 hcon)
          linarith
        rw [← sq_lt_one_iff_abs_lt_one]
        nlinarith
      exact stepUp_noZero hrc (at0_beyond (by rw [hi.len])) hc hz hrev

/-- the quadratic form around the solution -/
theorem filteredEnergy_min {r a : ℕ → ℝ} {e : ℝ} (hn : NormalEquations r a e) (h0 : a 0 = 1) {b : ℕ → ℝ} (hb : b 0 = 1) :
    filteredEnergy r b = e + filteredEnergy r (fun n => b n - a n) := by
  have cross : ∀ c : ℕ → ℝ, ∑ m ∈ range 9, ∑ n ∈ range 9, c m * a n * r (lag m n) = c 0 * e := by
    intro c
    have : ∀ m ∈ range 9, ∑ n ∈ range 9, c m * a n * r (lag m n) = c m * if m = 0 then e else 0 := by
      intro m hm
      rw [← hn m (by simpa using hm), Finset.mul_sum]
      exact Finset.sum_congr rfl fun n _ => by ring
    rw [Finset.sum_congr rfl this, Finset.sum_eq_single 0 (fun m _ hm => by simp [hm]) (fun h => by simp at h)]
    simp
  have cross' : ∀ c : ℕ → ℝ, ∑ m ∈ range 9, ∑ n ∈ range 9, a m * c n * r (lag m n) = c 0 * e := by
    intro c
    rw [← cross c, Finset.sum_comm]
    refine Finset.sum_congr rfl fun m _ => Finset.sum_congr rfl fun n _ => ?_
    rw [lag_comm]
    ring
  have h1 := cross b
  have h2 := cross' b
  have h3 := cross a
  have : filteredEnergy r (fun n => b n - a n) = filteredEnergy r b - (∑ m ∈ range 9, ∑ n ∈ range 9, b m * a n * r (lag m n))
      - (∑ m ∈ range 9, ∑ n ∈ range 9, a m * b n * r (lag m n)) + ∑ m ∈ range 9, ∑ n ∈ range 9, a m * a n * r (lag m n) := by
    unfold filteredEnergy
    rw [← Finset.sum_sub_distrib, ← Finset.sum_sub_distrib, ← Finset.sum_add_distrib]
    refine Finset.sum_congr rfl fun m _ => ?_
    rw [← Finset.sum_sub_distrib, ← Finset.sum_sub_distrib, ← Finset.sum_add_distrib]
    exact Finset.sum_congr rfl fun n _ => by ring
  rw [this, h1, h2, h3, hb, h0]
  ring

/-- **C73** (exact arithmetic) For every autocorrelation that no filter of order 8 cancels, the recursion of the encoder solves the normal equations:
the nine coefficients start with one, the remaining energy is positive, and no other filter that starts with one
leaves as little energy. -/
theorem C73 {r : List ℝ} (hr : Nonsingular (at0 r)) :
    at0 (levinson r).1 0 = 1 ∧ NormalEquations (at0 r) (at0 (levinson r).1) (levinson r).2 ∧
    filteredEnergy (at0 r) (at0 (levinson r).1) = (levinson r).2 ∧ 0 < (levinson r).2 ∧
    ∀ b : ℕ → ℝ, b 0 = 1 → (levinson r).2 ≤ filteredEnergy (at0 r) b ∧
      (filteredEnergy (at0 r) b = (levinson r).2 → ∀ n < 9, b n = at0 (levinson r).1 n) := by
  obtain ⟨a, e, hs, hi, -⟩ := levinson_steps hr 8 (le_refl _)
  have hl : levinson r = (a, e) := hs
  rw [hl]
  have hn : NormalEquations (at0 r) (at0 a) e := fun m hm => hi.normal m (by omega)
  refine ⟨hi.first, hn, hi.energy (le_refl _), hi.pos hr (le_refl _), fun b hb => ?_⟩
  have h1 := filteredEnergy_min hn hi.first hb
  by_cases hd : ∃ n < 9, b n - at0 a n ≠ 0
  · have := hr _ hd
    refine ⟨by simp only at this ⊢; linarith, fun h => ?_⟩
    simp only at this h
    linarith
  · have heq : ∀ n < 9, b n = at0 a n := by
      intro n hn
      by_contra hc
      exact hd ⟨n, hn, sub_ne_zero.2 hc⟩
    refine ⟨?_, fun _ => heq⟩
    rw [h1]
    have : filteredEnergy (at0 r) (fun n => b n - at0 a n) = 0 := by
      unfold filteredEnergy
      refine Finset.sum_eq_zero fun m hm => Finset.sum_eq_zero fun n _ => ?_
      simp only [heq m (by simpa using hm)]
      ring
    simp only
    linarith

/-- **C74** (exact arithmetic) For every autocorrelation that no filter of order 8 cancels, with or without weighting: all reflection coefficients of the
analysis have a magnitude below one. -/
theorem C74 {r : List ℝ} (hr : Nonsingular (at0 r)) (nn : Bool) (w : Nat) : ∀ c ∈ tnsAnalysis r nn w, |c| < 1 := by
  obtain ⟨a, e, hs, hi, hz, -⟩ := levinson_steps hr 8 (le_refl _)
  have hl : levinson r = (a, e) := hs
  have ho : (one : ℝ) = 1 := Rat.cast_one
  unfold tnsAnalysis
  rw [hl]
  simp only
  obtain ⟨pg, hpg⟩ : ∃ pg : ℝ, pg = if Scalar.eq e (zero : ℝ) then at0 r 0 else at0 r 0 / e := ⟨_, rfl⟩
  rw [← hpg]
  split
  · rename_i hc
    rw [Bool.and_eq_true] at hc
    have hp : 3 / 2 < pg := by
      have h := hc.1
      have : decide (((3 / 2 : ℚ) : ℝ) < pg) = true := h
      simpa using this
    obtain ⟨g, hg⟩ : ∃ g : ℝ, g = (if (decide (w > 0) && lt pg (ofRat 2)) = true then
        one - (one - ofRat (85 / 100)) * (ofRat 2 - pg) / (ofRat 2 - ofRat (3 / 2)) else one) := ⟨_, rfl⟩
    rw [← hg]
    have hg01 : 0 < g ∧ g ≤ 1 := by
      rw [hg]
      split
      · rename_i h2
        rw [Bool.and_eq_true] at h2
        have h3 : decide (pg < ((2 : ℚ) : ℝ)) = true := h2.2
        have h4 : pg < 2 := by simpa using h3
        have : (one - (one - ofRat (85 / 100)) * (ofRat 2 - pg) / (ofRat 2 - ofRat (3 / 2)) : ℝ) = 1 - 3 / 10 * (2 - pg) := by
          rw [ho]
          show 1 - (1 - ((85 / 100 : ℚ) : ℝ)) * (((2 : ℚ) : ℝ) - pg) / (((2 : ℚ) : ℝ) - ((3 / 2 : ℚ) : ℝ)) = _
          push_cast
          ring
        rw [this]
        constructor <;> linarith
      · rw [ho]; norm_num
    have hat : ∀ n ≤ 8, at0 (a.zipIdx.map fun p => p.1 * powi g p.2) n = at0 a n * g ^ n := by
      intro n hn
      have hn' : n < a.length := by rw [hi.len]; omega
      unfold at0
      rw [List.getD_eq_getElem _ _ (by simpa using hn'), List.getD_eq_getElem _ _ hn']
      simp only [List.getElem_map, List.getElem_zipIdx, Nat.zero_add]
      show a[n] * g ^ ((n : ℕ) : ℤ) = _
      rw [zpow_natCast]
    refine stepDown_lt 8 _ [] ?_ ?_ (by simp)
    · rw [hat 0 (by omega), hi.first]; norm_num
    · intro z hz1
      have : pol 8 (at0 (a.zipIdx.map fun p => p.1 * powi g p.2)) z = pol 8 (at0 a) (g * z) := by
        unfold pol
        refine Finset.sum_congr rfl fun n hn => ?_
        rw [hat n (by have : n < 9 := by simpa using hn
                      omega), mul_pow]
        push_cast
        ring
      rw [this]
      apply hz
      rw [norm_mul, Complex.norm_real, Real.norm_eq_abs, abs_of_pos hg01.1]
      calc g * ‖z‖ ≤ 1 * 1 := mul_le_mul hg01.2 hz1 (norm_nonneg _) (by norm_num)
        _ = 1 := one_mul 1
  · intro c hc
    rw [List.eq_of_mem_replicate hc, show ((zero : ℝ)) = 0 from Rat.cast_zero]
    norm_num

/-- an autocorrelation with a neighbour correlation of a quarter -/
example : Nonsingular (at0 [1, 1 / 4, 0, 0, 0, 0, 0, 0, (0 : ℝ)]) := by
  intro b hb
  have hsum : 0 < ∑ i ∈ Finset.range 9, b i ^ 2 := by
    obtain ⟨n, hn, h⟩ := hb
    exact Finset.sum_pos' (fun i _ => sq_nonneg _) ⟨n, by simpa using hn, by positivity⟩
  simp only [filteredEnergy, Finset.sum_range_succ, Finset.sum_range_zero, lag, at0] at hsum ⊢
  norm_num at hsum ⊢
  linarith [sq_nonneg (b 0 + b 1), sq_nonneg (b 1 + b 2), sq_nonneg (b 2 + b 3), sq_nonneg (b 3 + b 4), sq_nonneg (b 4 + b 5),
    sq_nonneg (b 5 + b 6), sq_nonneg (b 6 + b 7), sq_nonneg (b 7 + b 8), sq_nonneg (b 0), sq_nonneg (b 8)]

end Lc3
