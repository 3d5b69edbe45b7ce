import Verif.Spec.Pitch
import Verif.Lemmas.PitchSignal
import Mathlib.Algebra.BigOperators.Ring.Finset
import Mathlib.Algebra.Order.BigOperators.Ring.Finset
import Mathlib.Tactic.Linarith
import Mathlib.Tactic.FieldSimp
/-! Facts about the specification of the pitch analysis: it determines its results, is invariant under scaling and delay. -/

namespace Lc3.Spec
open Finset Tables

/-! ## The results are determined -/

theorem FirstMax.unique {f : ℕ → ℝ} {lo hi m m' : ℕ} (h : FirstMax f lo hi m) (h' : FirstMax f lo hi m') : m = m' := by
  obtain ⟨a1, a2, a3, a4⟩ := h
  obtain ⟨b1, b2, b3, b4⟩ := h'
  rcases lt_trichotomy m m' with hlt | heq | hlt
  · exact absurd (b4 m a1 hlt) (not_lt.2 (a3 m' b1 b2))
  · exact heq
  · exact absurd (a4 m' b1 hlt) (not_lt.2 (b3 m a1 a2))

theorem OpenLoop.unique {w : ℤ → ℝ} {a : ℤ} {L last T T' : ℕ} (h : OpenLoop w a L last T) (h' : OpenLoop w a L last T') : T = T' := by
  obtain ⟨t1, t2, h1, h2, rfl⟩ := h
  obtain ⟨t1', t2', h1', h2', rfl⟩ := h'
  rw [h1.unique h1', h2.unique h2']

theorem ClosedLoop.unique {x : ℤ → ℝ} {a : ℤ} {L T p p' : ℕ} (h : ClosedLoop x a L T p) (h' : ClosedLoop x a L T p') : p = p' := by
  by_cases hc : ∃ k : ℕ, max 32 (2 * T - 4) ≤ k ∧ k ≤ min 228 (2 * T + 4) ∧ 0 < corr x a L k
  · exact (h.1 hc).unique (h'.1 hc)
  · have hall : ∀ k : ℕ, max 32 (2 * T - 4) ≤ k → k ≤ min 228 (2 * T + 4) → corr x a L k ≤ 0 :=
      fun k k1 k2 => not_lt.1 fun k3 => hc ⟨k, k1, k2, k3⟩
    rw [h.2 hall, h'.2 hall]

theorem Fraction.unique {x : ℤ → ℝ} {a : ℤ} {L p : ℕ} {d d' : ℤ} (h : Fraction x a L p d) (h' : Fraction x a L p d') : d = d' := by
  by_cases hc : ∃ e, quarters p e ∧ 0 < corrBetween x a L p e
  · obtain ⟨a1, a2, a3⟩ := h.1 hc
    obtain ⟨b1, b2, b3⟩ := h'.1 hc
    rcases lt_trichotomy d d' with hlt | heq | hlt
    · exact absurd (b3 d a1 hlt) (not_lt.2 (a2 d' b1))
    · exact heq
    · exact absurd (a3 d' b1 hlt) (not_lt.2 (b2 d a1))
  · have hall : ∀ e, quarters p e → corrBetween x a L p e ≤ 0 := fun e e1 => not_lt.1 fun e2 => hc ⟨e, e1, e2⟩
    rw [h.2 hall, h'.2 hall]

/-- the signals, the memory and the frame determine the results -/
theorem PitchFrame.unique {w x : ℤ → ℝ} {d : FrameDuration} {t : ℕ} {al : Prop} {m m1 m2 : PitchMem} {i1 i2 : ℕ} {p1 p2 a1 a2 : Bool}
    (h : PitchFrame w x d t al m m1 i1 p1 a1) (h' : PitchFrame w x d t al m m2 i2 p2 a2) : m1 = m2 ∧ i1 = i2 ∧ p1 = p2 ∧ a1 = a2 := by
  obtain ⟨T, p, e, h1, h2, h3, h4, q, h5, h6, h7, h8⟩ := h
  obtain ⟨T', p', e', h1', h2', h3', h4', q', h5', h6', h7', h8'⟩ := h'
  obtain rfl := h1.unique h1'
  obtain rfl := h3.unique h3'
  obtain rfl := h4.unique h4'
  obtain rfl : q = q' := by omega
  have hp : p1 = p2 := Bool.eq_iff_iff.2 (h2.trans h2'.symm)
  subst hp
  have ha : a1 = a2 := Bool.eq_iff_iff.2 (h7.trans h7'.symm)
  subst ha
  exact ⟨h8.trans h8'.symm, h6.trans h6'.symm, rfl, rfl⟩

/-! ## Scaling -/

section scale
variable (c : ℝ)

theorem at12k8_scale (fs : ℕ) (s : ℤ → ℝ) (n : ℤ) : at12k8 fs (fun t => c * s t) n = c * at12k8 fs s n := by
  unfold at12k8
  rw [mul_left_comm, Finset.mul_sum (a := c)]
  congr 1
  refine Finset.sum_congr rfl fun i _ => ?_
  split
  · ring
  · ring

theorem poles_scale (u : ℤ → ℝ) : ∀ n, poles (fun t => c * u t) n = c * poles u n
  | 0 => by simp [poles]
  | 1 => by simp only [poles]; ring
  | n + 2 => by simp only [poles]; rw [poles_scale u (n + 1), poles_scale u n]; ring

theorem highPassed_scale (u : ℤ → ℝ) (n : ℤ) : highPassed (fun t => c * u t) n = c * highPassed u n := by
  have : ∀ m, polesZ (fun t => c * u t) m = c * polesZ u m := by
    intro m; unfold polesZ
    split
    · exact poles_scale c u _
    · ring
  unfold highPassed
  rw [this, this, this]; ring

theorem analysed_scale (fs : ℕ) (d : FrameDuration) (s : ℤ → ℝ) : analysed fs d (fun t => c * s t) = fun n => c * analysed fs d s n := by
  funext n
  unfold analysed
  rw [show at12k8 fs (fun t => c * s t) = fun n => c * at12k8 fs s n from funext (at12k8_scale c fs s), highPassed_scale]

theorem at6k4_scale (x : ℤ → ℝ) : at6k4 (fun t => c * x t) = fun n => c * at6k4 x n := by
  funext n; unfold at6k4; ring

theorem corr_scale (x : ℤ → ℝ) (a : ℤ) (L : ℕ) (k : ℤ) : corr (fun t => c * x t) a L k = c ^ 2 * corr x a L k := by
  unfold corr; rw [Finset.mul_sum]; exact Finset.sum_congr rfl fun n _ => by ring

theorem lagEnergy_scale (x : ℤ → ℝ) (a : ℤ) (L : ℕ) (k : ℤ) : lagEnergy (fun t => c * x t) a L k = c ^ 2 * lagEnergy x a L k := by
  unfold lagEnergy; rw [Finset.mul_sum]; exact Finset.sum_congr rfl fun n _ => by ring

theorem between_scale (x : ℤ → ℝ) (n d : ℤ) : between (fun t => c * x t) n d = c * between x n d := by
  unfold between; rw [Finset.mul_sum]; exact Finset.sum_congr rfl fun k _ => by ring

theorem corrBetween_scale (x : ℤ → ℝ) (a : ℤ) (L p : ℕ) (d : ℤ) : corrBetween (fun t => c * x t) a L p d = c ^ 2 * corrBetween x a L p d := by
  unfold corrBetween; rw [Finset.mul_sum]; exact Finset.sum_congr rfl fun k _ => by rw [corr_scale]; ring

variable {c} (hc : 0 < c)
include hc

theorem ratio_scale (r e0 e1 : ℝ) : c ^ 2 * r / Real.sqrt (c ^ 2 * e0 * (c ^ 2 * e1)) = r / Real.sqrt (e0 * e1) := by
  rw [show c ^ 2 * e0 * (c ^ 2 * e1) = (c ^ 2) ^ 2 * (e0 * e1) by ring, Real.sqrt_mul (by positivity), Real.sqrt_sq (by positivity),
    mul_div_mul_left _ _ (by positivity)]

theorem normCorr_scale (x : ℤ → ℝ) (a : ℤ) (L : ℕ) (k : ℤ) : normCorr (fun t => c * x t) a L k = normCorr x a L k := by
  unfold normCorr
  rw [corr_scale, lagEnergy_scale, lagEnergy_scale, ratio_scale hc]

theorem periodicity_scale (x : ℤ → ℝ) (a : ℤ) (L p : ℕ) (fr : ℤ) : periodicity (fun t => c * x t) a L p fr = periodicity x a L p fr := by
  unfold periodicity
  have h1 : ∑ n ∈ range L, between (fun t => c * x t) (a + n) 0 * between (fun t => c * x t) (a + n - p) fr
      = c ^ 2 * ∑ n ∈ range L, between x (a + n) 0 * between x (a + n - p) fr := by
    rw [Finset.mul_sum]; exact Finset.sum_congr rfl fun n _ => by rw [between_scale, between_scale]; ring
  have h2 : ∑ n ∈ range L, between (fun t => c * x t) (a + n) 0 ^ 2 = c ^ 2 * ∑ n ∈ range L, between x (a + n) 0 ^ 2 := by
    rw [Finset.mul_sum]; exact Finset.sum_congr rfl fun n _ => by rw [between_scale]; ring
  have h3 : ∑ n ∈ range L, between (fun t => c * x t) (a + n - p) fr ^ 2 = c ^ 2 * ∑ n ∈ range L, between x (a + n - p) fr ^ 2 := by
    rw [Finset.mul_sum]; exact Finset.sum_congr rfl fun n _ => by rw [between_scale]; ring
  rw [h1, h2, h3, ratio_scale hc]

theorem FirstMax.scale {f g : ℕ → ℝ} {lo hi m : ℕ} (h : FirstMax f lo hi m) (hg : ∀ k, g k = c * f k) : FirstMax g lo hi m := by
  obtain ⟨a1, a2, a3, a4⟩ := h
  refine ⟨a1, a2, fun k k1 k2 => ?_, fun k k1 k2 => ?_⟩
  · rw [hg, hg]; exact mul_le_mul_of_nonneg_left (a3 k k1 k2) hc.le
  · rw [hg, hg]; exact mul_lt_mul_of_pos_left (a4 k k1 k2) hc

theorem OpenLoop.scale {w : ℤ → ℝ} {a : ℤ} {L last T : ℕ} (h : OpenLoop w a L last T) : OpenLoop (fun t => c * w t) a L last T := by
  obtain ⟨t1, t2, h1, h2, h3⟩ := h
  have hc2 : 0 < c ^ 2 := by positivity
  refine ⟨t1, t2, h1.scale hc2 fun k => ?_, h2.scale hc2 fun k => ?_, ?_⟩
  · rw [corr_scale]; ring
  · rw [corr_scale]
  · rw [normCorr_scale hc, normCorr_scale hc]; exact h3

theorem ClosedLoop.scale {x : ℤ → ℝ} {a : ℤ} {L T p : ℕ} (h : ClosedLoop x a L T p) : ClosedLoop (fun t => c * x t) a L T p := by
  have hc2 : 0 < c ^ 2 := by positivity
  refine ⟨?_, ?_⟩
  · rintro ⟨k, k1, k2, k3⟩
    rw [corr_scale] at k3
    exact (h.1 ⟨k, k1, k2, by by_contra hcon; exact absurd k3 (not_lt.2 (mul_nonpos_of_nonneg_of_nonpos hc2.le (not_lt.1 hcon)))⟩).scale hc2
      fun k => by rw [corr_scale]
  · intro hall
    refine h.2 fun k k1 k2 => ?_
    have := hall k k1 k2
    rw [corr_scale] at this
    by_contra hcon
    exact absurd this (not_le.2 (mul_pos hc2 (not_le.1 hcon)))

theorem Fraction.scale {x : ℤ → ℝ} {a : ℤ} {L p : ℕ} {d : ℤ} (h : Fraction x a L p d) : Fraction (fun t => c * x t) a L p d := by
  have hc2 : 0 < c ^ 2 := by positivity
  refine ⟨?_, ?_⟩
  · rintro ⟨e, e1, e2⟩
    rw [corrBetween_scale] at e2
    obtain ⟨a1, a2, a3⟩ := h.1 ⟨e, e1, by
      by_contra hcon; exact absurd e2 (not_lt.2 (mul_nonpos_of_nonneg_of_nonpos hc2.le (not_lt.1 hcon)))⟩
    refine ⟨a1, fun e q => ?_, fun e q l => ?_⟩
    · rw [corrBetween_scale, corrBetween_scale]; exact mul_le_mul_of_nonneg_left (a2 e q) hc2.le
    · rw [corrBetween_scale, corrBetween_scale]; exact mul_lt_mul_of_pos_left (a3 e q l) hc2
  · intro hall
    refine h.2 fun e e1 => ?_
    have := hall e e1
    rw [corrBetween_scale] at this
    by_contra hcon
    exact absurd this (not_le.2 (mul_pos hc2 (not_le.1 hcon)))

/-- a louder or softer signal gives the same results -/
theorem PitchFrame.scale {w x : ℤ → ℝ} {d : FrameDuration} {t : ℕ} {al : Prop} {m m1 : PitchMem} {i1 : ℕ} {p1 a1 : Bool}
    (h : PitchFrame w x d t al m m1 i1 p1 a1) : PitchFrame (fun t => c * w t) (fun t => c * x t) d t al m m1 i1 p1 a1 := by
  obtain ⟨T, p, e, h1, h2, h3, h4, q, h5, h6, h7, h8⟩ := h
  refine ⟨T, p, e, h1.scale hc, ?_, h3.scale hc, h4.scale hc, q, h5, h6, ?_, ?_⟩
  · rw [normCorr_scale hc]; exact h2
  · rw [periodicity_scale hc]; exact h7
  · rw [periodicity_scale hc]; exact h8

end scale

/-! ## Delay -/

theorem at12k8_neg (fs : ℕ) (s : ℤ → ℝ) (hs : ∀ n < 0, s n = 0) (hP : spacing fs ∣ 120) {N : ℤ} (hN : N < 0) : at12k8 fs s N = 0 := by
  unfold at12k8
  rw [Finset.sum_eq_zero, mul_zero]
  intro i hi
  split
  · rename_i hd
    rw [Finset.mem_Icc] at hi
    rw [hs, zero_mul]
    obtain ⟨c, hc⟩ := hP
    have hP' : (0 : ℤ) < spacing fs := by
      have : spacing fs ≠ 0 := by rintro h; rw [h] at hc; omega
      omega
    have hc' : (120 : ℤ) = spacing fs * c := by exact_mod_cast hc
    obtain ⟨e, he⟩ := hd
    rw [he, hc', Int.mul_ediv_cancel_left _ hP'.ne', Int.mul_ediv_cancel_left _ hP'.ne']
    have : (spacing fs : ℤ) * e < spacing fs * c := by omega
    have := lt_of_mul_lt_mul_left this hP'.le
    omega
  · rfl

theorem at12k8_delay (fs nf L : ℕ) (s : ℤ → ℝ) (hP : 0 < spacing fs) (hL : 15 * L = spacing fs * nf) (N : ℤ) :
    at12k8 fs (fun t => s (t - nf)) N = at12k8 fs s (N - L) := by
  unfold at12k8
  congr 1
  have hP' : (spacing fs : ℤ) ≠ 0 := by omega
  have hL' : (15 * L : ℤ) = spacing fs * nf := by exact_mod_cast hL
  refine Finset.sum_congr rfl fun i _ => ?_
  have h1 : 15 * N + i = 15 * (N - L) + i + spacing fs * nf := by linear_combination hL'
  have h2 : (spacing fs : ℤ) ∣ 15 * N + i ↔ (spacing fs : ℤ) ∣ 15 * (N - L) + i := by
    rw [h1]; exact Int.dvd_add_left (dvd_mul_right _ _)
  simp only [h2]
  rw [h1, Int.add_mul_ediv_left _ _ hP']
  rw [show (15 * (N - (L : ℤ)) + i) / (spacing fs : ℤ) + nf - 120 / (spacing fs : ℤ) - nf
    = (15 * (N - (L : ℤ)) + i) / (spacing fs : ℤ) - 120 / (spacing fs : ℤ) by ring]

theorem polesZ_rec_all (u : ℤ → ℝ) (hu : ∀ n < 0, u n = 0) (n : ℤ) :
    polesZ u n = u n + 19652933726226904 / 10 ^ 16 * polesZ u (n - 1) - 9658854605688177 / 10 ^ 16 * polesZ u (n - 2) := by
  by_cases hn : 0 ≤ n
  · exact polesZ_rec u hn
  · rw [hu n (by omega)]
    unfold polesZ
    rw [if_neg hn, if_neg (by omega), if_neg (by omega)]; ring

theorem polesZ_delay (u : ℤ → ℝ) (hu : ∀ n < 0, u n = 0) (L : ℕ) (n : ℤ) : polesZ (fun t => u (t - L)) n = polesZ u (n - L) := by
  have hneg : ∀ n : ℤ, n < 0 → polesZ (fun t => u (t - L)) n = polesZ u (n - L) := by
    intro n hn
    unfold polesZ
    rw [if_neg (by omega), if_neg (by omega)]
  have key : ∀ m : ℕ, polesZ (fun t => u (t - L)) m = polesZ u (m - L) := by
    intro m
    induction m using Nat.strong_induction_on with
    | _ m ih =>
      have hsub : ∀ k : ℤ, k < m → polesZ (fun t => u (t - L)) k = polesZ u (k - L) := by
        intro k hk
        by_cases h0 : k < 0
        · exact hneg k h0
        · obtain ⟨j, rfl⟩ := Int.eq_ofNat_of_zero_le (not_lt.1 h0)
          exact ih j (by exact_mod_cast hk)
      rw [polesZ_rec _ (by omega), polesZ_rec_all u hu, hsub _ (by omega), hsub _ (by omega),
        show (m : ℤ) - 1 - L = m - L - 1 by ring, show (m : ℤ) - 2 - L = m - L - 2 by ring]
  by_cases h0 : n < 0
  · exact hneg n h0
  · obtain ⟨j, rfl⟩ := Int.eq_ofNat_of_zero_le (not_lt.1 h0)
    exact key j

theorem analysed_delay (fs nf L : ℕ) (d : FrameDuration) (s : ℤ → ℝ) (hs : ∀ n < 0, s n = 0) (hP : spacing fs ∣ 120)
    (hL : 15 * L = spacing fs * nf) : analysed fs d (fun t => s (t - nf)) = fun n => analysed fs d s (n - L) := by
  have hP0 : 0 < spacing fs := Nat.pos_of_ne_zero (by rintro h; rw [h] at hP; omega)
  funext n
  unfold analysed highPassed
  rw [show at12k8 fs (fun t => s (t - nf)) = fun n => at12k8 fs s (n - L) from funext (at12k8_delay fs nf L s hP0 hL)]
  have hu : ∀ n < 0, at12k8 fs s n = 0 := fun n hn => at12k8_neg fs s hs hP hn
  rw [polesZ_delay _ hu, polesZ_delay _ hu, polesZ_delay _ hu]
  rw [show n - (analysisDelay d : ℤ) - 1 - L = n - L - analysisDelay d - 1 by ring, show n - (analysisDelay d : ℤ) - 2 - L = n - L - analysisDelay d - 2 by ring,
    show n - (analysisDelay d : ℤ) - L = n - L - analysisDelay d by ring]

theorem at6k4_delay (x : ℤ → ℝ) (L : ℕ) : at6k4 (fun n => x (n - (2 * L : ℕ))) = fun n => at6k4 x (n - L) := by
  funext n
  unfold at6k4
  beta_reduce
  rw [show 2 * n - 3 - ((2 * L : ℕ) : ℤ) = 2 * (n - L) - 3 by push_cast; ring, show 2 * n - 2 - ((2 * L : ℕ) : ℤ) = 2 * (n - L) - 2 by push_cast; ring,
    show 2 * n - 1 - ((2 * L : ℕ) : ℤ) = 2 * (n - L) - 1 by push_cast; ring, show 2 * n - ((2 * L : ℕ) : ℤ) = 2 * (n - L) by push_cast; ring,
    show 2 * n + 1 - ((2 * L : ℕ) : ℤ) = 2 * (n - L) + 1 by push_cast; ring]

theorem corr_delay (x : ℤ → ℝ) (L : ℕ) (a : ℤ) (M : ℕ) (k : ℤ) : corr (fun n => x (n - L)) (a + L) M k = corr x a M k := by
  unfold corr
  refine Finset.sum_congr rfl fun n _ => ?_
  beta_reduce
  rw [show a + L + n - (L : ℤ) = a + n by ring, show a + L + n - k - (L : ℤ) = a + n - k by ring]

theorem lagEnergy_delay (x : ℤ → ℝ) (L : ℕ) (a : ℤ) (M : ℕ) (k : ℤ) : lagEnergy (fun n => x (n - L)) (a + L) M k = lagEnergy x a M k := by
  unfold lagEnergy
  refine Finset.sum_congr rfl fun n _ => ?_
  beta_reduce
  rw [show a + L + n - k - (L : ℤ) = a + n - k by ring]

theorem normCorr_delay (x : ℤ → ℝ) (L : ℕ) (a : ℤ) (M : ℕ) (k : ℤ) : normCorr (fun n => x (n - L)) (a + L) M k = normCorr x a M k := by
  unfold normCorr
  rw [corr_delay, lagEnergy_delay, lagEnergy_delay]

theorem between_delay (x : ℤ → ℝ) (L : ℕ) (n d : ℤ) : between (fun n => x (n - L)) n d = between x (n - L) d := by
  unfold between
  refine Finset.sum_congr rfl fun k _ => ?_
  beta_reduce
  rw [show n - k - (L : ℤ) = n - L - k by ring]

theorem periodicity_delay (x : ℤ → ℝ) (L : ℕ) (a : ℤ) (M p : ℕ) (fr : ℤ) :
    periodicity (fun n => x (n - L)) (a + L) M p fr = periodicity x a M p fr := by
  unfold periodicity
  have h1 : ∀ n : ℕ, a + L + n - (L : ℤ) = a + n := fun n => by ring
  have h2 : ∀ n : ℕ, a + L + n - p - (L : ℤ) = a + n - p := fun n => by ring
  simp only [between_delay, h1, h2]

theorem corrBetween_delay (x : ℤ → ℝ) (L : ℕ) (a : ℤ) (M p : ℕ) (d : ℤ) :
    corrBetween (fun n => x (n - L)) (a + L) M p d = corrBetween x a M p d := by
  unfold corrBetween
  simp only [corr_delay]

/-- delaying the signals by a frame delays the results by a frame -/
theorem pitchFrame_delay {w x : ℤ → ℝ} {d : FrameDuration} {t : ℕ} {al : Prop} {m m1 : PitchMem} {i1 : ℕ} {p1 a1 : Bool} :
    PitchFrame (fun n => w (n - (frame12k8 d / 2 : ℕ))) (fun n => x (n - frame12k8 d)) d (t + 1) al m m1 i1 p1 a1
      ↔ PitchFrame w x d t al m m1 i1 p1 a1 := by
  have ea : (((t + 1) * (frame12k8 d / 2) : ℕ) : ℤ) = (t * (frame12k8 d / 2) : ℕ) + (frame12k8 d / 2 : ℕ) := by push_cast; ring
  have eb : (((t + 1) * frame12k8 d : ℕ) : ℤ) = (t * frame12k8 d : ℕ) + frame12k8 d := by push_cast; ring
  unfold PitchFrame OpenLoop ClosedLoop Fraction
  rw [ea, eb]
  simp only [corr_delay, normCorr_delay, corrBetween_delay, periodicity_delay]

theorem FirstMax.of_zero {f : ℕ → ℝ} {lo hi m : ℕ} (h : FirstMax f lo hi m) (hf : ∀ k, f k = 0) : m = lo := by
  obtain ⟨a1, a2, a3, a4⟩ := h
  by_contra hne
  have := a4 lo (le_refl _) (by omega)
  rw [hf, hf] at this
  exact lt_irrefl _ this

/-- a silent frame at the start leaves the memory as it is -/
theorem PitchFrame.silent {w x : ℤ → ℝ} {d : FrameDuration} {al : Prop} {m1 : PitchMem} {i1 : ℕ} {p1 a1 : Bool}
    (h : PitchFrame w x d 0 al PitchMem.start m1 i1 p1 a1) (hw : ∀ n : ℤ, n < (frame12k8 d / 2 : ℕ) → w n = 0)
    (hx : ∀ n : ℤ, n < frame12k8 d + 2 → x n = 0) : m1 = PitchMem.start ∧ i1 = 0 ∧ p1 = false ∧ a1 = false := by
  obtain ⟨T, p, e, h1, h2, h3, h4, q, h5, h6, h7, h8⟩ := h
  rw [Nat.zero_mul] at h1 h2 h7 h8
  have hcorr : ∀ k : ℕ, corr w ((0 : ℕ) : ℤ) (frame12k8 d / 2) k = 0 := by
    intro k
    unfold corr
    refine Finset.sum_eq_zero fun n hn => ?_
    rw [Finset.mem_range] at hn
    rw [hw (((0 : ℕ) : ℤ) + n) (by push_cast; omega), zero_mul]
  have hnc : ∀ k : ℕ, normCorr w ((0 : ℕ) : ℤ) (frame12k8 d / 2) k = 0 := by
    intro k
    unfold normCorr
    rw [hcorr, zero_div, max_self]
  have hT : T = 17 := by
    obtain ⟨t1, t2, g1, g2, rfl⟩ := h1
    rw [hnc, hnc, if_neg (by norm_num)]
    exact g1.of_zero fun k => by rw [hcorr, mul_zero]
  have hp : p1 = false := by
    rw [← Bool.not_eq_true, h2, hnc]; norm_num
  have hbt : ∀ n : ℕ, n < frame12k8 d → between x (((0 : ℕ) : ℤ) + n) 0 = 0 := by
    intro n hn
    unfold between
    refine Finset.sum_eq_zero fun k hk => ?_
    rw [Finset.mem_Icc] at hk
    rw [hx _ (by push_cast; omega), zero_mul]
  have hper : periodicity x ((0 : ℕ) : ℤ) (frame12k8 d) (q / 4) ((q % 4 : ℕ) : ℤ) = 0 := by
    unfold periodicity
    rw [Finset.sum_eq_zero, zero_div]
    intro n hn
    rw [hbt n (Finset.mem_range.1 hn), zero_mul]
  have ha : a1 = false := by
    rw [← Bool.not_eq_true, h7, hper]
    unfold Activated PitchMem.start
    norm_num
  subst hp ha
  refine ⟨?_, by simpa using h6, rfl, rfl⟩
  rw [h8, hT]; rfl

/-! ## Bounds -/

theorem normCorr_bounds (x : ℤ → ℝ) (a : ℤ) (L : ℕ) (k : ℤ) : 0 ≤ normCorr x a L k ∧ normCorr x a L k ≤ 1 := by
  refine ⟨le_max_left _ _, max_le zero_le_one ?_⟩
  refine div_le_one_of_le₀ (Real.le_sqrt_of_sq_le ?_) (Real.sqrt_nonneg _)
  unfold corr lagEnergy
  have := Finset.sum_mul_sq_le_sq_mul_sq (range L) (fun n => x (a + n)) (fun n => x (a + n - k))
  simpa using this

theorem periodicity_bounds (x : ℤ → ℝ) (a : ℤ) (L p : ℕ) (fr : ℤ) : |periodicity x a L p fr| ≤ 1 := by
  unfold periodicity
  rw [abs_div, abs_of_nonneg (Real.sqrt_nonneg _)]
  refine div_le_one_of_le₀ (Real.le_sqrt_of_sq_le ?_) (Real.sqrt_nonneg _)
  rw [sq_abs]
  exact Finset.sum_mul_sq_le_sq_mul_sq (range L) (fun n : ℕ => between x (a + n) 0) (fun n : ℕ => between x (a + n - p) fr)

end Lc3.Spec
