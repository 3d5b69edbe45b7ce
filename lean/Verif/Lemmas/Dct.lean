import Verif.Lemmas.Fft
/-! The cosine transform of type IV in exact arithmetic. -/

namespace Lc3
open Scalar Finset

/-- the twiddle factor of the cosine transform -/
noncomputable def dctTw (M i : Nat) : ℂ := Complex.exp (((-(8 * i + 1) / (8 * M * 2) * Real.pi : ℝ) : ℂ) * Complex.I)

theorem dctTwiddle_eq (M : Nat) : (dctTwiddle M : List (Cx ℝ)) = (List.range M).map fun i => ofC (dctTw M i) := by
  unfold dctTwiddle
  refine List.map_congr_left fun i _ => ?_
  show (⟨Real.cos _, Real.sin _⟩ : Cx ℝ) = _
  rw [ofC, dctTw, Complex.exp_ofReal_mul_I_re, Complex.exp_ofReal_mul_I_im]
  have : ((-(8 * (i : Rat) + 1) / (8 * M * 2) : Rat) : ℝ) = -(8 * i + 1) / (8 * M * 2) := by push_cast; ring
  rw [this]

/-- the angle of the pair of lines `n` and `k` -/
noncomputable def dctAngle (M n k : Nat) : ℝ := Real.pi / (2 * M) * (2 * n + 1 / 2) * (2 * k + 1 / 2)

theorem dctTw_mul {M : Nat} (hM : 0 < M) (n k : Nat) :
    dctTw M k * (dctTw M n * Complex.exp ((-1) * (2 * Real.pi * Complex.I * n * k / M)))
      = Complex.exp (((-(dctAngle M n k) : ℝ) : ℂ) * Complex.I) := by
  have h0 : (M : ℂ) ≠ 0 := by exact_mod_cast hM.ne'
  unfold dctTw dctAngle
  rw [← Complex.exp_add, ← Complex.exp_add]
  congr 1
  push_cast
  field_simp
  ring

/-- the sum over a frame, even lines first, odd lines from the end -/
theorem sum_fold (f : Nat → ℝ) (M : Nat) :
    ∑ j ∈ range (2 * M), f j = ∑ n ∈ range M, (f (2 * n) + f (2 * M - 2 * n - 1)) := by
  rw [Nat.mul_comm, sum_range_mul']
  simp only [Finset.sum_range_succ, Finset.sum_range_zero, zero_add]
  rw [Finset.sum_add_distrib, Finset.sum_add_distrib]
  congr 1
  · exact Finset.sum_congr rfl fun n _ => by rw [Nat.mul_comm]
  · rw [← Finset.sum_range_reflect]
    refine Finset.sum_congr rfl fun n hn => ?_
    have := Finset.mem_range.mp hn
    congr 1
    omega

theorem cos_shift (t : ℝ) (k : Nat) : Real.cos (Real.pi * (2 * k + 1 / 2) - t) = Real.sin t := by
  rw [show Real.pi * (2 * k + 1 / 2) - t = (Real.pi / 2 - t) + k * (2 * Real.pi) by ring, Real.cos_add_nat_mul_two_pi,
    Real.cos_pi_div_two_sub]

theorem dct4_even {M : Nat} (hM : 0 < M) (x : Nat → ℝ) (k : Nat) :
    Fourier.dct4 (2 * M) x (2 * k)
      = ∑ n ∈ range M, (x (2 * n) * Real.cos (dctAngle M n k) + x (2 * M - 2 * n - 1) * Real.sin (dctAngle M n k)) := by
  have h0 : (M : ℝ) ≠ 0 := by exact_mod_cast hM.ne'
  unfold Fourier.dct4
  rw [sum_fold]
  refine Finset.sum_congr rfl fun n hn => ?_
  have hn := Finset.mem_range.mp hn
  congr 2
  · unfold dctAngle; push_cast; ring_nf
  · rw [← cos_shift _ k]
    congr 1
    have : ((2 * M - 2 * n - 1 : Nat) : ℝ) = 2 * M - 2 * n - 1 := by
      rw [Nat.cast_sub (by omega), Nat.cast_sub (by omega)]; push_cast; ring
    rw [this]
    unfold dctAngle
    push_cast
    field_simp
    ring

theorem dct4_odd {M : Nat} (hM : 0 < M) (x : Nat → ℝ) {k : Nat} (hk : k < M) :
    Fourier.dct4 (2 * M) x (2 * M - 2 * k - 1)
      = ∑ n ∈ range M, (x (2 * n) * Real.sin (dctAngle M n k) - x (2 * M - 2 * n - 1) * Real.cos (dctAngle M n k)) := by
  have h0 : (M : ℝ) ≠ 0 := by exact_mod_cast hM.ne'
  have hkk : ((2 * M - 2 * k - 1 : Nat) : ℝ) = 2 * M - 2 * k - 1 := by
    rw [Nat.cast_sub (by omega), Nat.cast_sub (by omega)]; push_cast; ring
  unfold Fourier.dct4
  rw [sum_fold]
  refine Finset.sum_congr rfl fun n hn => ?_
  have hn := Finset.mem_range.mp hn
  rw [sub_eq_add_neg, ← mul_neg]
  congr 2
  · rw [← cos_shift _ n, hkk]
    congr 1
    unfold dctAngle
    push_cast
    field_simp
    ring
  · have : ((2 * M - 2 * n - 1 : Nat) : ℝ) = 2 * M - 2 * n - 1 := by
      rw [Nat.cast_sub (by omega), Nat.cast_sub (by omega)]; push_cast; ring
    rw [this, hkk]
    have e : Real.pi / (2 * M : Nat) * (2 * M - 2 * n - 1 + 1 / 2) * (2 * M - 2 * k - 1 + 1 / 2)
        = (dctAngle M n k - Real.pi) + ((M : ℤ) - n - k : ℤ) * (2 * Real.pi) := by
      unfold dctAngle
      push_cast
      field_simp
      ring
    rw [e, Real.cos_add_int_mul_two_pi, Real.cos_sub_pi]

/-- output `k` of the inner transform after the second rotation -/
noncomputable def dctInner (M : Nat) (x : Nat → ℝ) (k : Nat) : ℂ :=
  dctTw M k * Fourier.dft false M (fun n => dctTw M n * ⟨x (2 * n), x (2 * M - 2 * n - 1)⟩) k

theorem dctInner_eq {M : Nat} (hM : 0 < M) (x : Nat → ℝ) (k : Nat) :
    dctInner M x k = ∑ n ∈ range M, (⟨x (2 * n), x (2 * M - 2 * n - 1)⟩ : ℂ) *
      Complex.exp (((-(dctAngle M n k) : ℝ) : ℂ) * Complex.I) := by
  unfold dctInner Fourier.dft
  rw [Finset.mul_sum]
  refine Finset.sum_congr rfl fun n _ => ?_
  rw [← dctTw_mul hM]
  simp only [Bool.false_eq_true, if_false]
  ring

theorem dctInner_re {M : Nat} (hM : 0 < M) (x : Nat → ℝ) (k : Nat) :
    (dctInner M x k).re = Fourier.dct4 (2 * M) x (2 * k) := by
  rw [dctInner_eq hM, dct4_even hM, Complex.re_sum]
  refine Finset.sum_congr rfl fun n _ => ?_
  rw [Complex.mul_re, Complex.exp_ofReal_mul_I_re, Complex.exp_ofReal_mul_I_im, Real.cos_neg, Real.sin_neg]
  ring

theorem dctInner_im {M : Nat} (hM : 0 < M) (x : Nat → ℝ) {k : Nat} (hk : k < M) :
    -(dctInner M x k).im = Fourier.dct4 (2 * M) x (2 * M - 2 * k - 1) := by
  rw [dctInner_eq hM, dct4_odd hM x hk, Complex.im_sum, ← Finset.sum_neg_distrib]
  refine Finset.sum_congr rfl fun n _ => ?_
  rw [Complex.mul_im, Complex.exp_ofReal_mul_I_re, Complex.exp_ofReal_mul_I_im, Real.cos_neg, Real.sin_neg]
  ring

/-- the kernel of the model computes twice the cosine transform of type IV -/
theorem dctIv_ok {M : Nat} {fac : List (Nat × Nat)} (hfac : kfFactor M = .ok fac) (h : FacOk fac M) (x : Nat → ℝ) :
    dctIv (2 * M) ((List.range (2 * M)).map x)
      = .ok ((List.range (2 * M)).map fun k => 2 * Fourier.dct4 (2 * M) x k) := by
  have hM := h.pos
  unfold dctIv
  have hd : 2 * M / 2 = M := by omega
  rw [if_neg (by simp), hd]
  have hin : (List.range M).mapM (dctIn (2 * M) ((List.range (2 * M)).map x) (dctTwiddle M))
      = .ok ((List.range M).map fun n => ofC (dctTw M n * ⟨x (2 * n), x (2 * M - 2 * n - 1)⟩)) := by
    refine mapM_range_ok fun n hn => ?_
    unfold dctIn
    rw [dctTwiddle_eq, idx_map_range _ hn, Res.bind_ok, idx_map_range _ (by omega), Res.bind_ok, usub, if_pos (by omega),
      Res.bind_ok, usub, if_pos (by omega), Res.bind_ok, idx_map_range _ (by omega), Res.bind_ok, ← ofC_mul]
    rfl
  simp only [hin, Res.bind_ok]
  rw [fft_ok hfac h, Res.bind_ok]
  refine mapM_range_ok fun k hk => ?_
  unfold dctOut
  rw [dctTwiddle_eq]
  rcases Nat.even_or_odd' k with ⟨j, rfl | rfl⟩
  · rw [if_pos (by omega), show 2 * j / 2 = j by omega, idx_map_range _ (by omega), Res.bind_ok,
      idx_map_range _ (by omega), Res.bind_ok, ofC_mul, ← dctInner_re hM]
    show Res.ok ((dctInner M x j).re * ((2 : ℚ) : ℝ)) = _
    push_cast
    rw [mul_comm]
  · rw [if_neg (by omega)]
    have hj : (2 * M - 1 - (2 * j + 1)) / 2 = M - 1 - j := by omega
    have hk' : 2 * j + 1 = 2 * M - 2 * (M - 1 - j) - 1 := by omega
    simp only [hj]
    rw [idx_map_range _ (by omega), Res.bind_ok, idx_map_range _ (by omega), Res.bind_ok, ofC_mul, hk',
      ← dctInner_im hM x (by omega)]
    show Res.ok (-(dctInner M x (M - 1 - j)).im * ((2 : ℚ) : ℝ)) = _
    push_cast
    rw [mul_comm]

/-! ### The transform is its own inverse up to scale -/

theorem sum_cos_half {N : Nat} (hN : 0 < N) {j : Int} (h0 : j ≠ 0) (h1 : |j| < 2 * N) :
    ∑ k ∈ range N, Real.cos (Real.pi * j / N * (k + 1 / 2)) = 0 := by
  have hN' : (N : ℝ) ≠ 0 := by exact_mod_cast hN.ne'
  have hNp : (0 : ℝ) < N := by exact_mod_cast hN
  have hs : Real.sin (Real.pi * j / N / 2) ≠ 0 := by
    intro h
    obtain ⟨n, hn⟩ := Real.sin_eq_zero_iff.mp h
    have hpi := Real.pi_ne_zero
    have : (j : ℝ) = n * (2 * N) := by
      field_simp at hn
      linarith
    have hj : j = n * (2 * N) := by exact_mod_cast this
    have hn0 : n ≠ 0 := by rintro rfl; simp at hj; exact h0 hj
    have : (2 * N : Int) ≤ |j| := by
      rw [hj, abs_mul, abs_of_nonneg (by positivity : (0 : Int) ≤ 2 * N)]
      have : (1 : Int) ≤ |n| := Int.one_le_abs hn0
      nlinarith
    omega
  have key : ∀ n : Nat, 2 * Real.sin (Real.pi * j / N / 2) * ∑ k ∈ range n, Real.cos (Real.pi * j / N * (k + 1 / 2))
      = Real.sin (Real.pi * j / N * n) := by
    intro n
    induction n with
    | zero => simp
    | succ n ih =>
      rw [Finset.sum_range_succ, mul_add, ih, Nat.cast_succ]
      generalize Real.pi * j / N = a
      have e1 : a * n = a * (n + 1 / 2) - a / 2 := by ring
      have e2 : a * (n + 1) = a * (n + 1 / 2) + a / 2 := by ring
      rw [e1, e2, Real.sin_sub, Real.sin_add]
      ring
  have h := key N
  rw [show Real.pi * j / N * N = j * Real.pi by field_simp, Real.sin_int_mul_pi] at h
  rcases mul_eq_zero.mp h with h | h
  · exact absurd (by linarith) hs
  · exact h

theorem dct4_orth {N : Nat} (hN : 0 < N) {m n : Nat} (hm : m < N) (hn : n < N) :
    ∑ k ∈ range N, Real.cos (Real.pi / N * (n + 1 / 2) * (k + 1 / 2)) * Real.cos (Real.pi / N * (k + 1 / 2) * (m + 1 / 2))
      = if n = m then (N : ℝ) / 2 else 0 := by
  have e : ∀ k : Nat, Real.cos (Real.pi / N * (n + 1 / 2) * (k + 1 / 2)) * Real.cos (Real.pi / N * (k + 1 / 2) * (m + 1 / 2))
      = 1 / 2 * (Real.cos (Real.pi * ((n : Int) - m : Int) / N * (k + 1 / 2)) +
          Real.cos (Real.pi * ((n : Int) + m + 1 : Int) / N * (k + 1 / 2))) := by
    intro k
    have a1 : Real.pi * ((n : Int) - m : Int) / N * (k + 1 / 2)
        = Real.pi / N * (n + 1 / 2) * (k + 1 / 2) - Real.pi / N * (k + 1 / 2) * (m + 1 / 2) := by push_cast; ring
    have a2 : Real.pi * ((n : Int) + m + 1 : Int) / N * (k + 1 / 2)
        = Real.pi / N * (n + 1 / 2) * (k + 1 / 2) + Real.pi / N * (k + 1 / 2) * (m + 1 / 2) := by push_cast; ring
    rw [a1, a2, Real.cos_sub, Real.cos_add]
    ring
  rw [Finset.sum_congr rfl fun k _ => e k, ← Finset.mul_sum, Finset.sum_add_distrib,
    sum_cos_half hN (j := (n : Int) + m + 1) (by omega) (by rw [abs_of_nonneg (by omega)]; omega), add_zero]
  by_cases h : n = m
  · subst h
    simp
    ring
  · rw [if_neg h, sum_cos_half hN (by omega) (by rw [abs_lt]; omega), mul_zero]

/-- the cosine transform of type IV applied twice -/
theorem dct4_dct4 {N : Nat} (x : Nat → ℝ) {m : Nat} (hm : m < N) :
    Fourier.dct4 N (Fourier.dct4 N x) m = N / 2 * x m := by
  have hN : 0 < N := by omega
  unfold Fourier.dct4
  simp only [Finset.sum_mul]
  rw [Finset.sum_comm]
  have : ∀ n ∈ range N, ∑ k ∈ range N, x n * Real.cos (Real.pi / N * (n + 1 / 2) * (k + 1 / 2)) *
      Real.cos (Real.pi / N * (k + 1 / 2) * (m + 1 / 2)) = if n = m then (N : ℝ) / 2 * x m else 0 := by
    intro n hn
    rw [Finset.sum_congr rfl fun k _ => mul_assoc _ _ _, ← Finset.mul_sum, dct4_orth hN hm (Finset.mem_range.mp hn)]
    by_cases h : n = m
    · subst h; simp; ring
    · simp [h]
  rw [Finset.sum_congr rfl this, Finset.sum_ite_eq' (range N) m]
  simp [hm]

theorem dct4_smul (N : Nat) (c : ℝ) (x : Nat → ℝ) (k : Nat) :
    Fourier.dct4 N (fun j => c * x j) k = c * Fourier.dct4 N x k := by
  unfold Fourier.dct4
  rw [Finset.mul_sum]
  exact Finset.sum_congr rfl fun j _ => by ring

theorem dct4_congr {N : Nat} {x y : Nat → ℝ} (h : ∀ j, j < N → x j = y j) (k : Nat) :
    Fourier.dct4 N x k = Fourier.dct4 N y k :=
  Finset.sum_congr rfl fun j hj => by rw [h j (Finset.mem_range.mp hj)]

end Lc3
