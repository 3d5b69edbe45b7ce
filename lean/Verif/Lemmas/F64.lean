import Verif.Model.F64
import Verif.Spec.F64
import Verif.Lemmas.BitCost32
import Verif.Model.LtpfDec
import Mathlib.Analysis.SpecialFunctions.Log.Deriv
import Mathlib.Analysis.Complex.ExponentialBounds
/-! Lemmas for C113. -/

namespace Lc3.F64
open F32 (roundEven)

/-- multiples of `2 ^ e` with a numerator of 53 bits are not changed by rounding -/
theorem rnd_rep (m e : ℤ) (hm : |m| < 2 ^ 53) (he : -1074 ≤ e) : rnd ((m : ℚ) * 2 ^ e) = (m : ℚ) * 2 ^ e := by
  obtain ⟨q, hq⟩ : ∃ q : ℚ, q = (m : ℚ) * 2 ^ e := ⟨_, rfl⟩
  rw [← hq]
  by_cases h0 : q = 0
  · have := F32.roundEven_int 0
    simp only [Int.cast_zero] at this
    rw [h0]; simp [rnd, this]
  · have hp : 0 < |q| := abs_pos.2 h0
    have h1 : Int.log 2 |q| ≤ e + 52 := by
      refine F32.log_le hp ?_
      rw [hq, abs_mul, abs_of_pos (show (0 : ℚ) < 2 ^ e from zpow_pos (by norm_num) _), show e + 52 + 1 = 53 + e by ring,
        zpow_add₀ (by norm_num)]
      refine mul_lt_mul_of_pos_right ?_ (zpow_pos (by norm_num) _)
      have : ((|m| : ℤ) : ℚ) < ((2 ^ 53 : ℤ) : ℚ) := by exact_mod_cast hm
      calc |(m : ℚ)| = ((|m| : ℤ) : ℚ) := by simp
        _ < ((2 ^ 53 : ℤ) : ℚ) := this
        _ = _ := by norm_num
    have h2 : ulpExp q ≤ e := by unfold ulpExp; omega
    obtain ⟨n, hn⟩ := F32.scale_int m h2
    have h3 : (2 : ℚ) ^ ulpExp q ≠ 0 := (zpow_pos (by norm_num) _).ne'
    have h4 : q / 2 ^ ulpExp q = n := by rw [div_eq_iff h3, ← hn]; exact hq
    unfold rnd
    rw [h4, F32.roundEven_int, ← h4, div_mul_cancel₀ _ h3]

theorem rnd_nat {n : ℕ} (h : n < 2 ^ 53) : rnd (n : ℚ) = n := by
  have := rnd_rep n 0 (by rw [abs_of_nonneg (by omega)]; exact_mod_cast h) (by norm_num)
  simpa using this

theorem rnd_div {n : ℕ} (h : n < 2 ^ 53) (k : ℕ) (hk : k ≤ 1000) : rnd ((n : ℚ) / 2 ^ k) = (n : ℚ) / 2 ^ k := by
  have := rnd_rep n (-(k : ℤ)) (by rw [abs_of_nonneg (by omega)]; exact_mod_cast h) (by omega)
  simpa [div_eq_mul_inv, zpow_neg] using this

theorem rnd_err {q : ℚ} (h1 : 1 ≤ q) : |rnd q - q| ≤ q / 2 ^ 53 := by
  have hp : 0 < q := by linarith
  have ha : |q| = q := abs_of_pos hp
  have hl : 0 ≤ Int.log 2 q := F32.le_log hp (by simpa using h1)
  obtain ⟨u, hu⟩ : ∃ u, u = ulpExp q := ⟨_, rfl⟩
  have h2 : (0 : ℚ) < 2 ^ u := zpow_pos (by norm_num) _
  have h3 : rnd q - q = ((roundEven (q / 2 ^ u) : ℚ) - q / 2 ^ u) * 2 ^ u := by
    unfold rnd
    rw [← hu, sub_mul, div_mul_cancel₀ _ h2.ne']
  rw [h3, abs_mul, abs_of_pos h2]
  have h4 : |(roundEven (q / 2 ^ u) : ℚ) - q / 2 ^ u| * 2 ^ u ≤ 1 / 2 * 2 ^ u :=
    mul_le_mul_of_nonneg_right (F32.roundEven_err _) h2.le
  refine h4.trans ?_
  have e : u = Int.log 2 q - 52 := by rw [hu]; unfold ulpExp; rw [ha]; omega
  have := F32.log_self hp
  rw [e, zpow_sub₀ (by norm_num)]
  have e2 : (1 / 2 * (2 ^ Int.log 2 q / 2 ^ (52 : ℤ)) : ℚ) = 2 ^ Int.log 2 q / 2 ^ 53 := by
    rw [show ((2 : ℚ) ^ (52 : ℤ)) = 2 ^ 52 by norm_cast]
    ring
  rw [e2]
  gcongr

theorem tNbits_eq {n : ℕ} (h : n < 2 ^ 49) : tNbits n = (8 * n + 3) / 6 := by
  unfold tNbits roundUsize
  rcases Nat.eq_zero_or_pos n with rfl | hn
  · have e0 : rnd 0 = 0 := by simpa using rnd_nat (n := 0) (by norm_num)
    norm_num [e0]
  have h0 : rnd (n : ℚ) = n := rnd_nat (by omega)
  have h1 : rnd ((n : ℚ) * 10) = (n : ℚ) * 10 := by
    have := rnd_nat (n := n * 10) (by omega)
    push_cast at this; exact this
  rw [h0, h1]
  have hq : (1 : ℚ) ≤ n := by exact_mod_cast hn
  have hq2 : (n : ℚ) < 2 ^ 49 := by exact_mod_cast h
  have h2 := rnd_err (q := (n : ℚ) * 10 / (15 / 2)) (by rw [le_div_iff₀ (by norm_num)]; linarith)
  obtain ⟨r, hr⟩ : ∃ r, r = rnd ((n : ℚ) * 10 / (15 / 2)) := ⟨_, rfl⟩
  rw [← hr] at h2 ⊢
  have h3 : (n : ℚ) * 10 / (15 / 2) = 4 * n / 3 := by ring
  rw [h3] at h2
  have h4 : 4 * (n : ℚ) / 3 / 2 ^ 53 < 1 / 10 := by
    rw [div_lt_iff₀ (by positivity)]
    have : (2 : ℚ) ^ 53 = 16 * 2 ^ 49 := by norm_num
    rw [this]; linarith
  obtain ⟨h5, h6⟩ := abs_le.1 h2
  obtain ⟨m, hm⟩ : ∃ m, m = (8 * n + 3) / 6 := ⟨_, rfl⟩
  rw [← hm]
  have h7 : 3 * m ≤ 4 * n + 1 := by omega
  have h8 : 4 * n ≤ 3 * m + 1 := by omega
  have h7' : 3 * (m : ℚ) ≤ 4 * n + 1 := by exact_mod_cast h7
  have h8' : 4 * (n : ℚ) ≤ 3 * m + 1 := by exact_mod_cast h8
  have h9 : ⌊r + 1 / 2⌋ = (m : ℤ) := by
    rw [Int.floor_eq_iff]
    constructor
    · push_cast; linarith
    · push_cast; linarith
  rw [h9]; simp

theorem pUp_eq {fs p fr : ℕ} (hf : fs < 2 ^ 16) (h8 : fs % 8000 = 0 ∨ fs = 44100) (hp : p < 1024) (hr : fr < 4) :
    pUp fs p fr = pitchUp fs p fr := by
  unfold pUp pitchUp
  have e1 : rnd (p : ℚ) = p := rnd_nat (by omega)
  have e2 : rnd (rnd (fr : ℚ) / 4) = (fr : ℚ) / 4 := by
    rw [rnd_nat (by omega)]
    have := rnd_div (n := fr) (by omega) 2 (by omega)
    norm_num at this ⊢; exact this
  have e3 : rnd (rnd (p : ℚ) + rnd (rnd (fr : ℚ) / 4)) = ((4 * p + fr : ℕ) : ℚ) / 4 := by
    rw [e1, e2, show (p : ℚ) + fr / 4 = ((4 * p + fr : ℕ) : ℚ) / 2 ^ 2 by push_cast; ring, rnd_div (by omega) 2 (by omega)]
    norm_num
  have e4 : ⌈rnd (rnd (fs : ℚ) / 8000)⌉ = (fsCeil fs : ℤ) := by
    rw [rnd_nat (by omega)]
    unfold fsCeil
    rcases h8 with h | rfl
    · obtain ⟨k, rfl⟩ : ∃ k, fs = 8000 * k := ⟨fs / 8000, by omega⟩
      rw [show ((8000 * k : ℕ) : ℚ) / 8000 = (k : ℕ) by push_cast; ring, rnd_nat (by omega),
        show (8000 * k + 7999) / 8000 = k by omega]
      simp
    · have := rnd_err (q := ((44100 : ℕ) : ℚ) / 8000) (by norm_num)
      obtain ⟨r, hr⟩ : ∃ r, r = rnd (((44100 : ℕ) : ℚ) / 8000) := ⟨_, rfl⟩
      rw [← hr] at this ⊢
      obtain ⟨a, b⟩ := abs_le.1 this
      norm_num at a b
      rw [Int.ceil_eq_iff]
      norm_num
      constructor <;> linarith
  have hc : fsCeil fs ≤ 9 := by unfold fsCeil; omega
  obtain ⟨c, hcc⟩ : ∃ c, c = fsCeil fs := ⟨_, rfl⟩
  rw [← hcc] at hc
  have e5 : rnd (rnd (8000 * (⌈rnd (rnd (fs : ℚ) / 8000)⌉ : ℚ)) / 12800) = ((5 * c : ℕ) : ℚ) / 8 := by
    rw [e4, ← hcc]
    have : rnd (8000 * (((c : ℕ) : ℤ) : ℚ)) = ((8000 * c : ℕ) : ℚ) := by
      rw [show (8000 * (((c : ℕ) : ℤ) : ℚ)) = ((8000 * c : ℕ) : ℚ) by push_cast; ring, rnd_nat (by omega)]
    rw [this, show ((8000 * c : ℕ) : ℚ) / 12800 = ((5 * c : ℕ) : ℚ) / 2 ^ 3 by push_cast; ring, rnd_div (by omega) 3 (by omega)]
    norm_num
  simp only
  rw [e3, e5, ← hcc]
  obtain ⟨v, hv⟩ : ∃ v, v = 4 * p + fr := ⟨_, rfl⟩
  rw [← hv]
  have hb : 5 * c * v < 2 ^ 40 := by
    have h1 : 5 * c ≤ 45 := by omega
    have h2 : v ≤ 5000 := by omega
    have := Nat.mul_le_mul h1 h2
    omega
  have e6 : rnd (((v : ℕ) : ℚ) / 4 * (((5 * c : ℕ) : ℚ) / 8)) = ((5 * c * v : ℕ) : ℚ) / 32 := by
    rw [show ((v : ℕ) : ℚ) / 4 * (((5 * c : ℕ) : ℚ) / 8) = ((5 * c * v : ℕ) : ℚ) / 2 ^ 5 by push_cast; ring,
      rnd_div (by omega) 5 (by omega)]
    norm_num
  have e7 : rnd (((5 * c * v : ℕ) : ℚ) / 32 * 4) = ((5 * c * v : ℕ) : ℚ) / 8 := by
    rw [show ((5 * c * v : ℕ) : ℚ) / 32 * 4 = ((5 * c * v : ℕ) : ℚ) / 2 ^ 3 by ring, rnd_div (by omega) 3 (by omega)]
    norm_num
  have e8 : rnd (((5 * c * v : ℕ) : ℚ) / 8 + 1 / 2) = ((5 * c * v + 4 : ℕ) : ℚ) / 8 := by
    rw [show ((5 * c * v : ℕ) : ℚ) / 8 + 1 / 2 = ((5 * c * v + 4 : ℕ) : ℚ) / 2 ^ 3 by push_cast; ring,
      rnd_div (by omega) 3 (by omega)]
    norm_num
  rw [e6, e7, e8]
  have e9 : ⌊((5 * c * v + 4 : ℕ) : ℚ) / 8⌋ = (((5 * c * v + 4) / 8 : ℕ) : ℤ) := by
    have := Rat.floor_natCast_div_natCast (5 * c * v + 4) 8
    push_cast at this ⊢
    exact this
  rw [e9]; exact Int.toNat_natCast _

/-! ## Logarithms -/

/-- the logarithm of `n` strictly between two powers of two has a distance from both exponents -/
theorem logb_between {k n : ℕ} (h1 : 2 ^ k < n) (h2 : n < 2 ^ (k + 1)) :
    (k : ℝ) + 1 / 2 ^ (k + 1) ≤ Real.logb 2 n ∧ Real.logb 2 n ≤ k + 1 - 1 / 2 ^ (k + 1) := by
  have hl : 0 < Real.log 2 := Real.log_pos (by norm_num)
  have hl1 : Real.log 2 < 1 := by have := Real.log_two_lt_d9; linarith
  have hp : (0 : ℝ) < 2 ^ k := by positivity
  constructor
  · have hn : (2 : ℝ) ^ k + 1 ≤ n := by exact_mod_cast h1
    have e : Real.logb 2 ((2 : ℝ) ^ k * (1 + 1 / 2 ^ k)) = k + Real.logb 2 (1 + 1 / 2 ^ k) := by
      rw [Real.logb_mul hp.ne' (by positivity), Real.logb_pow, Real.logb_self_eq_one (by norm_num), mul_one]
    have h3 : Real.logb 2 ((2 : ℝ) ^ k * (1 + 1 / 2 ^ k)) ≤ Real.logb 2 n := by
      apply Real.logb_le_logb_of_le (by norm_num) (by positivity)
      have : (2 : ℝ) ^ k * (1 + 1 / 2 ^ k) = 2 ^ k + 1 := by field_simp
      rw [this]; exact hn
    rw [e] at h3
    have h4 : 1 / 2 ^ (k + 1) ≤ Real.logb 2 (1 + 1 / 2 ^ k) := by
      have hx : (0 : ℝ) < 1 / 2 ^ k := by positivity
      have hx1 : (1 : ℝ) / 2 ^ k ≤ 1 := by
        rw [div_le_one hp]; exact one_le_pow₀ (by norm_num)
      obtain ⟨x, hxx⟩ : ∃ x : ℝ, x = 1 / 2 ^ k := ⟨_, rfl⟩
      rw [show (1 : ℝ) / 2 ^ (k + 1) = x / 2 by rw [hxx, pow_succ]; ring, ← hxx]
      rw [← hxx] at hx hx1
      have h5 := Real.le_log_one_add_of_nonneg hx.le
      unfold Real.logb
      rw [le_div_iff₀ hl]
      have h6 : x / 2 * Real.log 2 ≤ x / 2 := by nlinarith
      have h7 : x / 2 ≤ 2 * x / (x + 2) := by
        rw [div_le_div_iff₀ (by norm_num) (by linarith)]; nlinarith
      linarith
    linarith
  · have hn : (n : ℝ) + 1 ≤ 2 ^ (k + 1) := by exact_mod_cast h2
    have hk : (0 : ℝ) < 2 ^ (k + 1) := by positivity
    have hn0 : (0 : ℝ) < n := by
      have : 0 < n := lt_of_le_of_lt (Nat.zero_le _) h1
      exact_mod_cast this
    have e : (n : ℝ) = 2 ^ (k + 1) * (n / 2 ^ (k + 1)) := by field_simp
    have h3 : Real.logb 2 n = (k + 1 : ℕ) + Real.logb 2 (n / 2 ^ (k + 1)) := by
      conv_lhs => rw [e]
      rw [Real.logb_mul hk.ne' (by positivity), Real.logb_pow, Real.logb_self_eq_one (by norm_num), mul_one]
    have h4 : Real.logb 2 ((n : ℝ) / 2 ^ (k + 1)) ≤ -(1 / 2 ^ (k + 1)) := by
      have h5 := Real.log_le_sub_one_of_pos (show (0 : ℝ) < (n : ℝ) / 2 ^ (k + 1) by positivity)
      have h6 : (n : ℝ) / 2 ^ (k + 1) - 1 ≤ -(1 / 2 ^ (k + 1)) := by
        rw [div_sub_one hk.ne', ← neg_div, div_le_div_iff_of_pos_right hk]; linarith
      unfold Real.logb
      rw [div_le_iff₀ hl]
      have h7 : (0 : ℝ) < 1 / 2 ^ (k + 1) := by positivity
      have h8 : 1 / 2 ^ (k + 1) * Real.log 2 ≤ 1 / 2 ^ (k + 1) := by nlinarith
      linarith
    rw [h3]; push_cast; linarith

variable {L : ℚ → ℚ}

/-- a logarithm between two exponents stays between them -/
theorem log_between (hL : Log2 L) {k n : ℕ} (hk : k < 24) (h1 : 2 ^ k < n) (h2 : n < 2 ^ (k + 1)) :
    (k : ℚ) < L n ∧ L n < k + 1 := by
  obtain ⟨a, b⟩ := logb_between h1 h2
  have h0 : 1 ≤ n := le_trans Nat.one_le_two_pow h1.le
  have h := hL.err n (by exact_mod_cast h0)
  have hk' : (k : ℝ) ≤ 23 := by exact_mod_cast Nat.lt_succ_iff.1 hk
  have h3 : (1 : ℝ) / 2 ^ 24 ≤ 1 / 2 ^ (k + 1) := by
    apply one_div_le_one_div_of_le (by positivity)
    exact pow_le_pow_right₀ (by norm_num) hk
  rw [show (((n : ℕ) : ℚ) : ℝ) = (n : ℝ) by norm_cast] at h
  have h4 : (0 : ℝ) < 1 / 2 ^ (k + 1) := by positivity
  have h5 : Real.logb 2 n / 2 ^ 50 ≤ 24 / 2 ^ 50 := by
    gcongr; linarith
  have h6 : (24 : ℝ) / 2 ^ 50 < 1 / 2 ^ 24 := by norm_num
  obtain ⟨c, d⟩ := abs_le.1 h
  constructor
  · have : (k : ℝ) < (L n : ℝ) := by linarith
    exact_mod_cast this
  · have : (L n : ℝ) < k + 1 := by linarith
    exact_mod_cast this

theorem floorLog_eq (hL : Log2 L) {r : ℕ} (h0 : 0 < r) (h : r < 2 ^ 24) : floorLog L r = (Nat.log2 r : ℤ) := by
  unfold floorLog
  rw [rnd_nat (by omega)]
  have h1 : 2 ^ Nat.log2 r ≤ r := Nat.log2_self_le h0.ne'
  have h2 : r < 2 ^ (Nat.log2 r + 1) := Nat.lt_log2_self
  have hk : Nat.log2 r < 24 := (Nat.log2_lt h0.ne').2 h
  obtain ⟨k, hkk⟩ : ∃ k, k = Nat.log2 r := ⟨_, rfl⟩
  rw [← hkk] at h1 h2 hk ⊢
  rcases h1.eq_or_lt with e | h3
  · rw [← e]; push_cast; rw [hL.pow]; simp
  · obtain ⟨a, b⟩ := log_between hL hk h3 h2
    rw [Int.floor_eq_iff]
    exact ⟨by push_cast; exact a.le, by push_cast; exact b⟩

theorem maskLog_eq (hL : Log2 L) {k : ℕ} (h : k < 8) : maskLog L (2 ^ k) = (Nat.log2 (2 ^ k) : ℤ) := by
  unfold maskLog
  rw [rnd_nat (Nat.pow_lt_pow_right (by norm_num) (by omega)), Nat.log2_two_pow]
  push_cast
  rw [hL.pow]
  unfold F32.truncQ
  simp

theorem pairBits_eq (hL : Log2 L) {ne : ℕ} (he : ne % 2 = 0) (h4 : 4 ≤ ne) (h : ne < 2 ^ 20) : pairBits L ne = clog2 (ne / 2) := by
  unfold pairBits clog2
  obtain ⟨n, rfl⟩ : ∃ n, ne = 2 * n := ⟨ne / 2, by omega⟩
  rw [rnd_nat (by omega), show ((2 * n : ℕ) : ℚ) / 2 = (n : ℕ) by push_cast; ring, rnd_nat (by omega), show 2 * n / 2 = n by omega]
  have hn : n - 1 ≠ 0 := by omega
  have h1 : 2 ^ Nat.log2 (n - 1) ≤ n - 1 := Nat.log2_self_le hn
  have h2 : n - 1 < 2 ^ (Nat.log2 (n - 1) + 1) := Nat.lt_log2_self
  have hk : Nat.log2 (n - 1) < 24 := (Nat.log2_lt hn).2 (by omega)
  obtain ⟨k, hkk⟩ : ∃ k, k = Nat.log2 (n - 1) := ⟨_, rfl⟩
  rw [← hkk] at h1 h2 hk ⊢
  rcases (show n ≤ 2 ^ (k + 1) by omega).eq_or_lt with e | h3
  · rw [e]; push_cast; rw [hL.pow]; simp
  · obtain ⟨a, b⟩ := log_between hL hk (by omega) h3
    have : ⌈L n⌉ = ((k + 1 : ℕ) : ℤ) := by
      rw [Int.ceil_eq_iff]; push_cast
      exact ⟨by linarith, b.le⟩
    rw [this]; simp

/-- there is such a logarithm -/
theorem exists_log2 : ∃ L, Log2 L := by
  classical
  have key : ∀ q : ℚ, ∃ r : ℚ, (∀ k : ℕ, q = 2 ^ k → r = k) ∧ (1 ≤ q → |(r : ℝ) - Real.logb 2 q| ≤ Real.logb 2 q / 2 ^ 50) := by
    intro q
    by_cases h : ∃ k : ℕ, q = 2 ^ k
    · obtain ⟨k, rfl⟩ := h
      have e : Real.logb 2 (((2 : ℚ) ^ k : ℚ) : ℝ) = k := by
        push_cast; rw [Real.logb_pow, Real.logb_self_eq_one (by norm_num), mul_one]
      refine ⟨k, fun j hj => ?_, fun _ => ?_⟩
      · have : k = j := Nat.pow_right_injective (le_refl 2) (by exact_mod_cast hj)
        rw [this]
      · rw [e]; push_cast; rw [sub_self, abs_zero]; positivity
    · rcases lt_or_ge 1 q with h1 | h1
      · have hp : 0 < Real.logb 2 q := Real.logb_pos (by norm_num) (by exact_mod_cast h1)
        obtain ⟨r, a, b⟩ := exists_rat_btwn (show Real.logb 2 q < Real.logb 2 q + Real.logb 2 q / 2 ^ 50 by
          have : 0 < Real.logb 2 q / 2 ^ 50 := by positivity
          linarith)
        refine ⟨r, fun k hk => absurd ⟨k, hk⟩ h, fun _ => ?_⟩
        rw [abs_le]; constructor <;> linarith
      · refine ⟨0, fun k hk => absurd ⟨k, hk⟩ h, fun h2 => absurd ⟨0, ?_⟩ h⟩
        rw [pow_zero]; exact le_antisymm h1 h2
  choose L hL using key
  exact ⟨L, fun k => (hL _).1 k rfl, fun q hq => (hL q).2 hq⟩

end Lc3.F64

namespace Lc3.F32

theorem ceil_log (el : Elem) (hl : LogFunctions el) {n : ℕ} (h2 : 2 ≤ n) (h : n < 2 ^ 12) (hp : ∀ k : ℕ, n ≠ 2 ^ k) :
    toUsize (ceilF (el.log2 (fin n))) = clog2 n := by
  have hn : n - 1 ≠ 0 := by omega
  have h1 : 2 ^ Nat.log2 (n - 1) ≤ n - 1 := Nat.log2_self_le hn
  have h3 : n - 1 < 2 ^ (Nat.log2 (n - 1) + 1) := Nat.lt_log2_self
  have hk : Nat.log2 (n - 1) < 12 := (Nat.log2_lt hn).2 (by omega)
  unfold clog2
  obtain ⟨k, hkk⟩ : ∃ k, k = Nat.log2 (n - 1) := ⟨_, rfl⟩
  rw [← hkk] at h1 h3 hk ⊢
  have h5 := hp (k + 1)
  obtain ⟨a, b⟩ := F64.logb_between (k := k) (n := n) (by omega) (by omega)
  obtain ⟨c, hc, he⟩ := hl.log2 n (by exact_mod_cast (show 0 < n by omega))
  rw [hc]
  rw [show (((n : ℕ) : ℚ) : ℝ) = (n : ℝ) by norm_cast] at he
  have hk' : (k : ℝ) ≤ 11 := by exact_mod_cast Nat.lt_succ_iff.1 hk
  have hk0 : (0 : ℝ) ≤ k := by positivity
  have h6 : (1 : ℝ) / 2 ^ 12 ≤ 1 / 2 ^ (k + 1) := by
    apply one_div_le_one_div_of_le (by positivity)
    exact pow_le_pow_right₀ (by norm_num) hk
  have h7 : (0 : ℝ) < 1 / 2 ^ (k + 1) := by positivity
  rw [abs_of_nonneg (show 0 ≤ Real.logb 2 n by linarith)] at he
  have h8 : Real.logb 2 n / 2 ^ 22 ≤ 12 / 2 ^ 22 := by gcongr; linarith
  have h9 : (12 : ℝ) / 2 ^ 22 + 1 / 2 ^ 100 < 1 / 2 ^ 12 := by norm_num
  obtain ⟨u, v⟩ := abs_le.1 he
  have h10 : (k : ℚ) < c := by
    have : (k : ℝ) < (c : ℝ) := by linarith
    exact_mod_cast this
  have h11 : c < (k : ℚ) + 1 := by
    have : (c : ℝ) < k + 1 := by linarith
    exact_mod_cast this
  have h12 : ⌈c⌉ = ((k + 1 : ℕ) : ℤ) := by
    rw [Int.ceil_eq_iff]; push_cast
    exact ⟨by linarith, h11.le⟩
  simp only [ceilF, h12, toUsize]
  simp only [Int.cast_natCast, Int.floor_natCast, Int.toNat_natCast]
  omega

theorem aboveSqrt_eq (el : Elem) (ha : Accurate el) (hs : ExactSquares el) {n p : ℕ} (hn : n < 2 ^ 22) (hp : p < 2 ^ 24) :
    aboveSqrt el n p = decide (Nat.sqrt n < p) := by
  have hk1 : Nat.sqrt n * Nat.sqrt n ≤ n := Nat.sqrt_le n
  have hk2 : n < (Nat.sqrt n + 1) * (Nat.sqrt n + 1) := Nat.lt_succ_sqrt n
  obtain ⟨k, hk⟩ : ∃ k, k = Nat.sqrt n := ⟨_, rfl⟩
  rw [← hk] at hk1 hk2 ⊢
  have hkb : k < 2 ^ 11 := by
    by_contra hc
    have := Nat.mul_le_mul (not_lt.1 hc) (not_lt.1 hc)
    omega
  have key : ∃ r : ℚ, el.sqrt (fin n) = fin r ∧ ⌊r⌋ = (k : ℤ) := by
    rcases hk1.eq_or_lt with e | hlt
    · refine ⟨k, ?_, by simp⟩
      have := hs k (by omega)
      rw [← e]; push_cast; rw [← sq]; exact this
    · obtain ⟨r, hr, he⟩ := ha.sqrt n (by positivity)
      refine ⟨r, hr, ?_⟩
      rw [show (((n : ℕ) : ℚ) : ℝ) = (n : ℝ) by norm_cast] at he
      have n1 : (k : ℝ) * k + 1 ≤ n := by exact_mod_cast hlt
      have n2 : (n : ℝ) + 1 ≤ (k + 1) * (k + 1) := by exact_mod_cast hk2
      have k0 : (0 : ℝ) ≤ k := by positivity
      have k1 : (k : ℝ) + 1 ≤ 2048 := by exact_mod_cast (show k + 1 ≤ 2048 by omega)
      have s0 : 0 ≤ Real.sqrt n := Real.sqrt_nonneg _
      have s1 : (k : ℝ) + 1 / 8192 ≤ Real.sqrt n := by
        apply Real.le_sqrt_of_sq_le
        nlinarith
      have s2 : Real.sqrt n ≤ k + 1 - 1 / 8192 := by
        apply Real.sqrt_le_iff.2
        constructor
        · linarith
        · nlinarith
      obtain ⟨a, b⟩ := abs_le.1 he
      have s3 : Real.sqrt n / 2 ^ 24 < 1 / 8192 := by
        rw [div_lt_iff₀ (by positivity)]
        norm_num; linarith
      rw [Int.floor_eq_iff]
      constructor
      · have : (k : ℝ) ≤ (r : ℝ) := by linarith
        push_cast; exact_mod_cast this
      · have : (r : ℝ) < k + 1 := by linarith
        push_cast; exact_mod_cast this
  obtain ⟨r, hr, hf⟩ := key
  unfold aboveSqrt
  rw [rnd_nat24 (by omega), rnd_nat24 hp, hr]
  simp only [floorF, hf, lt]
  norm_num

end Lc3.F32
