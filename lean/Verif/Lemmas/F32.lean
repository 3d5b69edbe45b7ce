import Verif.Model.F32
import Mathlib.Tactic.Ring
import Mathlib.Tactic.Linarith
import Mathlib.Tactic.Positivity
import Mathlib.Tactic.NormNum
import Mathlib.Tactic.FieldSimp
import Mathlib.Algebra.Order.Floor.Ring
/-! Facts about rounding to binary32. -/

namespace Lc3.F32

theorem roundEven_neg (q : ℚ) : roundEven (-q) = -roundEven q := by
  unfold roundEven
  simp only
  have h1 := Int.floor_le q
  have h2 := Int.lt_floor_add_one q
  by_cases hz : (q : ℚ) = ⌊q⌋
  · have : ⌊-q⌋ = -⌊q⌋ := by rw [hz]; simp [Int.floor_neg]
    rw [this]
    have e : q - ⌊q⌋ = 0 := by linarith
    have e' : -q - ((-⌊q⌋ : ℤ) : ℚ) = 0 := by push_cast; linarith
    rw [e, e']; norm_num
  · have hlt : (⌊q⌋ : ℚ) < q := lt_of_le_of_ne h1 (Ne.symm hz)
    have : ⌊-q⌋ = -⌊q⌋ - 1 := by
      rw [Int.floor_eq_iff]; push_cast; constructor <;> linarith
    rw [this]
    push_cast
    have e' : -q - (-(⌊q⌋ : ℚ) - 1) = 1 - (q - ⌊q⌋) := by ring
    rw [e']
    by_cases a : q - ⌊q⌋ < 1 / 2
    · rw [if_pos a, if_neg (by linarith), if_pos (by linarith)]; ring
    · by_cases b : 1 / 2 < q - ⌊q⌋
      · rw [if_neg a, if_pos b, if_pos (by linarith)]; ring
      · rw [if_neg a, if_neg b, if_neg (by linarith), if_neg (by linarith)]
        split <;> split <;> omega

theorem ulpExp_neg (q : ℚ) : ulpExp (-q) = ulpExp q := by simp [ulpExp]

theorem rndQ_neg (q : ℚ) : rndQ (-q) = -rndQ q := by
  unfold rndQ
  rw [ulpExp_neg, neg_div, roundEven_neg]
  push_cast; ring

theorem roundEven_ge {n : ℤ} {q : ℚ} (h : (n : ℚ) ≤ q) : n ≤ roundEven q := by
  have : n ≤ ⌊q⌋ := Int.le_floor.2 h
  unfold roundEven
  simp only
  split_ifs <;> omega

theorem roundEven_le {n : ℤ} {q : ℚ} (h : q ≤ n) : roundEven q ≤ n := by
  have h1 := roundEven_ge (n := -n) (q := -q) (by push_cast; linarith)
  rw [roundEven_neg] at h1
  omega

theorem roundEven_int (n : ℤ) : roundEven n = n := le_antisymm (roundEven_le le_rfl) (roundEven_ge le_rfl)

theorem roundEven_lt {n : ℤ} {q : ℚ} (h : q < n - 1 / 2) : roundEven q < n := by
  unfold roundEven
  simp only
  have h1 := Int.floor_le q
  have h2 : ⌊q⌋ < n := by
    rw [Int.floor_lt]; linarith
  split_ifs with a b c
  · exact h2
  · rcases lt_or_eq_of_le (show ⌊q⌋ + 1 ≤ n by omega) with h3 | h3
    · exact h3
    · exfalso
      have : ((⌊q⌋ : ℚ)) + 1 = n := by exact_mod_cast h3
      linarith
  · exact h2
  · rcases lt_or_eq_of_le (show ⌊q⌋ + 1 ≤ n by omega) with h3 | h3
    · exact h3
    · exfalso
      have : ((⌊q⌋ : ℚ)) + 1 = n := by exact_mod_cast h3
      linarith

/-- the unit in the last place of numbers of at least 1/2 -/
theorem ulpExp_of_log {q : ℚ} (h : 1 / 2 ≤ q) : ulpExp q = Int.log 2 q - 23 ∧ -1 ≤ Int.log 2 q := by
  have hp : 0 < q := by linarith
  have : -1 ≤ Int.log 2 q := by
    rw [← Int.zpow_le_iff_le_log (by norm_num) hp]
    norm_num; linarith
  unfold ulpExp
  rw [abs_of_pos hp]
  omega

theorem log_le {q : ℚ} {k : ℤ} (hp : 0 < q) (h : q < 2 ^ (k + 1)) : Int.log 2 q ≤ k := by
  have := (Int.lt_zpow_iff_log_lt (b := 2) (x := k + 1) (by norm_num) hp).1 (by exact_mod_cast h)
  omega

theorem le_log {q : ℚ} {k : ℤ} (hp : 0 < q) (h : 2 ^ k ≤ q) : k ≤ Int.log 2 q :=
  (Int.zpow_le_iff_le_log (b := 2) (x := k) (by norm_num) hp).1 (by exact_mod_cast h)

theorem log_self {q : ℚ} (hp : 0 < q) : (2 : ℚ) ^ Int.log 2 q ≤ q := by
  exact_mod_cast Int.zpow_log_le_self (b := 2) (by norm_num) hp

theorem log_self_lt (q : ℚ) : q < (2 : ℚ) ^ (Int.log 2 q + 1) := by
  exact_mod_cast Int.lt_zpow_succ_log_self (b := 2) (by norm_num) q

/-- a multiple of a power of two is a multiple of every smaller one -/
theorem scale_int (m : ℤ) {e u : ℤ} (h : u ≤ e) : ∃ n : ℤ, (m : ℚ) * 2 ^ e = n * 2 ^ u := by
  obtain ⟨k, hk⟩ := Int.eq_ofNat_of_zero_le (show 0 ≤ e - u by omega)
  refine ⟨m * 2 ^ k, ?_⟩
  rw [show e = u + (k : ℤ) by omega, zpow_add₀ (by norm_num)]
  push_cast
  rw [zpow_natCast]; ring

theorem rndQ_of_ulp {q : ℚ} {m e : ℤ} (hq : q = m * 2 ^ e) (h : ulpExp q ≤ e) : rndQ q = q := by
  obtain ⟨n, hn⟩ := scale_int m h
  unfold rndQ
  have h2 : (2 : ℚ) ^ ulpExp q ≠ 0 := (zpow_pos (by norm_num) _).ne'
  have : q / 2 ^ ulpExp q = n := by
    rw [div_eq_iff h2, ← hn]; exact hq
  rw [this, roundEven_int, ← this, div_mul_cancel₀ _ h2]

/-- values of `f32` are not changed by rounding -/
theorem rndQ_rep {q : ℚ} (h : Rep q) : rndQ q = q := by
  obtain ⟨m, e, hq, hm, he⟩ := h
  by_cases h0 : q = 0
  · subst h0
    have := roundEven_int 0
    simp only [Int.cast_zero] at this
    simp [rndQ, this]
  · refine rndQ_of_ulp hq ?_
    unfold ulpExp
    have hp : 0 < |q| := abs_pos.2 h0
    have : Int.log 2 |q| ≤ e + 23 := by
      refine log_le hp ?_
      rw [hq, abs_mul, abs_of_pos (show (0 : ℚ) < 2 ^ e from zpow_pos (by norm_num) _), show e + 23 + 1 = 24 + e by ring,
        zpow_add₀ (by norm_num)]
      refine mul_lt_mul_of_pos_right ?_ (zpow_pos (by norm_num) _)
      have : ((|m| : ℤ) : ℚ) < ((2 ^ 24 : ℤ) : ℚ) := by exact_mod_cast hm
      calc |(m : ℚ)| = ((|m| : ℤ) : ℚ) := by simp
        _ < ((2 ^ 24 : ℤ) : ℚ) := this
        _ = _ := by norm_num
    omega

/-- integers below 2^16 are not crossed from above -/
theorem le_rndQ {n : ℕ} {q : ℚ} (hn : (n : ℚ) ≤ q) (hn' : n ≤ 65536) (h : 1 / 2 ≤ q) : (n : ℚ) ≤ rndQ q := by
  obtain ⟨he, hk⟩ := ulpExp_of_log h
  have hp : 0 < q := by linarith
  have h2 : (0 : ℚ) < 2 ^ ulpExp q := zpow_pos (by norm_num) _
  unfold rndQ
  by_cases h0 : ulpExp q ≤ 0
  · obtain ⟨m, hm⟩ := scale_int n h0
    have hm' : (n : ℚ) = m * 2 ^ ulpExp q := by rw [← hm]; simp
    have : m ≤ roundEven (q / 2 ^ ulpExp q) := by
      refine roundEven_ge ?_
      rw [le_div_iff₀ h2, ← hm']; exact hn
    rw [hm']
    exact mul_le_mul_of_nonneg_right (by exact_mod_cast this) h2.le
  · have h1 : (2 : ℤ) ^ 23 ≤ roundEven (q / 2 ^ ulpExp q) := by
      refine roundEven_ge ?_
      rw [le_div_iff₀ h2]
      have := log_self hp
      rw [show Int.log 2 q = 23 + ulpExp q by omega, zpow_add₀ (by norm_num)] at this
      push_cast
      exact_mod_cast this
    have h3 : (1 : ℚ) ≤ 2 ^ ulpExp q := one_le_zpow₀ (by norm_num) (by omega)
    have h4 : ((2 : ℚ) ^ 23) ≤ (roundEven (q / 2 ^ ulpExp q) : ℚ) := by exact_mod_cast h1
    have h5 : (n : ℚ) ≤ 65536 := by exact_mod_cast hn'
    calc (n : ℚ) ≤ 2 ^ 23 * 1 := by norm_num; linarith
      _ ≤ _ := mul_le_mul h4 h3 (by norm_num) (by linarith [show (0 : ℚ) ≤ 2 ^ 23 by norm_num])

theorem Rep.multiple {x : ℚ} (h : Rep x) {k : ℤ} (hk : (2 : ℚ) ^ k ≤ x) : ∃ n : ℤ, x = n * 2 ^ (k - 23) := by
  obtain ⟨m, e, hq, hm, he⟩ := h
  have : k - 23 ≤ e := by
    by_contra hc
    have h1 : x < 2 ^ (24 + e) := by
      rw [hq, zpow_add₀ (by norm_num)]
      refine mul_lt_mul_of_pos_right ?_ (zpow_pos (by norm_num) _)
      have h3 : ((m : ℤ) : ℚ) < ((2 ^ 24 : ℤ) : ℚ) := by exact_mod_cast lt_of_abs_lt hm
      calc (m : ℚ) < ((2 ^ 24 : ℤ) : ℚ) := h3
        _ = _ := by norm_num
    have h2 : (2 : ℚ) ^ (24 + e) ≤ 2 ^ k := zpow_le_zpow_right₀ (by norm_num) (by omega)
    linarith
  obtain ⟨n, hn⟩ := scale_int m this
  exact ⟨n, by rw [hq, hn]⟩

/-- the integer above is not reached, with one exception -/
theorem rndQ_lt {x : ℚ} (hr : Rep x) (hx : 0 ≤ x) {n : ℕ} (h1 : (n : ℚ) ≤ x + 1 / 2) (h2 : x + 1 / 2 < n + 1)
    (hn : n < 65536) (hne : x ≠ 1 / 2 - 1 / 2 ^ 25) : rndQ (x + 1 / 2) < n + 1 := by
  have hq : 1 / 2 ≤ x + 1 / 2 := by linarith
  obtain ⟨he, hk⟩ := ulpExp_of_log hq
  have hp : 0 < x + 1 / 2 := by linarith
  obtain ⟨k, hkk⟩ : ∃ k, k = Int.log 2 (x + 1 / 2) := ⟨_, rfl⟩
  rw [← hkk] at he hk
  have hlo : (2 : ℚ) ^ k ≤ x + 1 / 2 := by rw [hkk]; exact log_self hp
  have hhi : x + 1 / 2 < (2 : ℚ) ^ (k + 1) := by rw [hkk]; exact log_self_lt _
  have hk15 : k ≤ 15 := by
    rw [hkk]; refine log_le hp (h2.trans_le ?_)
    have : (n : ℚ) + 1 ≤ 65536 := by exact_mod_cast hn
    norm_num; linarith
  have hu : (0 : ℚ) < 2 ^ (k - 23) := zpow_pos (by norm_num) _
  unfold rndQ
  rw [he]
  obtain ⟨M, hM⟩ := scale_int ((n : ℤ) + 1) (show k - 23 ≤ 0 by omega)
  have hM' : (n : ℚ) + 1 = M * 2 ^ (k - 23) := by rw [← hM]; simp
  have key : (x + 1 / 2) / 2 ^ (k - 23) < M - 1 / 2 := by
    rw [div_lt_iff₀ hu, sub_mul, ← hM']
    by_contra hc
    have hc' : (n : ℚ) + 1 / 2 - 1 / 2 * 2 ^ (k - 23) ≤ x := by linarith
    by_cases hk1 : k = -1
    · -- the exception
      subst hk1
      have hn0 : n = 0 := by
        have : (n : ℚ) < 1 := by
          calc (n : ℚ) ≤ x + 1 / 2 := h1
            _ < _ := hhi
            _ = 1 := by norm_num
        have : n < 1 := by exact_mod_cast this
        omega
      subst hn0
      norm_num at hc' h2
      obtain ⟨j, hj⟩ := hr.multiple (k := -2) (by norm_num; linarith)
      norm_num at hj
      have j1 : (2 : ℚ) ^ 24 - 1 ≤ j := by rw [hj] at hc'; norm_num; linarith
      have j2 : (j : ℚ) < 2 ^ 24 := by rw [hj] at h2; norm_num; linarith
      have j1' : (2 : ℤ) ^ 24 - 1 ≤ j := by exact_mod_cast j1
      have j2' : j < 2 ^ 24 := by exact_mod_cast j2
      have : j = 2 ^ 24 - 1 := by omega
      apply hne
      rw [hj, this]; norm_num
    · have hk0 : 0 ≤ k := by omega
      have hu2 : (2 : ℚ) ^ (k - 23) ≤ 2 ^ (-8 : ℤ) := zpow_le_zpow_right₀ (by norm_num) (by omega)
      norm_num at hu2
      by_cases hxk : (2 : ℚ) ^ k ≤ x
      · obtain ⟨j, hj⟩ := hr.multiple hxk
        obtain ⟨L, hL⟩ := scale_int (2 * (n : ℤ) + 1) (show k - 23 ≤ -1 by omega)
        have hL' : (n : ℚ) + 1 / 2 = L * 2 ^ (k - 23) := by rw [← hL]; push_cast; norm_num; ring
        have a1 : (L : ℚ) - 1 / 2 ≤ j := by
          have : ((L : ℚ) - 1 / 2) * 2 ^ (k - 23) ≤ j * 2 ^ (k - 23) := by
            rw [← hj, sub_mul, ← hL']; exact hc'
          exact le_of_mul_le_mul_right this hu
        have a2 : (j : ℚ) < L := by
          have : (j : ℚ) * 2 ^ (k - 23) < L * 2 ^ (k - 23) := by
            rw [← hj, ← hL']; linarith
          exact lt_of_mul_lt_mul_right this hu.le
        have a2' : j < L := by exact_mod_cast a2
        have a3 : (j : ℚ) ≤ L - 1 := by
          have : j ≤ L - 1 := by omega
          exact_mod_cast this
        linarith
      · have hxk' : x < (2 : ℚ) ^ k := not_le.1 hxk
        obtain ⟨K, hK⟩ := Int.eq_ofNat_of_zero_le hk0
        have hpow : (2 : ℚ) ^ k = ((2 ^ K : ℕ) : ℚ) := by rw [hK]; push_cast; simp
        have b1 : ((2 ^ K : ℕ) : ℚ) < n + 1 := by rw [← hpow]; linarith
        have b2 : (2 ^ K : ℕ) < n + 1 := by exact_mod_cast b1
        have b3 : ((2 ^ K : ℕ) : ℚ) ≤ n := by
          have : (2 ^ K : ℕ) ≤ n := by omega
          exact_mod_cast this
        rw [hpow] at hxk'
        linarith
  have := roundEven_lt key
  rw [hM']
  exact mul_lt_mul_of_pos_right (by exact_mod_cast this) hu

end Lc3.F32
