import Verif.Lemmas.F64
import Verif.Props.Rounding
/-! C113: the integers that the code computes with floating point are the exact ones -/

namespace Lc3

/-- C113, the number of bits scaled to 10 ms in the post filters, for all frames below 2^49 bits -/
theorem C113_nbits (nbits : ℕ) (h : nbits < 2 ^ 49) : F64.tNbits nbits = ltpfTNbits .sevenPointFiveMs nbits := F64.tNbits_eq h

/-- `(8 n + 3) / 6` is the integer nearest to `n * 10 / 7.5` -/
theorem C113_nearest (nbits : ℕ) : |(ltpfTNbits .sevenPointFiveMs nbits : ℚ) - nbits * 10 / (15 / 2)| < 1 / 2 := by
  simp only [ltpfTNbits]
  obtain ⟨m, hm⟩ : ∃ m, m = (8 * nbits + 3) / 6 := ⟨_, rfl⟩
  rw [← hm]
  have h1 : 3 * m ≤ 4 * nbits + 1 := by omega
  have h2 : 4 * nbits ≤ 3 * m + 1 := by omega
  have h1' : 3 * (m : ℚ) ≤ 4 * nbits + 1 := by exact_mod_cast h1
  have h2' : 4 * (nbits : ℚ) ≤ 3 * m + 1 := by exact_mod_cast h2
  rw [abs_lt]; constructor <;> linarith

/-- C113, the pitch lag of the decoder, for all configurations and pitch indices -/
theorem C113_lag (f : SamplingFrequency) (d : FrameDuration) (i p fr : ℕ) (hi : i < 512) (h : pitchLagDec i = .ok (p, fr)) :
    F64.pUp (Lc3Config.new f d).fs p fr = pitchUp (Lc3Config.new f d).fs p fr := by
  have hb : p < 1024 ∧ fr < 4 := by
    unfold pitchLagDec at h
    by_cases h1 : i ≥ 440
    · rw [if_pos h1, usub_of_le (by omega)] at h
      simp only [Res.bind_ok, Res.ok.injEq, Prod.mk.injEq] at h
      omega
    · by_cases h2 : i ≥ 380
      · rw [if_neg h1, if_pos h2, usub_of_le (by omega)] at h
        simp only [Res.bind_ok] at h
        rw [usub_of_le (by omega), Res.bind_ok, usub_of_le (by omega), Res.bind_ok] at h
        simp only [Res.ok.injEq, Prod.mk.injEq] at h
        omega
      · rw [if_neg h1, if_neg h2] at h
        simp only at h
        rw [usub_of_le (by omega), Res.bind_ok] at h
        simp only [Res.ok.injEq, Prod.mk.injEq] at h
        omega
  refine F64.pUp_eq ?_ ?_ hb.1 hb.2
  · cases f <;> cases d <;> decide
  · cases f <;> cases d <;> decide

/-- C113, the logarithms in `f64`: of the range of the coders (below 2^24), of the mask of the bit writer, of the number of line pairs -/
theorem C113_log (L : ℚ → ℚ) (hL : F64.Log2 L) :
    (∀ r : ℕ, 0 < r → r < 2 ^ 24 → F64.floorLog L r = Nat.log2 r) ∧
    (∀ k : ℕ, k < 8 → F64.maskLog L (2 ^ k) = Nat.log2 (2 ^ k)) ∧
    (∀ f d, F64.pairBits L (Lc3Config.new f d).ne = clog2 ((Lc3Config.new f d).ne / 2)) := by
  refine ⟨fun r => F64.floorLog_eq hL, fun k => F64.maskLog_eq hL, fun f d => F64.pairBits_eq hL ?_ ?_ ?_⟩
  · cases f <;> cases d <;> decide
  · cases f <;> cases d <;> decide
  · cases f <;> cases d <;> decide

/-- C113, the logarithms in `f32`: the number of line pairs in the side information reader and in the quantiser -/
theorem C113_log32 (el : F32.Elem) (hl : F32.LogFunctions el) (f d) :
    F32.pairBitsDec el (Lc3Config.new f d).ne = clog2 ((Lc3Config.new f d).ne / 2) ∧
    F32.pairBitsQuant el (Lc3Config.new f d).ne = clog2 ((Lc3Config.new f d).ne / 2) := by
  obtain ⟨n, hn, h2, hb, hp⟩ : ∃ n, (Lc3Config.new f d).ne = 2 * n ∧ 2 ≤ n ∧ n < 256 ∧ ∀ k < 9, n ≠ 2 ^ k := by
    refine ⟨(Lc3Config.new f d).ne / 2, ?_, ?_, ?_, ?_⟩ <;> cases f <;> cases d <;> decide
  have hp' : ∀ k : ℕ, n ≠ 2 ^ k := by
    intro k hk
    by_cases h9 : k < 9
    · exact hp k h9 hk
    · have := Nat.pow_le_pow_right (show 0 < 2 by norm_num) (not_lt.1 h9)
      omega
  rw [hn, show 2 * n / 2 = n by omega]
  constructor
  · unfold F32.pairBitsDec
    rw [show 2 * n / 2 = n by omega, F32.rnd_nat24 (by omega)]
    exact F32.ceil_log el hl h2 (by omega) hp'
  · unfold F32.pairBitsQuant
    rw [F32.rnd_nat24 (by omega)]
    have : F32.div (F32.fin ((2 * n : ℕ) : ℚ)) (F32.fin 2) = F32.fin n := by
      simp only [F32.div]
      rw [if_neg (by norm_num), show ((2 * n : ℕ) : ℚ) / 2 = (n : ℕ) by push_cast; ring, F32.rnd_nat24 (by omega)]
    rw [this]
    exact F32.ceil_log el hl h2 (by omega) hp'

/-- C113, the end of the search for factors of the size of the transform -/
theorem C113_sqrt (el : F32.Elem) (ha : F32.Accurate el) (hs : F32.ExactSquares el) (n p : ℕ) (hn : n < 2 ^ 22) (hp : p < 2 ^ 24) :
    F32.aboveSqrt el n p = decide (p > Nat.sqrt n) := F32.aboveSqrt_eq el ha hs hn hp

/-- 2^52 + 1 is a number of `f64`, it is not one of `f32` -/
example : F64.rnd 4503599627370497 = 4503599627370497 := by
  have := F64.rnd_nat (n := 4503599627370497) (by norm_num)
  push_cast at this; exact this

/-- a logarithm that meets the assumption -/
example : ∃ L, F64.Log2 L := F64.exists_log2

/-- elementary functions that meet the assumptions on the square root -/
example : ∃ el, F32.Accurate el ∧ F32.ExactSquares el := by
  classical
  obtain ⟨el, ha⟩ := F32.exists_accurate
  have key : ∀ x : F32, ∃ y : F32, (∀ k : ℕ, x = .fin ((k : ℚ) ^ 2) → y = .fin k) ∧
      ((¬ ∃ k : ℕ, x = .fin ((k : ℚ) ^ 2)) → y = el.sqrt x) := by
    intro x
    by_cases h : ∃ k : ℕ, x = .fin ((k : ℚ) ^ 2)
    · obtain ⟨k, rfl⟩ := h
      refine ⟨.fin k, fun j hj => ?_, fun h => absurd ⟨k, rfl⟩ h⟩
      simp only [F32.fin.injEq] at hj ⊢
      exact (pow_left_inj₀ (n := 2) (by positivity) (by positivity) (by norm_num)).1 hj
    · exact ⟨el.sqrt x, fun k hk => absurd ⟨k, hk⟩ h, fun _ => rfl⟩
  choose g hg' using key
  have hg : ∀ k : ℕ, g (.fin ((k : ℚ) ^ 2)) = .fin k := fun k => (hg' _).1 k rfl
  refine ⟨{ el with sqrt := g }, ⟨ha.cosPi, ha.sinPi, fun q hq => ?_⟩, fun k _ => hg k⟩
  by_cases h : ∃ k : ℕ, q = (k : ℚ) ^ 2
  · obtain ⟨k, rfl⟩ := h
    refine ⟨k, hg k, ?_⟩
    push_cast
    rw [Real.sqrt_sq (by positivity), sub_self, abs_zero]; positivity
  · obtain ⟨r, hr, he⟩ := ha.sqrt q hq
    refine ⟨r, ?_, he⟩
    have h' : ¬ ∃ k : ℕ, F32.fin q = .fin ((k : ℚ) ^ 2) := by
      rintro ⟨k, hk⟩
      exact h ⟨k, by simpa using hk⟩
    exact ((hg' _).2 h').trans hr

/-- a lag that is covered: index 401 is the lag 137 and two quarters -/
example : pitchLagDec 401 = .ok (137, 2) ∧ pitchUp 48000 137 2 = 2063 := by decide

end Lc3
