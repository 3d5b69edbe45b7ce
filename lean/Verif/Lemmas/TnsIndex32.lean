import Verif.Lemmas.FinEncTns
import Verif.Lemmas.F32Eval
import Verif.Lemmas.Gain32
import Mathlib.Analysis.SpecialFunctions.Trigonometric.Bounds
/-! The index of a reflection coefficient in binary32: it leaves the tables for `±1` only. -/

namespace Lc3.F32
open Scalar Tables Spec

variable {el : Elem}

theorem isF32_div (a b : F32) : IsF32 (F32.div a b) := by
  have h0 : Rep 0 := ⟨0, 0, by norm_num, by norm_num, by norm_num⟩
  intro q h
  unfold F32.div at h
  split at h
  · cases h
  · cases h
  · cases h
  · cases h
  · cases h; exact h0
  · split at h
    · split at h <;> cases h
    · exact isF32_rnd _ q h

theorem isF32_neg {a : F32} (h : IsF32 a) : IsF32 (F32.neg a) := by
  intro q hq
  cases a with
  | nan => cases hq
  | inf s => cases hq
  | fin p =>
    have e : -p = q := by injection hq
    obtain ⟨m, n, h1, h2, h3⟩ := h p rfl
    exact ⟨-m, n, by rw [← e, h1]; push_cast; ring, by rwa [abs_neg], h3⟩

theorem isF32_at0 {l : List F32} (h : ∀ v ∈ l, IsF32 v) (i : ℕ) : IsF32 (@at0 F32 (scalar el) l i) := by
  unfold at0
  rw [List.getD_eq_getElem?_getD]
  cases e : l[i]? with
  | none => exact isF32_rnd 0
  | some v => exact h v (List.mem_of_getElem? e)

theorem isF32_stepDown : ∀ (k : ℕ) (a acc : List F32), (∀ v ∈ a, IsF32 v) → (∀ v ∈ acc, IsF32 v) →
    ∀ v ∈ @stepDown F32 (scalar el) k a acc, IsF32 v
  | 0, _, _, _, h => h
  | k + 1, a, acc, ha, h => by
    letI := scalar el
    unfold stepDown
    refine isF32_stepDown k _ _ ?_ ?_
    · intro v hv
      rcases List.mem_cons.1 hv with rfl | hv
      · exact isF32_rnd 1
      · obtain ⟨n, -, rfl⟩ := List.mem_map.1 hv
        exact isF32_div _ _
    · intro v hv
      rcases List.mem_cons.1 hv with rfl | hv
      · exact isF32_at0 ha _
      · exact h v hv

/-- the reflection coefficients are binary32 numbers -/
theorem isF32_tnsAnalysis (r : List F32) (nn : Bool) (w : ℕ) : ∀ v ∈ @tnsAnalysis F32 (scalar el) r nn w, IsF32 v := by
  letI := scalar el
  unfold tnsAnalysis
  simp only
  generalize (if Scalar.eq (levinson r).2 zero = true then at0 r 0 else at0 r 0 / (levinson r).2) = g
  split
  · refine isF32_stepDown 8 _ _ ?_ (by simp)
    intro v hv
    obtain ⟨p, -, rfl⟩ := List.mem_map.1 hv
    exact isF32_mul _ _
  · intro v hv
    rw [List.eq_of_mem_replicate hv]
    exact isF32_rnd 0

/-- below one, a binary32 number is at most `1 - 2 ^ -24` -/
theorem rep_below_one {q : ℚ} (h : Rep q) (h1 : q < 1) : q ≤ 1 - 1 / 2 ^ 24 := by
  obtain ⟨m, e, rfl, hm, he⟩ := h
  by_cases hm0 : m ≤ 0
  · have : (m : ℚ) * 2 ^ e ≤ 0 := mul_nonpos_of_nonpos_of_nonneg (by exact_mod_cast hm0) (by positivity)
    refine this.trans (by norm_num)
  push Not at hm0
  rw [abs_of_pos hm0] at hm
  by_cases h24 : e ≤ -24
  · have h2 : (2 : ℚ) ^ e ≤ 2 ^ (-24 : ℤ) := zpow_le_zpow_right₀ (by norm_num) h24
    have h3 : (m : ℚ) ≤ 2 ^ 24 - 1 := by
      have : m ≤ 2 ^ 24 - 1 := by omega
      exact_mod_cast this
    calc (m : ℚ) * 2 ^ e ≤ (2 ^ 24 - 1) * 2 ^ (-24 : ℤ) := mul_le_mul h3 h2 (by positivity) (by norm_num)
      _ = 1 - 1 / 2 ^ 24 := by norm_num
  · push Not at h24
    -- a multiple of `2 ^ -23`
    obtain ⟨k, hk⟩ : ∃ k : ℕ, e = -23 + k := ⟨(e + 23).toNat, by omega⟩
    have e1 : (m : ℚ) * 2 ^ e = ((m * 2 ^ k : ℤ) : ℚ) / 2 ^ 23 := by
      rw [hk, zpow_add₀ (by norm_num), zpow_natCast]
      push_cast
      rw [show (2 : ℚ) ^ (-23 : ℤ) = 1 / 2 ^ 23 by norm_num]
      ring
    rw [e1] at h1 ⊢
    rw [div_lt_iff₀ (by norm_num)] at h1
    have h2 : m * 2 ^ k < 2 ^ 23 := by
      have : ((m * 2 ^ k : ℤ) : ℚ) < ((2 ^ 23 : ℤ) : ℚ) := by
        rw [one_mul] at h1
        exact h1.trans_eq (by norm_num)
      exact_mod_cast this
    have h3 : ((m * 2 ^ k : ℤ) : ℚ) ≤ 2 ^ 23 - 1 := by
      have : m * 2 ^ k ≤ 2 ^ 23 - 1 := by omega
      exact_mod_cast this
    rw [div_le_iff₀ (by norm_num)]
    refine h3.trans (by norm_num)

/-- the arc sine of a binary32 number below one stays away from a right angle -/
theorem arcsin_gap {x : ℝ} (h1 : x ≤ 1 - 1 / 2 ^ 24) : Real.arcsin x ≤ Real.pi / 2 - 1 / 2 ^ 12 := by
  have hmono : Real.arcsin x ≤ Real.arcsin (1 - 1 / 2 ^ 24) := Real.monotone_arcsin h1
  refine hmono.trans ?_
  by_contra hc
  push Not at hc
  obtain ⟨t, ht⟩ : ∃ t, t = Real.pi / 2 - Real.arcsin (1 - 1 / 2 ^ 24) := ⟨_, rfl⟩
  have ht0 : 0 ≤ t := by rw [ht]; linarith [Real.arcsin_le_pi_div_two (1 - 1 / 2 ^ 24)]
  have ht1 : t < 1 / 2 ^ 12 := by rw [ht]; linarith
  have hcos : Real.cos t = 1 - 1 / 2 ^ 24 := by
    rw [ht, Real.cos_pi_div_two_sub, Real.sin_arcsin (by norm_num) (by norm_num)]
  have hq := Real.one_sub_sq_div_two_le_cos (x := t)
  rw [hcos] at hq
  have : t ^ 2 < (1 / 2 ^ 12) ^ 2 := by
    exact pow_lt_pow_left₀ ht1 ht0 (by norm_num)
  norm_num at this hq
  linarith

theorem arcsin_gap_abs {q : ℚ} (hq : Rep q) (h1 : |q| < 1) : |Real.arcsin q| ≤ Real.pi / 2 - 1 / 2 ^ 12 := by
  obtain ⟨h2, h3⟩ := abs_lt.1 h1
  have k1 := rep_below_one hq h3
  have hn : Rep (-q) := by
    obtain ⟨m, n, h1, h2, h3⟩ := hq
    exact ⟨-m, n, by rw [h1]; push_cast; ring, by rwa [abs_neg], h3⟩
  have k2 := rep_below_one hn (by linarith)
  have c1 : (q : ℝ) ≤ 1 - 1 / 2 ^ 24 := by
    have : (q : ℝ) ≤ ((1 - 1 / 2 ^ 24 : ℚ) : ℝ) := by exact_mod_cast k1
    push_cast at this
    exact this
  have c2 : -(q : ℝ) ≤ 1 - 1 / 2 ^ 24 := by
    have : ((-q : ℚ) : ℝ) ≤ ((1 - 1 / 2 ^ 24 : ℚ) : ℝ) := by exact_mod_cast k2
    push_cast at this
    exact this
  rw [abs_le]
  have d1 := arcsin_gap c1
  have d2 := arcsin_gap c2
  rw [Real.arcsin_neg] at d2
  constructor <;> linarith

/-- an angle below 8.4995 steps rounds to at most eight steps -/
theorem tnsToInt_small {a : F32} (h : Bd (84995 / 10000) a) : -8 ≤ @tnsToInt F32 (scalar el) a ∧ @tnsToInt F32 (scalar el) a ≤ 8 := by
  obtain ⟨⟨q, rfl⟩, hb⟩ := h
  have hb' : |(q : ℝ)| ≤ 84995 / 10000 := hb
  have hbq : |q| ≤ 84995 / 10000 := by
    have : ((|q| : ℚ) : ℝ) ≤ ((84995 / 10000 : ℚ) : ℝ) := by push_cast; exact hb'
    exact_mod_cast this
  have hhalf : rnd (1 / 2) = fin (1 / 2) := by rw [← rndK_eq]; decide +kernel
  have hz : rnd 0 = fin 0 := by rw [← rndK_eq]; decide +kernel
  have key : ∀ s : ℚ, 0 ≤ s → s ≤ 84995 / 10000 → ∃ t : ℚ, F32.add (fin s) (rnd (1 / 2)) = fin t ∧ 0 ≤ t ∧ t < 9 := by
    intro s h0 h1
    rw [hhalf]
    have hs : ((s + 1 / 2 : ℚ) : ℝ) ≤ 89996 / 10000 := by
      have : ((s + 1 / 2 : ℚ) : ℝ) ≤ ((89995 / 10000 : ℚ) : ℝ) := by
        have : s + 1 / 2 ≤ 89995 / 10000 := by linarith
        exact_mod_cast this
      refine this.trans (by norm_num)
    have hs0 : (0 : ℝ) ≤ ((s + 1 / 2 : ℚ) : ℝ) := by
      have : (0 : ℚ) ≤ s + 1 / 2 := by linarith
      exact_mod_cast this
    obtain ⟨⟨t, ht⟩, hv⟩ := rnd_val (x := s + 1 / 2) (by rw [abs_of_nonneg hs0]; exact hs.trans (by norm_num))
    refine ⟨t, ht, ?_⟩
    rw [ht] at hv
    have hlo : (1 / 2 : ℝ) ≤ ((s + 1 / 2 : ℚ) : ℝ) := by
      have : (1 / 2 : ℚ) ≤ s + 1 / 2 := by linarith
      have : ((1 / 2 : ℚ) : ℝ) ≤ ((s + 1 / 2 : ℚ) : ℝ) := by exact_mod_cast this
      simpa using this
    have hv' : |(t : ℝ) - ((s + 1 / 2 : ℚ) : ℝ)| ≤ |((s + 1 / 2 : ℚ) : ℝ)| / 2 ^ 24 + 1 / 2 ^ 150 := hv
    generalize ((s + 1 / 2 : ℚ) : ℝ) = S at *
    rw [abs_of_nonneg hs0] at hv'
    rw [abs_le] at hv'
    norm_num at hv'
    constructor
    · have : (0 : ℝ) ≤ t := by linarith [hv'.1]
      exact_mod_cast this
    · have : (t : ℝ) < 9 := by linarith [hv'.2]
      exact_mod_cast this
  unfold tnsToInt geS toI8
  by_cases h0 : 0 ≤ q
  · have hge : (@Scalar.lt F32 (scalar el) (@Scalar.zero F32 (scalar el)) (fin q) || @Scalar.eq F32 (scalar el) (fin q) (@Scalar.zero F32 (scalar el))) = true := by
      show (F32.lt (rnd 0) (fin q) || F32.eq (fin q) (rnd 0)) = true
      rw [hz]
      show (decide (0 < q) || decide (q = 0)) = true
      rcases h0.lt_or_eq with h | h
      · simp [h]
      · simp [h.symm]
    rw [hge, if_pos rfl]
    obtain ⟨t, ht, t0, t9⟩ := key q h0 (by rwa [abs_of_nonneg h0] at hbq)
    obtain ⟨-, k2, k3⟩ := (truncQ_bounds t).1 t0
    have k4 : truncQ t < 9 := by
      have : (truncQ t : ℚ) < ((9 : ℤ) : ℚ) := by push_cast; linarith
      exact_mod_cast this
    show -8 ≤ max (-128) (min 127 (F32.toI32 (F32.add (fin q) (rnd (1 / 2))))) ∧ max (-128) (min 127 (F32.toI32 (F32.add (fin q) (rnd (1 / 2))))) ≤ 8
    rw [ht]
    show -8 ≤ max (-128) (min 127 (max (-2147483648) (min 2147483647 (truncQ t)))) ∧ max (-128) (min 127 (max (-2147483648) (min 2147483647 (truncQ t)))) ≤ 8
    omega
  · push Not at h0
    have hge : (@Scalar.lt F32 (scalar el) (@Scalar.zero F32 (scalar el)) (fin q) || @Scalar.eq F32 (scalar el) (fin q) (@Scalar.zero F32 (scalar el))) = false := by
      show (F32.lt (rnd 0) (fin q) || F32.eq (fin q) (rnd 0)) = false
      rw [hz]
      show (decide (0 < q) || decide (q = 0)) = false
      simp [h0.le, h0.ne]
    rw [hge, if_neg (by simp)]
    obtain ⟨t, ht, t0, t9⟩ := key (-q) (by linarith) (by rwa [abs_of_neg h0] at hbq)
    obtain ⟨k1, k2, k3⟩ := (truncQ_bounds (-t)).2 (by linarith)
    have k4 : -9 < truncQ (-t) := by
      have : ((-9 : ℤ) : ℚ) < (truncQ (-t) : ℚ) := by push_cast; linarith
      exact_mod_cast this
    show -8 ≤ max (-128) (min 127 (F32.toI32 (F32.neg (F32.add (fin (-q)) (rnd (1 / 2)))))) ∧
      max (-128) (min 127 (F32.toI32 (F32.neg (F32.add (fin (-q)) (rnd (1 / 2)))))) ≤ 8
    rw [ht]
    show -8 ≤ max (-128) (min 127 (max (-2147483648) (min 2147483647 (truncQ (-t))))) ∧ max (-128) (min 127 (max (-2147483648) (min 2147483647 (truncQ (-t))))) ≤ 8
    omega

/-- no number rounds to no step -/
theorem tnsToInt_nan : @tnsToInt F32 (scalar el) nan = 0 := by
  show (if (F32.lt (rnd 0) nan || F32.eq nan (rnd 0)) = true then _ else max (-128) (min 127 (F32.toI32 (F32.neg (F32.add (F32.neg nan) (rnd (1 / 2))))))) = 0
  have h1 : (F32.lt (rnd 0) nan || F32.eq nan (rnd 0)) = false := by
    rw [show rnd 0 = fin 0 by rw [← rndK_eq]; decide +kernel]
    rfl
  rw [h1, if_neg (by simp)]
  have : F32.add (F32.neg nan) (rnd (1 / 2)) = nan := by
    rw [show rnd (1 / 2) = fin (1 / 2) by rw [← rndK_eq]; decide +kernel]
    rfl
  rw [this]
  rfl

theorem tnsToInt_one : @tnsToInt F32 (scalar el) (F32.div (fin (13176795 / 8388608)) (fin (12401689 / 67108864))) = 9 := by
  rw [evalScalar_eq, ← divK_eq]
  show @tnsToInt F32 (evalScalar sqrtElem) _ = 9
  decide +kernel

theorem tnsToInt_neg_one : @tnsToInt F32 (scalar el) (F32.div (fin (-13176795 / 8388608)) (fin (12401689 / 67108864))) = -9 := by
  rw [evalScalar_eq, ← divK_eq]
  show @tnsToInt F32 (evalScalar sqrtElem) _ = -9
  decide +kernel

/-- the angle of a reflection coefficient leaves the tables exactly for `±1` -/
theorem rc_stable_iff (he : EncFunctions el) {c : F32} (hc : IsF32 c) :
    (-8 ≤ @tnsToInt F32 (scalar el) (F32.div (el.asin c) el.piOver17) ∧ @tnsToInt F32 (scalar el) (F32.div (el.asin c) el.piOver17) ≤ 8) ↔
      c ≠ fin 1 ∧ c ≠ fin (-1) := by
  rw [he.step]
  constructor
  · intro h
    constructor
    · rintro rfl
      rw [he.asin_one, tnsToInt_one] at h
      omega
    · rintro rfl
      rw [he.asin_neg_one, tnsToInt_neg_one] at h
      omega
  · rintro ⟨h1, h2⟩
    have hnan : F32.div nan (fin (12401689 / 67108864)) = nan := rfl
    cases c with
    | nan => rw [he.asin_nan, hnan, tnsToInt_nan]; omega
    | inf s => rw [he.asin_inf, hnan, tnsToInt_nan]; omega
    | fin q =>
      rcases lt_trichotomy |q| 1 with hq | hq | hq
      · obtain ⟨a, ha, hae⟩ := he.asin q hq
        rw [ha]
        refine tnsToInt_small ?_
        have hg := arcsin_gap_abs (hc q rfl) hq
        have hpi := Real.pi_lt_d6
        have hb : Bd (15706 / 10000) (fin a) := by
          refine ⟨⟨_, rfl⟩, ?_⟩
          show |(a : ℝ)| ≤ _
          have := abs_sub_abs_le_abs_sub (a : ℝ) (Real.arcsin q)
          norm_num at hae hg ⊢
          linarith
        have := hb.div (b := fin (12401689 / 67108864)) (B := 12401689 / 67108864) ⟨_, rfl⟩ (by norm_num) (by
          show _ ≤ |(((12401689 / 67108864 : ℚ)) : ℝ)|
          push_cast
          exact le_abs_self _) (by norm_num) (by norm_num)
        refine this.mono ?_
        norm_num
      · rcases abs_eq (show (0 : ℚ) ≤ 1 by norm_num) |>.1 hq with rfl | rfl
        · exact absurd rfl h1
        · exact absurd rfl h2
      · rw [he.asin_out q hq, hnan, tnsToInt_nan]; omega

theorem stable_iff_noUnit (he : EncFunctions el) {cfg : Lc3Config} {x : List F32} {bw nbits : Nat} {nn : Bool} :
    StableTns32 el cfg x bw nbits nn ↔ NoUnit el cfg x bw nbits nn :=
  forall_congr' fun _ => forall_congr' fun _ => forall_congr' fun _ => forall_congr' fun _ => forall_congr' fun _ => forall_congr' fun _ =>
    forall_congr' fun c => forall_congr' fun hc => rc_stable_iff he (isF32_tnsAnalysis _ _ _ c hc)

end Lc3.F32
