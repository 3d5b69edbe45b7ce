import Verif.Spec.Gain32
import Verif.Lemmas.EncF32
import Verif.Lemmas.F32Fin
import Verif.Lemmas.FinEncAct
import Mathlib.Analysis.Complex.ExponentialBounds
/-! The limiter of the quantiser in binary32. -/

namespace Lc3
open Spec Tables Scalar

theorem log_ten_lt : Real.log 10 < 2.7726 := by
  have h1 : Real.log 10 < Real.log 16 := Real.log_lt_log (by norm_num) (by norm_num)
  have h2 : Real.log 16 = 4 * Real.log 2 := by
    rw [show (16 : ℝ) = 2 ^ (4 : ℕ) by norm_num, Real.log_pow]; norm_num
  have := Real.log_two_lt_d9
  linarith

theorem log_ten_pos : 0 < Real.log 10 := Real.log_pos (by norm_num)

/-- the logarithm of a number a little below a power of ten -/
theorem logb_le_of_le {w e : ℝ} (hw : 0 < w) (h : w ≤ (10 : ℝ) ^ e * (1 - 1 / 55000)) : Real.logb 10 w ≤ e - 1 / 152500 := by
  have h1 := (Real.logb_le_logb (b := 10) (by norm_num) hw (lt_of_lt_of_le hw h)).2 h
  rw [Real.logb_mul (by positivity) (by norm_num), Real.logb_rpow (by norm_num) (by norm_num)] at h1
  have h2 : Real.log (1 - 1 / 55000) ≤ -1 / 55000 := by
    have := Real.log_le_sub_one_of_pos (show (0 : ℝ) < 1 - 1 / 55000 by norm_num)
    linarith
  have h3 : Real.logb 10 (1 - 1 / 55000) ≤ -1 / 152500 := by
    unfold Real.logb
    rw [div_le_iff₀ log_ten_pos]
    have := log_ten_lt
    linarith
  linarith

/-- a power of ten with a small exponent -/
theorem rpow_small : (10 : ℝ) ^ (28 / 2 ^ 23 : ℝ) ≤ 1 + 926 / 10 ^ 8 := by
  rw [Real.rpow_def_of_pos (by norm_num)]
  have hl := log_ten_lt
  have hx : Real.log 10 * (28 / 2 ^ 23) ≤ 2.7726 * (28 / 2 ^ 23) := mul_le_mul_of_nonneg_right hl.le (by norm_num)
  refine (Real.exp_le_exp.2 hx).trans ?_
  have := Real.abs_exp_sub_one_sub_id_le (x := 2.7726 * (28 / 2 ^ 23)) (by norm_num [abs_le])
  rw [abs_le] at this
  have h2 := this.2
  norm_num at h2 ⊢
  linarith

namespace F32

theorem maxAbs_fold {xf : List F32} (h : ∀ y ∈ xf, IsFin y) : ∀ m : ℚ, 0 ≤ m →
    ∃ M : ℚ, xf.foldl (fun m x => maxF m (absF x)) (fin m) = fin M ∧ m ≤ M ∧ (∀ y ∈ xf, |val y| ≤ (M : ℝ)) ∧
      (M = m ∨ ∃ y ∈ xf, |val y| = (M : ℝ)) := by
  induction xf with
  | nil => intro m _; exact ⟨m, rfl, le_refl _, by simp, .inl rfl⟩
  | cons a l ih =>
    intro m hm
    obtain ⟨q, rfl⟩ := h a (by simp)
    have hstep : ∃ m', maxF (fin m) (absF (fin q)) = fin m' ∧ m ≤ m' ∧ |q| ≤ m' ∧ (m' = m ∨ m' = |q|) := by
      show ∃ m', (if lt (fin m) (fin |q|) then fin |q| else fin m) = fin m' ∧ _
      by_cases hl : m < |q|
      · exact ⟨|q|, by rw [if_pos (by simp [lt, hl])], hl.le, le_refl _, .inr rfl⟩
      · exact ⟨m, by rw [if_neg (by simp only [lt]; simpa using hl)], le_refl _, not_lt.1 hl, .inl rfl⟩
    obtain ⟨m', e1, e2, e3, e4⟩ := hstep
    obtain ⟨M, f1, f2, f3, f4⟩ := ih (fun y hy => h y (List.mem_cons_of_mem _ hy)) m' (hm.trans e2)
    have hq : |val (fin q)| = ((|q| : ℚ) : ℝ) := by show |(q : ℝ)| = _; rw [Rat.cast_abs]
    refine ⟨M, by rw [List.foldl_cons, e1]; exact f1, e2.trans f2, ?_, ?_⟩
    · intro y hy
      rcases List.mem_cons.1 hy with rfl | hy
      · rw [hq]; exact_mod_cast e3.trans f2
      · exact f3 y hy
    · rcases f4 with f4 | ⟨y, hy, f4⟩
      · rcases e4 with e4 | e4
        · left; rw [f4, e4]
        · right; exact ⟨fin q, by simp, by rw [hq, f4, e4]⟩
      · right; exact ⟨y, List.mem_cons_of_mem _ hy, f4⟩

theorem maxAbs_f32 (el : Elem) {xf : List F32} (h : ∀ y ∈ xf, IsFin y) :
    ∃ M : ℚ, @maxAbs F32 (scalar el) xf = fin M ∧ 0 ≤ M ∧ (∀ y ∈ xf, |val y| ≤ (M : ℝ)) ∧ ∀ B : ℝ, 0 ≤ B → (∀ y ∈ xf, |val y| ≤ B) → (M : ℝ) ≤ B := by
  have hz : rnd 0 = .fin 0 := by unfold rnd; rw [rndQ_zero]; norm_num
  obtain ⟨M, h1, h2, h3, h4⟩ := maxAbs_fold h 0 (le_refl _)
  refine ⟨M, ?_, h2, h3, ?_⟩
  · show xf.foldl (fun m x => maxF m (absF x)) (rnd 0) = _
    rw [hz, h1]
  · intro B hB hy
    rcases h4 with h4 | ⟨y, hy', h4⟩
    · rw [h4]; simpa using hB
    · rw [← h4]; exact hy y hy'

theorem rnd_K : F32.sub (rnd 32768) (rnd (3 / 8)) = fin (262141 / 8) := by
  have e1 : rnd 32768 = fin 32768 := by
    rw [rnd_fin (by norm_num), rndQ_rep ⟨1, 15, by norm_num, by norm_num, by norm_num⟩]
  have e2 : rnd (3 / 8) = fin (3 / 8) := by
    rw [rnd_fin (by norm_num [abs_le]), rndQ_rep ⟨3, -3, by norm_num, by norm_num, by norm_num⟩]
  rw [e1, e2]
  show rnd (32768 + -(3 / 8)) = _
  rw [show (32768 + -(3 / 8) : ℚ) = 262141 / 8 by norm_num, rnd_fin (by norm_num [abs_le]),
    rndQ_rep ⟨262141, -3, by norm_num, by norm_num, by norm_num⟩]

theorem rnd_28 : rnd 28 = fin 28 := by
  rw [rnd_fin (by norm_num [abs_le]), rndQ_rep ⟨28, 0, by norm_num, by norm_num, by norm_num⟩]

theorem toI16_ceil (el : Elem) (z : ℚ) : @toI16 F32 (scalar el) (ceilF (fin z)) = max (-32768) (min 32767 ⌈z⌉) := by
  unfold toI16
  show max (-32768) (min 32767 (F32.toI32 (fin ((⌈z⌉ : ℤ) : ℚ)))) = _
  have ht : truncQ ((⌈z⌉ : ℤ) : ℚ) = ⌈z⌉ := by
    unfold truncQ
    split
    · rw [Int.floor_intCast]
    · rw [← Int.cast_neg, Int.floor_intCast, neg_neg]
  simp only [F32.toI32, ht]
  omega

/-- the limiter bound -/
theorem ggMinOf_f32 {el : Elem} (hel : GainFunctions el) {xf : List F32} {M : ℚ} (hM : @maxAbs F32 (scalar el) xf = fin M) (h0 : 0 < M)
    (hb : M ≤ 2 ^ 100) (ggOff : ℤ) :
    (rndQ (M / (262141 / 8)) = 0 ∧ @ggMinOf F32 (scalar el) xf ggOff = -32768 - ggOff) ∨
    ∃ z : ℚ, 0 < rndQ (M / (262141 / 8)) ∧ @ggMinOf F32 (scalar el) xf ggOff = max (-32768) (min 32767 ⌈z⌉) - ggOff ∧
      |(z : ℝ) - 28 * Real.logb 10 (rndQ (M / (262141 / 8)) : ℚ)| ≤ 28 * |Real.logb 10 (rndQ (M / (262141 / 8)) : ℚ)| * (3 / 2 ^ 23) + 1 / 2 ^ 90 := by
  have hz : rnd 0 = .fin 0 := by unfold rnd; rw [rndQ_zero]; norm_num
  have hnn : (0 : ℚ) ≤ M / (262141 / 8) := by positivity
  have hle : M / (262141 / 8) ≤ 2 ^ 100 := by
    rw [div_le_iff₀ (by norm_num)]
    norm_num at hb ⊢
    linarith
  have hdiv : F32.div (fin M) (fin (262141 / 8)) = fin (rndQ (M / (262141 / 8))) := by
    show (if (262141 / 8 : ℚ) = 0 then _ else rnd (M / (262141 / 8))) = _
    rw [if_neg (by norm_num), rnd_fin]
    rw [abs_of_nonneg hnn]
    exact hle.trans (by norm_num)
  have hdef : @ggMinOf F32 (scalar el) xf ggOff =
      @toI16 F32 (scalar el) (ceilF (F32.mul (fin 28) (el.log10 (fin (rndQ (M / (262141 / 8))))))) - ggOff := by
    unfold ggMinOf
    rw [hM]
    show (if F32.lt (rnd 0) (fin M) = true then _ else _) = _
    rw [hz, if_pos (by simp [F32.lt, h0])]
    show @toI16 F32 (scalar el) (ceilF (F32.mul (rnd 28) (el.log10 (F32.div (fin M) (F32.sub (rnd 32768) (rnd (3 / 8))))))) - ggOff = _
    rw [rnd_K, rnd_28, hdiv]
  rw [hdef]
  have hwle : rndQ (M / (262141 / 8)) ≤ 2 ^ 101 := by
    have := rndQ_upper hnn
    norm_num at this hle ⊢
    linarith
  have hwp := rndQ_pos hnn
  have hwn := rndQ_nonneg hnn
  generalize rndQ (M / (262141 / 8)) = w at *
  rcases eq_or_ne w 0 with hw | hw
  · left
    refine ⟨hw, ?_⟩
    rw [hw, hel.log10_zero]
    rfl
  · right
    have hw0 : 0 < w := lt_of_le_of_ne hwn (Ne.symm hw)
    have hw1 := hwp hw
    obtain ⟨c, e, hc⟩ := hel.log10 w hw0
    have hL : |Real.logb 10 w| ≤ 50 := by
      have hw0' : (0 : ℝ) < w := by exact_mod_cast hw0
      rw [abs_le]
      constructor
      · rw [Real.le_logb_iff_rpow_le (by norm_num) hw0']
        have h1 : ((1 / 2 ^ 149 : ℚ) : ℝ) ≤ w := by exact_mod_cast hw1
        refine le_trans ?_ h1
        rw [Real.rpow_neg (by norm_num), show (50 : ℝ) = ((50 : ℕ) : ℝ) by norm_num, Real.rpow_natCast]
        norm_num
      · rw [Real.logb_le_iff_le_rpow (by norm_num) hw0']
        have h1 : (w : ℝ) ≤ ((2 ^ 101 : ℚ) : ℝ) := by exact_mod_cast hwle
        refine h1.trans ?_
        rw [show (50 : ℝ) = ((50 : ℕ) : ℝ) by norm_num, Real.rpow_natCast]
        norm_num
    generalize Real.logb 10 (w : ℝ) = L at hc hL ⊢
    have hcabs : |(c : ℝ)| ≤ |L| * (1 + 1 / 2 ^ 22) + 1 / 2 ^ 100 := by
      have := abs_sub_abs_le_abs_sub (c : ℝ) L
      linarith
    have hc100 : |(c : ℝ)| ≤ 100 := by
      norm_num at hcabs hL ⊢
      linarith
    have hc' : |28 * c| ≤ 2 ^ 127 := by
      rw [abs_mul]
      have : |c| ≤ 100 := by
        have : ((|c| : ℚ) : ℝ) ≤ 100 := by rw [Rat.cast_abs]; exact hc100
        exact_mod_cast this
      norm_num
      linarith
    refine ⟨rndQ (28 * c), hw0, ?_, ?_⟩
    · rw [e]
      show @toI16 F32 (scalar el) (ceilF (rnd (28 * c))) - ggOff = _
      rw [rnd_fin hc', toI16_ceil]
    · have h1 := rndQ_err (28 * c)
      have h2 : |((rndQ (28 * c) : ℚ) : ℝ) - 28 * c| ≤ 28 * |(c : ℝ)| / 2 ^ 24 + 1 / 2 ^ 150 := by
        rw [abs_mul] at h1
        have := (Rat.cast_le (K := ℝ)).2 h1
        push_cast at this
        rwa [show |(28 : ℝ)| = 28 by norm_num] at this
      have h3 : ((rndQ (28 * c) : ℚ) : ℝ) - 28 * L = (((rndQ (28 * c) : ℚ) : ℝ) - 28 * c) + 28 * ((c : ℝ) - L) := by ring
      rw [h3]
      refine (abs_add_le _ _).trans ?_
      rw [abs_mul, show |(28 : ℝ)| = 28 by norm_num]
      have hLn := abs_nonneg L
      generalize |L| = A at *
      generalize |(c : ℝ)| = C at *
      generalize |(c : ℝ) - L| = E at *
      norm_num at h2 hc hcabs hL ⊢
      linarith

theorem gainOffset_bounds (nbits : ℕ) {fsInd : ℕ} (hfs : fsInd ≤ 4) : -245 ≤ gainOffset nbits fsInd ∧ gainOffset nbits fsInd ≤ -110 := by
  unfold gainOffset
  have h : ((min 115 (nbits / (10 * (fsInd + 1))) : ℕ) : ℤ) ≤ 115 := by
    have := Nat.min_le_left 115 (nbits / (10 * (fsInd + 1)))
    exact_mod_cast this
  have h0 : 0 ≤ ((min 115 (nbits / (10 * (fsInd + 1))) : ℕ) : ℤ) := by positivity
  generalize ((min 115 (nbits / (10 * (fsInd + 1))) : ℕ) : ℤ) = k at *
  omega

/-- the limiter bound is at most 255 if all lines are in range -/
theorem ggMinOf_f32_le {el : Elem} (hel : GainFunctions el) {xf : List F32} {nbits fsInd : ℕ} (hn : nbits < 32768) (hfs : fsInd ≤ 4)
    (h : ∀ y ∈ xf, IsFin y ∧ |val y| ≤ 32767 * stepOf nbits fsInd 255) :
    @ggMinOf F32 (scalar el) xf (ggOffEnc nbits fsInd) ≤ 255 := by
  rw [ggOffEnc_spec hn]
  have hoff := gainOffset_bounds nbits hfs
  obtain ⟨M, h1, h2, h3, h4⟩ := maxAbs_f32 el fun y hy => (h y hy).1
  have hS0 : 0 < stepOf nbits fsInd 255 := by unfold stepOf; positivity
  have hMS := h4 (32767 * stepOf nbits fsInd 255) (by positivity) fun y hy => (h y hy).2
  rcases h2.eq_or_lt with h0 | h0
  · have hz : rnd 0 = .fin 0 := by unfold rnd; rw [rndQ_zero]; norm_num
    unfold ggMinOf
    rw [h1]
    show (if F32.lt (rnd 0) (fin M) = true then _ else _) ≤ _
    rw [hz, if_neg (by simp [F32.lt, ← h0])]
    norm_num
  have hexp : ((255 : ℕ) : ℝ) + (gainOffset nbits fsInd : ℝ) ≤ 145 ∧ 10 ≤ ((255 : ℕ) : ℝ) + (gainOffset nbits fsInd : ℝ) := by
    have a1 : (-245 : ℝ) ≤ gainOffset nbits fsInd := by exact_mod_cast hoff.1
    have a2 : (gainOffset nbits fsInd : ℝ) ≤ -110 := by exact_mod_cast hoff.2
    push_cast
    constructor <;> linarith
  have hS6 : stepOf nbits fsInd 255 ≤ 10 ^ 6 := by
    unfold stepOf
    rw [← Real.rpow_natCast (10 : ℝ) 6]
    refine Real.rpow_le_rpow_of_exponent_le (by norm_num) ?_
    rw [div_le_iff₀ (by norm_num)]
    push_cast
    push_cast at hexp
    linarith [hexp.1]
  have hS1 : 1 ≤ stepOf nbits fsInd 255 := by
    unfold stepOf
    refine Real.one_le_rpow (by norm_num) ?_
    have := hexp.2
    positivity
  have hMb : M ≤ 2 ^ 100 := by
    have : (M : ℝ) ≤ ((2 ^ 100 : ℚ) : ℝ) := by
      push_cast
      norm_num
      linarith
    exact_mod_cast this
  rcases ggMinOf_f32 hel h1 h0 hMb (gainOffset nbits fsInd) with ⟨-, e⟩ | ⟨z, w0, e, hz⟩
  · rw [e]; omega
  rw [e]
  suffices hs : ⌈z⌉ ≤ 255 + gainOffset nbits fsInd by omega
  rw [Int.ceil_le]
  have hw : ((rndQ (M / (262141 / 8)) : ℚ) : ℝ) ≤ stepOf nbits fsInd 255 * (1 - 1 / 55000) := by
    have hnn : (0 : ℚ) ≤ M / (262141 / 8) := by positivity
    have := (Rat.cast_le (K := ℝ)).2 (rndQ_upper hnn)
    push_cast at this
    refine this.trans ?_
    have hM' : (M : ℝ) / (262141 / 8) ≤ 32767 * stepOf nbits fsInd 255 / (262141 / 8) := by
      rw [div_le_div_iff_of_pos_right (by norm_num)]; exact hMS
    generalize (M : ℝ) / (262141 / 8) = u at *
    norm_num at hM' hS1 ⊢
    linarith
  have hw0 : (0 : ℝ) < ((rndQ (M / (262141 / 8)) : ℚ) : ℝ) := by exact_mod_cast w0
  have hlog := logb_le_of_le (e := ((255 : ℕ) + (gainOffset nbits fsInd : ℝ)) / 28) hw0 hw
  generalize Real.logb 10 ((rndQ (M / (262141 / 8)) : ℚ) : ℝ) = L at hz hlog
  have hn1 := hexp.1
  have hn2 := hexp.2
  push_cast at hlog hn1 hn2
  have key : (z : ℝ) ≤ 255 + gainOffset nbits fsInd := by
    rw [abs_le] at hz
    rcases le_total 0 L with hL | hL
    · rw [abs_of_nonneg hL] at hz
      have := hz.2
      norm_num at this hlog
      linarith
    · rw [abs_of_nonpos hL] at hz
      have := hz.2
      norm_num at this
      linarith
  have : (z : ℝ) ≤ (((255 + gainOffset nbits fsInd : ℤ) : ℚ) : ℝ) := by push_cast; exact key
  exact_mod_cast this

end F32
end Lc3

namespace Lc3
open Spec Tables Scalar
namespace F32

theorem rpow_near {x : ℝ} (h : |x| ≤ 9 / 2 ^ 24) : |(10 : ℝ) ^ x - 1| ≤ 25 / 2 ^ 24 := by
  rw [Real.rpow_def_of_pos (by norm_num)]
  have hl := log_ten_lt
  have hp := log_ten_pos
  have hx : |Real.log 10 * x| ≤ 2.7726 * (9 / 2 ^ 24) := by
    rw [abs_mul, abs_of_pos hp]
    exact mul_le_mul hl.le h (abs_nonneg _) (by norm_num)
  have := Real.abs_exp_sub_one_sub_id_le (x := Real.log 10 * x) (hx.trans (by norm_num))
  have h2 : (Real.log 10 * x) ^ 2 ≤ (2.7726 * (9 / 2 ^ 24)) ^ 2 := by
    rw [← sq_abs]
    exact pow_le_pow_left₀ (abs_nonneg _) hx 2
  generalize Real.log 10 * x = t at *
  have h3 : |Real.exp t - 1| ≤ |Real.exp t - 1 - t| + |t| := by
    calc |Real.exp t - 1| = |(Real.exp t - 1 - t) + t| := by ring_nf
      _ ≤ _ := abs_add_le _ _
  norm_num at h2 hx this h3 ⊢
  linarith

/-- the gain of an index in binary32 -/
theorem gain_f32 {el : Elem} (hel : GainFunctions el) {nbits fsInd gg : ℕ} (hn : nbits < 32768) (hfs : fsInd ≤ 4) (hg : gg < 256) :
    ∃ g : ℚ, @globalGainFactor F32 (scalar el) nbits fsInd gg = fin g ∧ 0 < g ∧
      |(g : ℝ) - stepOf nbits fsInd gg| ≤ stepOf nbits fsInd gg / 2 ^ 19 := by
  have ho := gainOffset_bounds nbits hfs
  have hoff : ggOffDec nbits fsInd = gainOffset nbits fsInd := by
    rw [← (C25 (α := ℝ) (ggInd := gg) (fsInd := fsInd) hn).1, ggOffEnc_spec hn]
  generalize hod : gainOffset nbits fsInd = o at *
  have r1 : rnd (gg : ℚ) = fin gg := rnd_nat (by omega)
  have r2 : rnd ((o : ℤ) : ℚ) = fin o := by
    have := rnd_int (n := o) (by rw [abs_le]; omega)
    exact this
  have r3 : F32.add (fin (gg : ℚ)) (fin (o : ℚ)) = fin (((gg : ℤ) + o : ℤ) : ℚ) := by
    show rnd ((gg : ℚ) + (o : ℚ)) = _
    have := rnd_int (n := (gg : ℤ) + o) (by rw [abs_le]; omega)
    rw [← this]
    push_cast
    rfl
  have a1 : (((gg : ℤ) + o : ℤ) : ℝ) ≤ 145 := by exact_mod_cast (by omega : (gg : ℤ) + o ≤ 145)
  have a2 : (-245 : ℝ) ≤ (((gg : ℤ) + o : ℤ) : ℝ) := by exact_mod_cast (by omega : -245 ≤ (gg : ℤ) + o)
  have hstep : stepOf nbits fsInd gg = (10 : ℝ) ^ ((((gg : ℤ) + o : ℤ) : ℝ) / 28) := by
    unfold stepOf
    rw [hod]
    push_cast
    rfl
  rw [hstep]
  generalize ((gg : ℤ) + o : ℤ) = m at *
  have hv : val (fin ((m : ℤ) : ℚ)) = (m : ℝ) := by show (((m : ℤ) : ℚ) : ℝ) = _; push_cast; rfl
  have hv2 : val (fin 28) = 28 := by show ((28 : ℚ) : ℝ) = _; norm_num
  obtain ⟨⟨t, ht⟩, d2⟩ := div_val (a := fin ((m : ℤ) : ℚ)) (b := fin 28) ⟨_, rfl⟩ ⟨_, rfl⟩ (by rw [hv2]; norm_num) (by
    rw [hv, hv2, abs_le]
    constructor <;> norm_num <;> linarith)
  rw [hv, hv2] at d2
  have hab : |(m : ℝ) / 28| ≤ 245 / 28 := by
    rw [abs_le]
    constructor <;> linarith
  rw [ht] at d2
  have hd : |(t : ℝ) - (m : ℝ) / 28| ≤ 9 / 2 ^ 24 := by
    change |(t : ℝ) - (m : ℝ) / 28| ≤ _ at d2
    norm_num at d2 hab ⊢
    linarith
  have ht10 : |t| ≤ 10 := by
    have : |(t : ℝ)| ≤ 10 := by
      have := abs_sub_abs_le_abs_sub (t : ℝ) ((m : ℝ) / 28)
      norm_num at hd hab this ⊢
      linarith
    have h' : ((|t| : ℚ) : ℝ) ≤ ((10 : ℚ) : ℝ) := by push_cast; exact this
    exact_mod_cast h'
  obtain ⟨c, c1, c2⟩ := hel.pow10 t ht10
  refine ⟨c, ?_, ?_, ?_⟩
  · show el.pow10 (F32.div (F32.add (rnd (gg : ℚ)) (rnd ((ggOffDec nbits fsInd : ℤ) : ℚ))) (rnd 28)) = _
    rw [hoff, r1, r2, r3, rnd_28, ht, c1]
  · have h0 : (0 : ℝ) < (10 : ℝ) ^ (t : ℝ) := Real.rpow_pos_of_pos (by norm_num) _
    rw [abs_le] at c2
    have : (0 : ℝ) < c := by
      have := c2.1
      norm_num at this
      linarith
    exact_mod_cast this
  · have hp : (0 : ℝ) < (10 : ℝ) ^ ((m : ℝ) / 28) := Real.rpow_pos_of_pos (by norm_num) _
    have hr := rpow_near hd
    have hsplit : (10 : ℝ) ^ (t : ℝ) = (10 : ℝ) ^ ((m : ℝ) / 28) * (10 : ℝ) ^ ((t : ℝ) - (m : ℝ) / 28) := by
      rw [← Real.rpow_add (by norm_num)]
      congr 1
      ring
    rw [hsplit] at c2
    generalize (10 : ℝ) ^ ((m : ℝ) / 28) = P at *
    generalize (10 : ℝ) ^ ((t : ℝ) - (m : ℝ) / 28) = k at *
    have h1 : |(c : ℝ) - P| ≤ |(c : ℝ) - P * k| + P * |k - 1| := by
      calc |(c : ℝ) - P| = |((c : ℝ) - P * k) + P * (k - 1)| := by ring_nf
        _ ≤ _ := abs_add_le _ _
        _ = _ := by rw [abs_mul P, abs_of_pos hp]
    have h2 : P * |k - 1| ≤ P * (25 / 2 ^ 24) := mul_le_mul_of_nonneg_left hr hp.le
    have h3 : P * k ≤ P * (1 + 25 / 2 ^ 24) := by
      refine mul_le_mul_of_nonneg_left ?_ hp.le
      rw [abs_le] at hr
      linarith [hr.2]
    generalize P * k = Q at *
    generalize |k - 1| = R at *
    have c3 : |(c : ℝ) - Q| ≤ P * (1 + 25 / 2 ^ 24) / 2 ^ 22 := by
      refine c2.trans ?_
      exact div_le_div_of_nonneg_right h3 (by positivity)
    norm_num at c3 h2 ⊢
    linarith

theorem truncQ_bounds (t : ℚ) : (0 ≤ t → t - 1 < truncQ t ∧ (truncQ t : ℚ) ≤ t ∧ 0 ≤ truncQ t) ∧
    (t ≤ 0 → t ≤ truncQ t ∧ (truncQ t : ℚ) < t + 1 ∧ truncQ t ≤ 0) := by
  unfold truncQ
  constructor
  · intro h
    rw [if_pos h]
    exact ⟨Int.sub_one_lt_floor t, Int.floor_le t, Int.floor_nonneg.2 h⟩
  · intro h
    by_cases h0 : 0 ≤ t
    · have : t = 0 := le_antisymm h h0
      rw [if_pos h0, this]
      norm_num
    · rw [if_neg h0]
      have h1 := Int.floor_le (-t)
      have h2 := Int.sub_one_lt_floor (-t)
      have h3 : 0 ≤ ⌊-t⌋ := Int.floor_nonneg.2 (by linarith)
      push_cast
      refine ⟨by linarith, by linarith, by omega⟩

/-- one line of the quantiser in binary32, by the sign of the line -/
theorem quantLine_f32_sides (el : Elem) {g x : ℚ} (hg : 0 < g) (hx : |x| ≤ (32767 + 1 / 2) * g) :
    |@quantLine F32 (scalar el) (fin g) (fin x)| ≤ 32767 ∧
      (0 ≤ x → 0 ≤ @quantLine F32 (scalar el) (fin g) (fin x) ∧ -(379 / 1000) ≤ x / g - @quantLine F32 (scalar el) (fin g) (fin x) ∧
        x / g - @quantLine F32 (scalar el) (fin g) (fin x) ≤ 629 / 1000) ∧
      (x < 0 → @quantLine F32 (scalar el) (fin g) (fin x) ≤ 0 ∧ -(629 / 1000) ≤ x / g - @quantLine F32 (scalar el) (fin g) (fin x) ∧
        x / g - @quantLine F32 (scalar el) (fin g) (fin x) ≤ 379 / 1000) := by
  have hz : rnd 0 = .fin 0 := by unfold rnd; rw [rndQ_zero]; norm_num
  have e38 : rnd (3 / 8) = fin (3 / 8) := by
    rw [rnd_fin (by norm_num [abs_le]), rndQ_rep ⟨3, -3, by norm_num, by norm_num, by norm_num⟩]
  have hq : |x / g| ≤ 32767 + 1 / 2 := by
    rw [abs_div, abs_of_pos hg, div_le_iff₀ hg]; exact hx
  have hdiv : F32.div (fin x) (fin g) = fin (rndQ (x / g)) := by
    show (if g = 0 then _ else rnd (x / g)) = _
    rw [if_neg hg.ne', rnd_fin (hq.trans (by norm_num))]
  have herr := rndQ_err (x / g)
  obtain ⟨u, hu⟩ : ∃ u, u = x / g := ⟨_, rfl⟩
  have hxu : x = u * g := by rw [hu, div_mul_cancel₀ _ hg.ne']
  rw [← hu] at hq hdiv herr
  have hq1 : |rndQ u - u| ≤ 1 / 500 := by
    norm_num at hq herr ⊢
    linarith
  -- the value before the truncation
  have key : ∃ t : ℚ, @quantLine F32 (scalar el) (fin g) (fin x) = max (-32768) (min 32767 (truncQ t)) ∧
      ((0 ≤ u ∧ 0 ≤ t ∧ |t - (u + 3 / 8)| ≤ 1 / 250) ∨ (u < 0 ∧ t ≤ 0 ∧ |t - (u - 3 / 8)| ≤ 1 / 250)) := by
    have hge : @geS F32 (scalar el) (fin x) (@zero F32 (scalar el)) = decide (0 ≤ x) := by
      unfold geS
      show (F32.lt (rnd 0) (fin x) || F32.eq (fin x) (rnd 0)) = _
      rw [hz]
      simp only [F32.lt, F32.eq]
      rw [← Bool.decide_or, decide_eq_decide]
      constructor
      · rintro (h | h)
        · exact h.le
        · exact h.ge
      · intro h
        rcases h.eq_or_lt with h | h
        · exact .inr h.symm
        · exact .inl h
    have hsat : ∀ t : ℚ, @toI16 F32 (scalar el) (fin t) = max (-32768) (min 32767 (truncQ t)) := by
      intro t
      show max (-32768) (min 32767 (max (-2147483648) (min 2147483647 (truncQ t)))) = _
      omega
    unfold quantLine
    rw [hge]
    by_cases h : 0 ≤ x
    · have hu0 : 0 ≤ u := by rw [hu]; positivity
      rw [decide_eq_true h, if_pos rfl]
      have hn := rndQ_nonneg hu0
      have hb : |rndQ u + 3 / 8| ≤ 32769 := by
        rw [abs_le] at hq hq1 ⊢
        constructor <;> linarith [hq.1, hq.2, hq1.1, hq1.2]
      refine ⟨rndQ (rndQ u + 3 / 8), ?_, .inl ⟨hu0, rndQ_nonneg (by linarith), ?_⟩⟩
      · show @toI16 F32 (scalar el) (F32.add (F32.div (fin x) (fin g)) (rnd (3 / 8))) = _
        rw [hdiv, e38]
        show @toI16 F32 (scalar el) (rnd (rndQ u + 3 / 8)) = _
        rw [rnd_fin (hb.trans (by norm_num)), hsat]
      · have h2 := rndQ_err (rndQ u + 3 / 8)
        have h3 : |rndQ (rndQ u + 3 / 8) - (u + 3 / 8)| ≤ |rndQ (rndQ u + 3 / 8) - (rndQ u + 3 / 8)| + |rndQ u - u| := by
          calc _ = |(rndQ (rndQ u + 3 / 8) - (rndQ u + 3 / 8)) + (rndQ u - u)| := by ring_nf
            _ ≤ _ := abs_add_le _ _
        norm_num at h2 hb hq1 ⊢
        linarith
    · have hu0 : u < 0 := by rw [hu]; exact div_neg_of_neg_of_pos (not_le.1 h) hg
      rw [decide_eq_false h, if_neg (by decide)]
      have hn : rndQ u ≤ 0 := by
        have := rndQ_nonneg (q := -u) (by linarith)
        rw [rndQ_neg] at this
        linarith
      have hb : |rndQ u - 3 / 8| ≤ 32769 := by
        rw [abs_le] at hq hq1 ⊢
        constructor <;> linarith [hq.1, hq.2, hq1.1, hq1.2]
      have hneg : rndQ (rndQ u - 3 / 8) ≤ 0 := by
        have := rndQ_nonneg (q := -(rndQ u - 3 / 8)) (by linarith)
        rw [rndQ_neg] at this
        linarith
      refine ⟨rndQ (rndQ u - 3 / 8), ?_, .inr ⟨hu0, hneg, ?_⟩⟩
      · show @toI16 F32 (scalar el) (F32.sub (F32.div (fin x) (fin g)) (rnd (3 / 8))) = _
        rw [hdiv, e38]
        show @toI16 F32 (scalar el) (rnd (rndQ u + -(3 / 8))) = _
        rw [← sub_eq_add_neg, rnd_fin (hb.trans (by norm_num)), hsat]
      · have h2 := rndQ_err (rndQ u - 3 / 8)
        have h3 : |rndQ (rndQ u - 3 / 8) - (u - 3 / 8)| ≤ |rndQ (rndQ u - 3 / 8) - (rndQ u - 3 / 8)| + |rndQ u - u| := by
          calc _ = |(rndQ (rndQ u - 3 / 8) - (rndQ u - 3 / 8)) + (rndQ u - u)| := by ring_nf
            _ ≤ _ := abs_add_le _ _
        norm_num at h2 hb hq1 ⊢
        linarith
  obtain ⟨t, e, ht⟩ := key
  rw [e]
  have hT := truncQ_bounds t
  have hle : |truncQ t| ≤ 32767 ∧ (0 ≤ u → 0 ≤ truncQ t ∧ -(379 / 1000) ≤ u - truncQ t ∧ u - truncQ t ≤ 629 / 1000) ∧
      (u < 0 → truncQ t ≤ 0 ∧ -(629 / 1000) ≤ u - truncQ t ∧ u - truncQ t ≤ 379 / 1000) := by
    rcases ht with ⟨hu0, ht0, ht1⟩ | ⟨hu0, ht0, ht1⟩
    · obtain ⟨b1, b2, b3⟩ := hT.1 ht0
      rw [abs_le] at ht1 hq
      refine ⟨?_, fun _ => ⟨b3, ?_, ?_⟩, fun h => absurd h (not_lt.2 hu0)⟩
      · rw [abs_of_nonneg b3]
        have : (truncQ t : ℚ) < 32768 := by linarith [ht1.2, hq.2]
        have : truncQ t < 32768 := by exact_mod_cast this
        omega
      · linarith [ht1.1, ht1.2]
      · linarith [ht1.1, ht1.2]
    · obtain ⟨b1, b2, b3⟩ := hT.2 ht0
      rw [abs_le] at ht1 hq
      refine ⟨?_, fun h => absurd hu0 (not_lt.2 h), fun _ => ⟨b3, ?_, ?_⟩⟩
      · rw [abs_of_nonpos b3]
        have : (-32768 : ℚ) < (truncQ t : ℚ) := by linarith [ht1.1, hq.1]
        have : -32768 < truncQ t := by exact_mod_cast this
        omega
      · linarith [ht1.1, ht1.2]
      · linarith [ht1.1, ht1.2]
  have hv : max (-32768) (min 32767 (truncQ t)) = truncQ t := by
    have := abs_le.1 hle.1
    omega
  rw [hv, ← hu]
  refine ⟨hle.1, fun h => hle.2.1 (by rw [hu]; positivity), fun h => hle.2.2 (by rw [hu]; exact div_neg_of_neg_of_pos h hg)⟩

/-- one line of the quantiser in binary32 -/
theorem quantLine_f32 (el : Elem) {g x : ℚ} (hg : 0 < g) (hx : |x| ≤ (32767 + 1 / 2) * g) :
    |@quantLine F32 (scalar el) (fin g) (fin x)| ≤ 32767 ∧
      |x - @quantLine F32 (scalar el) (fin g) (fin x) * g| ≤ 63 / 100 * g := by
  obtain ⟨h1, h2, h3⟩ := quantLine_f32_sides el hg hx
  refine ⟨h1, ?_⟩
  generalize @quantLine F32 (scalar el) (fin g) (fin x) = q at *
  have hu : |x / g - q| ≤ 63 / 100 := by
    rw [abs_le]
    rcases le_or_gt 0 x with h | h
    · obtain ⟨-, a, b⟩ := h2 h
      constructor <;> linarith
    · obtain ⟨-, a, b⟩ := h3 h
      constructor <;> linarith
  have e : x - q * g = (x / g - q) * g := by rw [sub_mul, div_mul_cancel₀ _ hg.ne']
  rw [e, abs_mul, abs_of_pos hg]
  exact mul_le_mul_of_nonneg_right hu hg.le

/-- the smallest step of the format -/
theorem stepOf_ge (nbits : ℕ) {fsInd : ℕ} (hfs : fsInd ≤ 4) (gg : ℕ) : 1 / 10 ^ 9 ≤ stepOf nbits fsInd gg := by
  have ho := gainOffset_bounds nbits hfs
  have h9 : (10 : ℝ) ^ (-(9 : ℝ)) = 1 / 10 ^ 9 := by
    rw [Real.rpow_neg (by norm_num), show (9 : ℝ) = ((9 : ℕ) : ℝ) by norm_num, Real.rpow_natCast]
    norm_num
  rw [← h9]
  unfold stepOf
  refine Real.rpow_le_rpow_of_exponent_le (by norm_num) ?_
  have h1 : (-245 : ℝ) ≤ gainOffset nbits fsInd := by exact_mod_cast ho.1
  have h2 : (0 : ℝ) ≤ gg := by positivity
  rw [le_div_iff₀ (by norm_num)]
  push_cast
  linarith

end F32
end Lc3
