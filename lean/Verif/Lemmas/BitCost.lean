import Verif.Lemmas.FrameBody
import Verif.Lemmas.EncQuant
import Verif.Spec.BitCost
import Mathlib.Analysis.SpecialFunctions.Log.Base
/-! Cost of the symbols: what the range coder needs, and what the tables say. -/

namespace Lc3
open Tables Spec

/-- information of an event -/
noncomputable def evInfo : Ev → ℝ
  | .sym _ f => idealBits f
  | .bit _ => 0

/-- number of symbols of an event -/
def evSym : Ev → Nat
  | .sym _ _ => 1
  | .bit _ => 0

noncomputable def evsInfo (es : List Ev) : ℝ := (es.map evInfo).sum
def evsSym (es : List Ev) : Nat := (es.map evSym).sum

theorem evsInfo_nonneg {es : List Ev} (h : ∀ e ∈ es, e.Valid) : 0 ≤ evsInfo es := by
  refine List.sum_nonneg fun v hv => ?_
  obtain ⟨e, he, rfl⟩ := List.mem_map.1 hv
  cases e with
  | bit b => exact le_refl _
  | sym c f =>
    obtain ⟨h1, h2⟩ := h _ he
    have h1' : (0 : ℝ) < f := by exact_mod_cast h1
    have h2' : (f : ℝ) ≤ 1024 := by
      have : f ≤ 1024 := by omega
      exact_mod_cast this
    unfold evInfo idealBits
    refine Real.logb_nonneg (by norm_num) ?_
    rw [le_div_iff₀ h1']
    linarith

theorem evsInfo_append (a b : List Ev) : evsInfo (a ++ b) = evsInfo a + evsInfo b := by simp [evsInfo]
theorem evsSym_append (a b : List Ev) : evsSym (a ++ b) = evsSym a + evsSym b := by simp [evsSym]
theorem evsInfo_cons (e : Ev) (b : List Ev) : evsInfo (e :: b) = evInfo e + evsInfo b := by simp [evsInfo]
theorem evsSym_cons (e : Ev) (b : List Ev) : evsSym (e :: b) = evSym e + evsSym b := by simp [evsSym]
theorem evsInfo_nil : evsInfo [] = 0 := rfl
theorem evsSym_nil : evsSym [] = 0 := rfl
theorem evsInfo_bits (bs : List Bool) : evsInfo (bs.map .bit) = 0 := by
  induction bs with
  | nil => rfl
  | cons b bs ih => rw [List.map_cons, evsInfo_cons, ih]; simp [evInfo]
theorem evsSym_bits (bs : List Bool) : evsSym (bs.map .bit) = 0 := by
  induction bs with
  | nil => rfl
  | cons b bs ih => rw [List.map_cons, evsSym_cons, ih]; simp [evSym]

/-- one symbol: the interval shrinks by the frequency, and at most by 1/64 more -/
theorem step_info {a : Abs} {cum freq : Nat} (hlo : 2 ^ 16 ≤ a.R) (hf : 0 < freq) :
    8 * ((a.step cum freq).S : ℝ) - Real.logb 2 (a.step cum freq).R ≤
      8 * (a.S : ℝ) - Real.logb 2 a.R + idealBits freq + Real.logb 2 (64 / 63) := by
  unfold Abs.step idealBits
  simp only
  generalize nShift (a.R / 1024 * freq) = k
  have hR : (65536 : ℝ) ≤ a.R := by exact_mod_cast hlo
  have hr : 64 ≤ a.R / 1024 := by omega
  have hr' : 63 * a.R ≤ 64 * 1024 * (a.R / 1024) := by omega
  have hrR : (63 : ℝ) * a.R ≤ 64 * 1024 * ((a.R / 1024 : Nat) : ℝ) := by exact_mod_cast hr'
  have hr0 : (0 : ℝ) < ((a.R / 1024 : Nat) : ℝ) := by exact_mod_cast (by omega : 0 < a.R / 1024)
  have hf0 : (0 : ℝ) < freq := by exact_mod_cast hf
  generalize hrr : ((a.R / 1024 : Nat) : ℝ) = r at *
  push_cast
  rw [hrr, Real.logb_mul (by positivity) (by positivity), Real.logb_mul (by positivity) (by positivity),
    Real.logb_div (by norm_num) (by positivity), Real.logb_pow]
  have h256 : Real.logb 2 256 = 8 := by
    rw [show (256 : ℝ) = 2 ^ (8 : ℕ) by norm_num, Real.logb_pow, Real.logb_self_eq_one (by norm_num)]; norm_num
  rw [h256]
  have hlog : Real.logb 2 (63 * a.R) ≤ Real.logb 2 (64 * 1024 * r) :=
    Real.logb_le_logb_of_le (by norm_num) (by positivity) hrR
  rw [Real.logb_mul (by norm_num) (by positivity), mul_assoc, Real.logb_mul (by norm_num) (by positivity),
    Real.logb_mul (by norm_num) (by positivity)] at hlog
  rw [Real.logb_div (by norm_num) (by norm_num)]
  linarith

theorem run_info {es : List Ev} {σ : ASt} (ho : σ.Ok) (hv : ∀ e ∈ es, e.Valid) :
    8 * ((σ.run es).abs.S : ℝ) - Real.logb 2 (σ.run es).abs.R ≤
      8 * (σ.abs.S : ℝ) - Real.logb 2 σ.abs.R + evsInfo es + evsSym es * Real.logb 2 (64 / 63) := by
  induction es generalizing σ with
  | nil => simp [ASt.run, evsInfo, evsSym]
  | cons e es ih =>
    have he := hv e (by simp)
    have := ih (ho.step he) (fun e' h' => hv e' (by simp [h']))
    simp only [ASt.run]
    rw [evsInfo_cons, evsSym_cons]
    cases e with
    | sym c f =>
      obtain ⟨h1, h2⟩ := he
      have hs := step_info (a := σ.abs) (cum := c) ho.1 h1
      have e1 : (σ.step (.sym c f)).abs = σ.abs.step c f := rfl
      rw [e1] at this
      simp only [evInfo, evSym]
      push_cast
      linarith
    | bit b =>
      have e1 : (σ.step (.bit b)).abs = σ.abs := rfl
      rw [e1] at this
      simp only [evInfo, evSym]
      push_cast
      linarith

/-- length of the range coded part after the symbols `es` -/
theorem forecast_info {es : List Ev} (tl : List Bool) (hv : ∀ e ∈ es, e.Valid) :
    ((8 * (ASt.run ⟨Abs.init, tl⟩ es).abs.S + (25 - Nat.log2 (ASt.run ⟨Abs.init, tl⟩ es).abs.R) : Nat) : ℝ) <
      evsInfo es + evsSym es * Real.logb 2 (64 / 63) + (2 + Real.logb 2 (2 ^ 24 / (2 ^ 24 - 1))) := by
  have ho := (ASt.Ok.init tl).run hv
  have h := run_info (ASt.Ok.init tl) hv
  generalize ASt.run ⟨Abs.init, tl⟩ es = σ at *
  obtain ⟨h1, h2⟩ := ho
  have hR0 : σ.abs.R ≠ 0 := by intro h0; rw [h0] at h1; norm_num at h1
  have hl : Nat.log2 σ.abs.R < 24 := (Nat.log2_lt hR0).2 h2
  have hlog : Real.logb 2 σ.abs.R < Nat.log2 σ.abs.R + 1 := by
    rw [Real.logb_lt_iff_lt_rpow (by norm_num) (by exact_mod_cast Nat.pos_of_ne_zero hR0)]
    have : σ.abs.R < 2 ^ (Nat.log2 σ.abs.R + 1) := Nat.lt_log2_self
    have h3 : ((2 : ℝ) ^ ((Nat.log2 σ.abs.R : ℝ) + 1)) = ((2 ^ (Nat.log2 σ.abs.R + 1) : Nat) : ℝ) := by
      rw [show ((Nat.log2 σ.abs.R : ℝ) + 1) = ((Nat.log2 σ.abs.R + 1 : Nat) : ℝ) by push_cast; ring, Real.rpow_natCast]
      push_cast; rfl
    rw [h3]
    exact_mod_cast this
  have hinit : 8 * (((⟨Abs.init, tl⟩ : ASt).abs.S : Nat) : ℝ) - Real.logb 2 (((⟨Abs.init, tl⟩ : ASt).abs.R : Nat) : ℝ) =
      - Real.logb 2 (2 ^ 24 - 1) := by
    simp only [Abs.init]; norm_num
  rw [hinit] at h
  have h24 : Real.logb 2 (2 ^ 24 / (2 ^ 24 - 1)) = 24 - Real.logb 2 (2 ^ 24 - 1) := by
    rw [Real.logb_div (by norm_num) (by norm_num), Real.logb_pow, Real.logb_self_eq_one (by norm_num)]; norm_num
  rw [h24]
  push_cast [show Nat.log2 σ.abs.R ≤ 25 by omega]
  linarith

/-- the rounding of at most `44 * m` symbols costs at most `m` bits -/
theorem overhead_le {n m : Nat} (hm : 1 ≤ m) (hn : n ≤ 44 * m) :
    (n : ℝ) * Real.logb 2 (64 / 63) + Real.logb 2 (2 ^ 24 / (2 ^ 24 - 1)) ≤ m := by
  have hpos : 0 ≤ Real.logb 2 (64 / 63) := Real.logb_nonneg (by norm_num) (by norm_num)
  have h2 : 0 ≤ Real.logb 2 (2 ^ 24 / (2 ^ 24 - 1)) := Real.logb_nonneg (by norm_num) (by norm_num)
  have h44 : 44 * Real.logb 2 (64 / 63) + Real.logb 2 (2 ^ 24 / (2 ^ 24 - 1)) ≤ 1 := by
    have e : 44 * Real.logb 2 (64 / 63) + Real.logb 2 (2 ^ 24 / (2 ^ 24 - 1)) =
        Real.logb 2 ((64 / 63) ^ 44 * (2 ^ 24 / (2 ^ 24 - 1))) := by
      rw [Real.logb_mul (by norm_num) (by norm_num), Real.logb_pow]; norm_num
    rw [e, Real.logb_le_iff_le_rpow (by norm_num) (by norm_num), Real.rpow_one]
    norm_num
  have hmR : (1 : ℝ) ≤ m := by exact_mod_cast hm
  have hnR : (n : ℝ) ≤ 44 * m := by exact_mod_cast hn
  nlinarith [mul_le_mul_of_nonneg_right hnR hpos]

/-- whole bits: if the information is at most `X` bits -/
theorem forecast_le {es : List Ev} (tl : List Bool) (hv : ∀ e ∈ es, e.Valid) {X m : Nat} (hm : 1 ≤ m) (hn : evsSym es ≤ 44 * m)
    (hX : evsInfo es ≤ X) :
    8 * (ASt.run ⟨Abs.init, tl⟩ es).abs.S + (25 - Nat.log2 (ASt.run ⟨Abs.init, tl⟩ es).abs.R) ≤ X + 1 + m := by
  have h1 := forecast_info tl hv
  have h2 := overhead_le hm hn
  have : ((8 * (ASt.run ⟨Abs.init, tl⟩ es).abs.S + (25 - Nat.log2 (ASt.run ⟨Abs.init, tl⟩ es).abs.R) : Nat) : ℝ) <
      ((X + 2 + m : Nat) : ℝ) := by push_cast at h1 ⊢; linarith
  have := Nat.cast_lt.1 this
  omega

/-! ### Tables of the bit counts -/

/-- `b` is the smallest number of 1/2048 bits that is enough for frequency `f` -/
def costOk (b f : Nat) : Bool := decide (1024 ^ 2048 ≤ f ^ 2048 * 2 ^ b) && decide (0 < b ∧ f ^ 2048 * 2 ^ (b - 1) < 1024 ^ 2048)

def rowOk (bs fs : List Nat) : Bool := bs.length == fs.length && (bs.zip fs).all fun p => costOk p.1 p.2

set_option exponentiation.threshold 100000 in
theorem spec_cost : AC_SPEC_BITS.length = AC_SPEC_FREQ.length ∧
    (AC_SPEC_BITS.zip AC_SPEC_FREQ).all (fun p => rowOk p.1 p.2) = true := by decide +kernel
set_option exponentiation.threshold 100000 in
theorem order_cost : AC_TNS_ORDER_BITS.length = AC_TNS_ORDER_FREQ.length ∧
    (AC_TNS_ORDER_BITS.zip AC_TNS_ORDER_FREQ).all (fun p => rowOk p.1 p.2) = true := by decide +kernel
set_option exponentiation.threshold 100000 in
theorem coef_cost : AC_TNS_COEF_BITS.length = AC_TNS_COEF_FREQ.length ∧
    (AC_TNS_COEF_BITS.zip AC_TNS_COEF_FREQ).all (fun p => rowOk p.1 p.2) = true := by decide +kernel

theorem costOk_iff {b f : Nat} (h : costOk b f = true) (hf : 0 < f) :
    2048 * idealBits f ≤ b ∧ (b : ℝ) < 2048 * idealBits f + 1 := by
  unfold costOk at h
  simp only [Bool.and_eq_true, decide_eq_true_eq] at h
  obtain ⟨h1, h2, h3⟩ := h
  have hf0 : (0 : ℝ) < f := by exact_mod_cast hf
  have hid : 2048 * idealBits f = Real.logb 2 (1024 ^ 2048 / f ^ 2048) := by
    unfold idealBits; rw [← div_pow, Real.logb_pow]; norm_num
  rw [hid]
  have h1' : ((1024 : ℝ)) ^ 2048 ≤ (f : ℝ) ^ 2048 * 2 ^ b := by exact_mod_cast h1
  have h3' : (f : ℝ) ^ 2048 * 2 ^ (b - 1) < (1024 : ℝ) ^ 2048 := by exact_mod_cast h3
  generalize (2048 : ℕ) = K at *
  constructor
  · rw [Real.logb_le_iff_le_rpow (by norm_num) (by positivity), Real.rpow_natCast, div_le_iff₀ (by positivity)]
    linarith
  · have : ((b - 1 : Nat) : ℝ) < Real.logb 2 (1024 ^ K / (f : ℝ) ^ K) := by
      rw [Real.lt_logb_iff_rpow_lt (by norm_num) (by positivity), Real.rpow_natCast, lt_div_iff₀ (by positivity)]
      linarith
    push_cast [show 1 ≤ b from h2] at this
    linarith

theorem rows_cost {bss fss : List (List Nat)} (hl : bss.length = fss.length)
    (h : (bss.zip fss).all (fun p => rowOk p.1 p.2) = true) {i j : Nat} (hi : i < bss.length)
    (hj : j < (bss[i]).length) :
    j < (fss[i]'(by omega)).length ∧ costOk (bss[i])[j] ((fss[i]'(by omega)).getD j 0) = true := by
  have hi2 : i < fss.length := by omega
  have hz : i < (bss.zip fss).length := by simp; omega
  have := List.all_eq_true.1 h _ (List.getElem_mem hz)
  rw [List.getElem_zip] at this
  unfold rowOk at this
  simp only [Bool.and_eq_true, beq_iff_eq] at this
  obtain ⟨h1, h2⟩ := this
  have hj2 : j < (fss[i]).length := by omega
  have hz2 : j < ((bss[i]).zip (fss[i])).length := by simp; omega
  have := List.all_eq_true.1 h2 _ (List.getElem_mem hz2)
  rw [List.getElem_zip] at this
  refine ⟨hj2, ?_⟩
  rw [List.getD_eq_getElem _ _ hj2]
  exact this

end Lc3
