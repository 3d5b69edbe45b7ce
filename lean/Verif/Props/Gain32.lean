import Verif.Lemmas.Gain32
/-!
# C97: the quantiser in binary32

`C43` and the quantisation error with the rounding of `f32`, for every `log10` and `10^x` of the accuracy `F32.GainFunctions`.
-/

namespace Lc3
open Spec Tables Scalar

section
variable {α : Type} [Scalar α]

theorem ggAdjust_ge_gen {fsInd : Nat} {ggInd ggMin g : Int} {spec est : Nat} (hm : ggMin ≤ ggInd)
    (h : ggAdjust α fsInd ggInd ggMin spec est = .ok g) : ggMin ≤ g := by
  unfold ggAdjust at h
  obtain ⟨t1, h1, h⟩ := Res.bind_eq_ok.1 h
  obtain ⟨t2, h2, h⟩ := Res.bind_eq_ok.1 h
  obtain ⟨t3, h3, h⟩ := Res.bind_eq_ok.1 h
  simp only at h
  split at h
  · obtain ⟨g', hg, h⟩ := Res.bind_eq_ok.1 h
    simp only [Res.ok.injEq] at h
    omega
  · simp only [Res.ok.injEq] at h
    omega

theorem ggLimit_ge {xf : List α} {ggOff ind ggMin ggInd : Int} {reset : Bool} (h : ggLimit xf ggOff ind = .ok (reset, ggMin, ggInd)) :
    ggMin = ggMinOf xf ggOff ∧ ggMin ≤ ggInd := by
  unfold ggLimit at h
  obtain ⟨g, h1, h⟩ := Res.bind_eq_ok.1 h
  have hg := i16Chk_inv h1
  subst hg
  split at h
  · simp only [Res.ok.injEq, Prod.mk.injEq] at h
    obtain ⟨-, rfl, rfl⟩ := h
    exact ⟨rfl, le_refl _⟩
  · rename_i hc
    simp only [Res.ok.injEq, Prod.mk.injEq] at h
    obtain ⟨-, rfl, rfl⟩ := h
    rw [Bool.or_eq_true, decide_eq_true_eq] at hc
    exact ⟨rfl, by omega⟩

theorem i16Chk_ok {x : Int} (h : -32768 ≤ x ∧ x ≤ 32767) : i16Chk x = .ok x := by
  unfold i16Chk
  rw [if_pos h]

/-- the quantiser returns if the limiter bound fits and the budget is not negative -/
theorem quantRun_returns {ne fsInd nbits nbw ntns nltpf : Nat} (s : QuantSt α) {xf : List α} (h2 : 2 ≤ ne) (he : ne % 2 = 0) (h4 : ne ≤ 400)
    (hl : xf.length = ne) (hfs : fsInd ≤ 4) (hb : nbw + ntns + nltpf + nbitsFixed ne nbits ≤ nbits)
    (hm : -32767 ≤ ggMinOf xf (ggOffEnc nbits fsInd) ∧ ggMinOf xf (ggOffEnc nbits fsInd) ≤ 32765) :
    ∃ r, quantRun ne fsInd s xf nbits nbw ntns nltpf = .ok r := by
  unfold quantRun
  rw [if_neg (by simpa using hl)]
  unfold bitBudget usub
  rw [if_pos hb, Res.bind_ok]
  simp only
  rw [if_neg (by omega)]
  have hs := fun adj => C26_search (spectralEnergy (ne / 4) xf) adj (ggOffEnc nbits fsInd)
  generalize hspec : nbits - (nbw + ntns + nltpf + nbitsFixed ne nbits) = spec
  have hs := hs (nbitsSpecAdj spec (nbitsOffset s))
  generalize ggSearch (spectralEnergy (ne / 4) xf) (nbitsSpecAdj spec (nbitsOffset s)) (ggOffEnc nbits fsInd) 8 256 255 = ind0 at hs ⊢
  have hlim : ∃ reset ggMin ggInd, ggLimit xf (ggOffEnc nbits fsInd) ind0 = .ok (reset, ggMin, ggInd) ∧ -32767 ≤ ggInd ∧ ggInd ≤ 32765 := by
    unfold ggLimit
    rw [i16Chk_ok ⟨by omega, by omega⟩, Res.bind_ok]
    split
    · exact ⟨_, _, _, rfl, hm.1, hm.2⟩
    · exact ⟨_, _, _, rfl, by omega, by omega⟩
  obtain ⟨reset, ggMin, ggInd, e1, g1, g2⟩ := hlim
  rw [e1, Res.bind_ok]
  simp only
  obtain ⟨q0, e2, -⟩ := C27_spectrum (α := α) (fsInd := fsInd) (nbits := nbits) (spec := spec) (ggOff := ggOffEnc nbits fsInd)
    (ggInd := ggInd) h2 he hl
  rw [e2, Res.bind_ok]
  have hadj : ∃ g, ggAdjust α fsInd ggInd ggMin spec q0.bc.nbitsEst = .ok g := by
    unfold ggAdjust
    have hi : ∀ l : List Nat, l.length = 5 → ∃ v, idx l fsInd = .ok v := by
      intro l hl
      exact ⟨l[fsInd]'(by omega), idx_ok_iff.2 (List.getElem?_eq_getElem (by omega))⟩
    obtain ⟨t1, k1⟩ := hi GG_T1 rfl
    obtain ⟨t2, k2⟩ := hi GG_T2 rfl
    obtain ⟨t3, k3⟩ := hi GG_T3 rfl
    rw [k1, Res.bind_ok, k2, Res.bind_ok, k3, Res.bind_ok]
    simp only
    split
    · split
      · rw [i16Chk_ok (by omega)]
        exact ⟨_, rfl⟩
      · split
        · rw [i16Chk_ok (by omega)]; exact ⟨_, rfl⟩
        · rw [i16Chk_ok (by omega)]; exact ⟨_, rfl⟩
    · exact ⟨_, rfl⟩
  obtain ⟨g, e3⟩ := hadj
  rw [e3, Res.bind_ok]
  split
  · obtain ⟨q, e4, -⟩ := C27_spectrum (α := α) (fsInd := fsInd) (nbits := nbits) (spec := spec) (ggOff := ggOffEnc nbits fsInd)
      (ggInd := g) h2 he hl
    rw [e4, Res.bind_ok]
    exact ⟨_, rfl⟩
  · exact ⟨_, rfl⟩

end

namespace F32

/-- the largest magnitude in units of the gain -/
theorem limit_f32 {el : Elem} (hel : GainFunctions el) {xf : List F32} {nbits fsInd gi : ℕ} (hn : nbits < 32768) (hfs : fsInd ≤ 4)
    (h : ∀ y ∈ xf, IsFin y ∧ |val y| ≤ 32767 * stepOf nbits fsInd 255) (hg : gi < 256)
    (hm : @ggMinOf F32 (scalar el) xf (ggOffEnc nbits fsInd) ≤ gi) {g : ℚ}
    (hgg : @globalGainFactor F32 (scalar el) nbits fsInd gi = fin g) : ∀ y ∈ xf, |val y| ≤ 32768 * (g : ℝ) := by
  obtain ⟨g', e', hg0, hgerr⟩ := gain_f32 hel (gg := gi) hn hfs hg
  rw [hgg] at e'
  injection e' with e'
  subst e'
  rw [ggOffEnc_spec hn] at hm
  have hoff := gainOffset_bounds nbits hfs
  obtain ⟨M, h1, h2, h3, h4⟩ := maxAbs_f32 el fun y hy => (h y hy).1
  have hMS := h4 (32767 * stepOf nbits fsInd 255) (by unfold stepOf; positivity) fun y hy => (h y hy).2
  suffices hs : (M : ℝ) ≤ 32768 * (g : ℝ) from fun y hy => (h3 y hy).trans hs
  obtain ⟨m, hmdef⟩ : ∃ m : ℤ, m = (gi : ℤ) + gainOffset nbits fsInd := ⟨_, rfl⟩
  have hstep : stepOf nbits fsInd gi = (10 : ℝ) ^ ((m : ℝ) / 28) := by
    unfold stepOf
    rw [hmdef]
    push_cast
    rfl
  rw [hstep] at hgerr
  have hm1 : -245 ≤ m := by omega
  have hm1' : (-245 : ℝ) ≤ m := by exact_mod_cast hm1
  have hglow : (10 : ℝ) ^ ((m : ℝ) / 28) * (1 - 1 / 2 ^ 19) ≤ g := by
    rw [abs_le] at hgerr
    linarith [hgerr.1]
  have hP : (3 / 2 : ℝ) / 10 ^ 9 ≤ (10 : ℝ) ^ ((m : ℝ) / 28) := by
    have h8 : (10 : ℝ) ^ (-(9 : ℝ) + 1 / 4) ≤ (10 : ℝ) ^ ((m : ℝ) / 28) := by
      refine Real.rpow_le_rpow_of_exponent_le (by norm_num) ?_
      linarith
    rw [Real.rpow_add (by norm_num)] at h8
    have h14 : (3 / 2 : ℝ) ≤ (10 : ℝ) ^ (1 / 4 : ℝ) := by
      have : ((3 / 2 : ℝ) ^ (4 : ℕ)) ^ ((4 : ℕ) : ℝ)⁻¹ = 3 / 2 := Real.pow_rpow_inv_natCast (by norm_num) (by norm_num)
      rw [← this, show (1 / 4 : ℝ) = ((4 : ℕ) : ℝ)⁻¹ by norm_num]
      exact Real.rpow_le_rpow (by norm_num) (by norm_num) (by norm_num)
    have h9 : (10 : ℝ) ^ (-(9 : ℝ)) = 1 / 10 ^ 9 := by
      rw [Real.rpow_neg (by norm_num), show (9 : ℝ) = ((9 : ℕ) : ℝ) by norm_num, Real.rpow_natCast]
      norm_num
    rw [h9] at h8
    refine le_trans ?_ h8
    rw [div_mul_eq_mul_div, one_mul, div_le_div_iff_of_pos_right (by positivity)]
    exact h14
  rcases h2.eq_or_lt with h0 | h0
  · rw [← h0]
    have : (0 : ℝ) < g := by exact_mod_cast hg0
    push_cast
    linarith
  have hnn : (0 : ℚ) ≤ M / (262141 / 8) := by positivity
  have hMw : (M : ℝ) ≤ 262141 / 8 * (((rndQ (M / (262141 / 8)) : ℚ) : ℝ) * (1 + 1 / 2 ^ 23) + 1 / 2 ^ 149) := by
    have := (Rat.cast_le (K := ℝ)).2 (rndQ_inv_err hnn)
    push_cast at this
    rw [div_le_iff₀ (by norm_num)] at this
    linarith
  have hS6 : stepOf nbits fsInd 255 ≤ 10 ^ 6 := by
    unfold stepOf
    rw [← Real.rpow_natCast (10 : ℝ) 6]
    refine Real.rpow_le_rpow_of_exponent_le (by norm_num) ?_
    rw [div_le_iff₀ (by norm_num)]
    have : (gainOffset nbits fsInd : ℝ) ≤ -110 := by exact_mod_cast hoff.2
    push_cast
    linarith
  have hMb : M ≤ 2 ^ 100 := by
    have : (M : ℝ) ≤ ((2 ^ 100 : ℚ) : ℝ) := by
      push_cast
      norm_num
      linarith
    exact_mod_cast this
  have small : ((rndQ (M / (262141 / 8)) : ℚ) : ℝ) ≤ 1 / 10 ^ 9 → (M : ℝ) ≤ 32768 * (g : ℝ) := by
    intro hw
    generalize ((rndQ (M / (262141 / 8)) : ℚ) : ℝ) = w at *
    generalize (10 : ℝ) ^ ((m : ℝ) / 28) = P at *
    norm_num at hMw hw hP hglow ⊢
    linarith
  rcases ggMinOf_f32 hel h1 h0 hMb (gainOffset nbits fsInd) with ⟨e, -⟩ | ⟨z, w0, e, hz⟩
  · exact small (by rw [e]; norm_num)
  by_cases hs : ((rndQ (M / (262141 / 8)) : ℚ) : ℝ) ≤ 1 / 10 ^ 9
  · exact small hs
  push Not at hs
  have hw0 : (0 : ℝ) < ((rndQ (M / (262141 / 8)) : ℚ) : ℝ) := by exact_mod_cast w0
  have hwle : ((rndQ (M / (262141 / 8)) : ℚ) : ℝ) ≤ 10 ^ 9 := by
    have := (Rat.cast_le (K := ℝ)).2 (rndQ_upper hnn)
    push_cast at this
    have hM' : (M : ℝ) / (262141 / 8) ≤ 10 ^ 6 := by
      rw [div_le_iff₀ (by norm_num)]
      linarith
    refine this.trans ?_
    norm_num at hM' ⊢
    linarith
  rw [e] at hm
  have hL9 : |Real.logb 10 ((rndQ (M / (262141 / 8)) : ℚ) : ℝ)| ≤ 9 := by
    rw [abs_le]
    constructor
    · rw [Real.le_logb_iff_rpow_le (by norm_num) hw0]
      refine le_trans (le_of_eq ?_) hs.le
      rw [Real.rpow_neg (by norm_num), show (9 : ℝ) = ((9 : ℕ) : ℝ) by norm_num, Real.rpow_natCast]
      norm_num
    · rw [Real.logb_le_iff_le_rpow (by norm_num) hw0]
      refine hwle.trans (le_of_eq ?_)
      rw [show (9 : ℝ) = ((9 : ℕ) : ℝ) by norm_num, Real.rpow_natCast]
  have hrep : ((rndQ (M / (262141 / 8)) : ℚ) : ℝ) = (10 : ℝ) ^ Real.logb 10 ((rndQ (M / (262141 / 8)) : ℚ) : ℝ) :=
    (Real.rpow_logb (by norm_num) (by norm_num) hw0).symm
  generalize Real.logb 10 ((rndQ (M / (262141 / 8)) : ℚ) : ℝ) = L at hL9 hz hrep
  generalize ((rndQ (M / (262141 / 8)) : ℚ) : ℝ) = w at *
  have hz' : |(z : ℝ) - 28 * L| ≤ 28 * 28 / 2 ^ 23 := by
    refine hz.trans ?_
    norm_num at hL9 ⊢
    linarith
  have hz2 : |(z : ℝ)| ≤ 300 := by
    have := abs_sub_abs_le_abs_sub (z : ℝ) (28 * L)
    rw [abs_mul, show |(28 : ℝ)| = 28 by norm_num] at this
    norm_num at hz' hL9 ⊢
    linarith
  have hzm : (z : ℝ) ≤ m := by
    have hc : ⌈z⌉ ≤ m := by
      have hzq : |z| ≤ 300 := by
        have : ((|z| : ℚ) : ℝ) ≤ ((300 : ℚ) : ℝ) := by push_cast; exact hz2
        exact_mod_cast this
      rw [abs_le] at hzq
      have a1 : ⌈z⌉ ≤ 300 := Int.ceil_le.2 (by exact_mod_cast hzq.2)
      have a2 : -300 ≤ ⌈z⌉ := by
        have : ((-300 : ℤ) : ℚ) ≤ ⌈z⌉ := le_trans (by push_cast; exact hzq.1) (Int.le_ceil z)
        exact_mod_cast this
      omega
    have := Int.ceil_le.1 hc
    have h' : (z : ℝ) ≤ (((m : ℤ) : ℚ) : ℝ) := by exact_mod_cast this
    push_cast at h'
    exact h'
  have hLm : L ≤ (m : ℝ) / 28 + 28 / 2 ^ 23 := by
    rw [abs_le] at hz'
    have := hz'.1
    norm_num at this ⊢
    linarith
  have hwP : w ≤ (10 : ℝ) ^ ((m : ℝ) / 28) * (1 + 926 / 10 ^ 8) := by
    rw [hrep]
    have h5 : (10 : ℝ) ^ L ≤ (10 : ℝ) ^ ((m : ℝ) / 28 + 28 / 2 ^ 23) := Real.rpow_le_rpow_of_exponent_le (by norm_num) hLm
    rw [Real.rpow_add (by norm_num)] at h5
    refine h5.trans (mul_le_mul_of_nonneg_left ?_ (by positivity))
    exact rpow_small
  generalize (10 : ℝ) ^ ((m : ℝ) / 28) = P at *
  norm_num at hMw hwP hglow hP ⊢
  linarith

/-- **C97** The quantiser in binary32, for every sampling rate, state and budget of at most 4095 bytes, and every `log10` and `10^x`
with a relative error of at most `2^-22`: if no line is NaN or infinite and all lines are in the range of the largest gain, then the
gain index has 8 bits, the gain is the one of the index up to a relative error of `2^-19`, no line is larger than 32768 steps, and
every coded line of at most 32767.5 steps is approximated by a number of at most 32767 up to 0.63 steps. -/
theorem C97 {el : Elem} (hel : GainFunctions el) (f : SamplingFrequency) (d : FrameDuration) {fsInd nbits nbw ntns nltpf : ℕ}
    (hn : nbits < 32768) (hfs : fsInd ≤ 4) {s s' : QuantSt F32} {xf : List F32} {o : QuantOut F32}
    (h : @quantRun F32 (scalar el) (Lc3Config.new f d).ne fsInd s xf nbits nbw ntns nltpf = .ok (s', o))
    (hr : ∀ y ∈ xf, IsFin y ∧ |val y| ≤ 32767 * stepOf nbits fsInd 255) :
    0 ≤ o.ggInd ∧ o.ggInd ≤ 255 ∧ IsFin o.gg ∧ 0 < val o.gg ∧
      |val o.gg - stepOf nbits fsInd o.ggInd.toNat| ≤ stepOf nbits fsInd o.ggInd.toNat / 2 ^ 19 ∧
      (∀ y ∈ xf, |val y| ≤ 32768 * val o.gg) ∧
      ∀ k, k < o.lastnzTrunc → |val (xf.getD k (fin 0))| ≤ (32767 + 1 / 2) * val o.gg →
        |o.xq.getD k 0| ≤ 32767 ∧ |val (xf.getD k (fin 0)) - o.xq.getD k 0 * val o.gg| ≤ 63 / 100 * val o.gg := by
  letI := scalar el
  have hm := ggMinOf_f32_le hel hn hfs hr
  have hg := C26 el (by omega) h hm
  have hgg := C25_run hn h hg.1
  obtain ⟨g, e1, e2, e3⟩ := gain_f32 hel (nbits := nbits) (fsInd := fsInd) (gg := o.ggInd.toNat) hn hfs (by omega)
  rw [e1] at hgg
  have hv : val o.gg = (g : ℝ) := by rw [hgg]; rfl
  have hge : ggMinOf xf (ggOffEnc nbits fsInd) ≤ o.ggInd := by
    obtain ⟨-, -, _, _, _, _, _, _, -, h2, -, h3, -⟩ := quantRun_inv h
    obtain ⟨l1, l2⟩ := ggLimit_ge h2
    rw [← l1]
    exact ggAdjust_ge_gen l2 h3
  refine ⟨hg.1, hg.2, ⟨g, hgg⟩, ?_, ?_, ?_, ?_⟩
  · rw [hv]; exact_mod_cast e2
  · rw [hv]; exact e3
  · rw [hv]
    exact limit_f32 hel hn hfs hr (gi := o.ggInd.toNat) (by omega) (by rw [Int.toNat_of_nonneg hg.1]; exact hge) e1
  · intro k hk hx
    obtain ⟨c1, c2, -, c4⟩ := C27 f d h
    obtain ⟨hl, -⟩ := quantRun_inv h
    have hkl : k < xf.length := by
      have := c1.le
      omega
    have hq := c4 k hk
    have hmap : (xf.map (quantLine o.gg)).getD k 0 = quantLine o.gg xf[k] := by
      rw [List.getD_eq_getElem _ _ (by simpa using hkl), List.getElem_map]
    rw [hmap] at hq
    rw [List.getD_eq_getElem _ _ hkl] at hx ⊢
    rw [hq, hgg]
    obtain ⟨x, hxe⟩ := (hr _ (List.getElem_mem hkl)).1
    rw [hxe, hv] at hx
    rw [hxe]
    have hx' : |x| ≤ (32767 + 1 / 2) * g := by
      have : |(x : ℝ)| ≤ (32767 + 1 / 2) * g := hx
      have h2 : ((|x| : ℚ) : ℝ) ≤ (((32767 + 1 / 2) * g : ℚ) : ℝ) := by push_cast; exact this
      exact_mod_cast h2
    obtain ⟨q1, q2⟩ := quantLine_f32 el e2 hx'
    refine ⟨q1, ?_⟩
    have h2 : ((|x - quantLine (fin g) (fin x) * g| : ℚ) : ℝ) ≤ ((63 / 100 * g : ℚ) : ℝ) := by exact_mod_cast q2
    push_cast at h2
    exact h2

/-- **C97** (the quantiser returns) Under the same conditions on the lines, for every state and every budget that holds the side
information. -/
theorem C97_returns {el : Elem} (hel : GainFunctions el) (f : SamplingFrequency) (d : FrameDuration) {fsInd nbits nbw ntns nltpf : ℕ}
    (hn : nbits < 32768) (hfs : fsInd ≤ 4) (s : QuantSt F32) {xf : List F32} (hl : xf.length = (Lc3Config.new f d).ne)
    (hb : nbw + ntns + nltpf + nbitsFixed (Lc3Config.new f d).ne nbits ≤ nbits)
    (hr : ∀ y ∈ xf, IsFin y ∧ |val y| ≤ 32767 * stepOf nbits fsInd 255) :
    ∃ r, @quantRun F32 (scalar el) (Lc3Config.new f d).ne fsInd s xf nbits nbw ntns nltpf = .ok r := by
  letI := scalar el
  have hne : 2 ≤ (Lc3Config.new f d).ne ∧ (Lc3Config.new f d).ne % 2 = 0 ∧ (Lc3Config.new f d).ne ≤ 400 := by
    cases f <;> cases d <;> decide
  refine quantRun_returns s hne.1 hne.2.1 hne.2.2 hl hfs hb ⟨?_, ?_⟩
  · have hoff := gainOffset_bounds nbits hfs
    rw [← ggOffEnc_spec hn] at hoff
    unfold ggMinOf
    split
    · unfold toI16
      omega
    · norm_num
  · exact (ggMinOf_f32_le hel hn hfs hr).trans (by norm_num)

/-- functions of that accuracy exist -/
theorem exists_gainFunctions : ∃ el, GainFunctions el := by
  have near : ∀ x e : ℝ, 0 < e → ∃ c : ℚ, |(c : ℝ) - x| ≤ e := by
    intro x e he
    obtain ⟨c, h1, h2⟩ := exists_rat_btwn (show x - e < x + e by linarith)
    exact ⟨c, abs_le.2 ⟨by linarith, by linarith⟩⟩
  choose lg hlg using fun q : ℚ => near (Real.logb 10 q) (1 / 2 ^ 100) (by norm_num)
  choose pw hpw using fun q : ℚ => near ((10 : ℝ) ^ (q : ℝ)) ((10 : ℝ) ^ (q : ℝ) / 2 ^ 22) (by positivity)
  refine ⟨⟨id, id, fun _ => nan, fun _ => nan, nan, fun a => match a with | fin q => fin (pw q) | _ => nan, id, id,
    fun a => match a with | fin q => if q = 0 then inf true else fin (lg q) | _ => nan, id, id, fun x _ => x⟩, ?_, ?_, ?_⟩
  · intro q hq
    refine ⟨lg q, if_neg hq.ne', (hlg q).trans ?_⟩
    have := abs_nonneg (Real.logb 10 (q : ℝ))
    have : 0 ≤ |Real.logb 10 (q : ℝ)| / 2 ^ 22 := by positivity
    linarith
  · rfl
  · exact fun q _ => ⟨pw q, rfl, hpw q⟩

/-- the hypotheses of `C97` are met by a run of the quantiser: 160 lines of magnitude 1000, a frame of 40 bytes at 16 kHz -/
example : ∃ el s' o, GainFunctions el ∧
    @quantRun F32 (scalar el) (Lc3Config.new .hz16000 .tenMs).ne 1 (@QuantSt.new F32 (scalar el)) (List.replicate 160 (fin 1000)) 320 2 3 1 = .ok (s', o) ∧
    ∀ y ∈ List.replicate 160 (fin 1000), IsFin y ∧ |val y| ≤ 32767 * stepOf 320 1 255 := by
  obtain ⟨el, hel⟩ := exists_gainFunctions
  have hr : ∀ y ∈ List.replicate 160 (fin 1000), IsFin y ∧ |val y| ≤ 32767 * stepOf 320 1 255 := by
    intro y hy
    rw [List.eq_of_mem_replicate hy]
    refine ⟨⟨_, rfl⟩, ?_⟩
    have h1 : 1 ≤ stepOf 320 1 255 := by
      unfold stepOf
      refine Real.one_le_rpow (by norm_num) ?_
      rw [show gainOffset 320 1 = -131 by decide]
      norm_num
    show |((1000 : ℚ) : ℝ)| ≤ _
    norm_num
    linarith
  obtain ⟨⟨s', o⟩, h⟩ := C97_returns hel .hz16000 .tenMs (fsInd := 1) (nbits := 320) (nbw := 2) (ntns := 3) (nltpf := 1) (by norm_num) (by norm_num)
    (@QuantSt.new F32 (scalar el)) (xf := List.replicate 160 (fin 1000)) (by rw [List.length_replicate]; decide) (by decide) hr
  exact ⟨el, s', o, hel, h, hr⟩

end F32
end Lc3
