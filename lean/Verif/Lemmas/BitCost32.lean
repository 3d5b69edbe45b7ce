import Verif.Props.BitCost
import Verif.Props.EncoderFrame32
import Verif.Lemmas.Silence32Frame
/-!
# Lemmas for C101: the bit estimate in binary32
-/

namespace Lc3
open Scalar Tables Spec
namespace F32

variable {el : Elem}

theorem rnd_nat24 {n : ℕ} (h : n < 2 ^ 24) : rnd (n : ℚ) = fin n := by
  have hR : Rep (n : ℚ) := ⟨n, 0, by norm_num, by rw [Nat.abs_cast]; exact_mod_cast h, by norm_num⟩
  have h' : (n : ℚ) ≤ 2 ^ 24 := by exact_mod_cast h.le
  rw [rnd_fin (by rw [abs_of_nonneg (by positivity)]; exact h'.trans (by norm_num)), rndQ_rep hR]

/-- exact below 8192 bits -/
theorem bits2048_f32_exact {n : Nat} (h : n < 2 ^ 24) : @bits2048 F32 (scalar el) n = (n + 2047) / 2048 := by
  unfold bits2048
  show F32.toUsize (ceilF (F32.div (rnd (((n : ℕ) : ℤ) : ℚ)) (rnd 2048))) = _
  have i1 : ∀ n : ℕ, n < 2 ^ 24 → rnd (((n : ℤ) : ℚ)) = fin n := fun n hn => by
    rw [show ((n : ℤ) : ℚ) = (n : ℚ) by push_cast; rfl]; exact rnd_nat24 hn
  have e1 : rnd (2048 : ℚ) = fin 2048 := by have := i1 2048 (by norm_num); simpa using this
  rw [e1, i1 n h]
  have hR : Rep ((n : ℚ) / 2048) := ⟨n, -11, by norm_num; ring, by rw [Nat.abs_cast]; exact_mod_cast h, by norm_num⟩
  have hm' : (n : ℚ) ≤ 2 ^ 24 := by exact_mod_cast h.le
  have e4 : F32.div (fin (n : ℚ)) (fin 2048) = fin ((n : ℚ) / 2048) := by
    simp only [F32.div]
    rw [if_neg (by norm_num), rnd_fin, rndQ_rep hR]
    rw [abs_of_nonneg (by positivity), div_le_iff₀ (by norm_num)]
    exact hm'.trans (by norm_num)
  rw [e4]
  show min 18446744073709551615 ⌊((⌈(n : ℚ) / 2048⌉ : ℤ) : ℚ)⌋.toNat = _
  rw [Int.floor_intCast]
  have : ⌈(n : ℚ) / 2048⌉ = (((n + 2047) / 2048 : ℕ) : ℤ) := by
    generalize hk : (n + 2047) / 2048 = k
    rw [Int.ceil_eq_iff, lt_div_iff₀ (by norm_num), div_le_iff₀ (by norm_num)]
    have k1 : n ≤ k * 2048 := by omega
    have k2 : k * 2048 < n + 2048 := by omega
    have k1' : (n : ℚ) ≤ (k : ℚ) * 2048 := by exact_mod_cast k1
    have k2' : (k : ℚ) * 2048 < (n : ℚ) + 2048 := by exact_mod_cast k2
    push_cast
    constructor <;> linarith
  rw [this]
  simp
  omega

/-- at least 8192 bits otherwise -/
theorem bits2048_f32_large {n : Nat} (h : 2 ^ 24 ≤ n) : 8192 ≤ @bits2048 F32 (scalar el) n := by
  unfold bits2048
  show 8192 ≤ F32.toUsize (ceilF (F32.div (rnd (((n : ℕ) : ℤ) : ℚ)) (rnd 2048)))
  have e1 : rnd (2048 : ℚ) = fin 2048 := by have := rnd_nat24 (n := 2048) (by norm_num); simpa using this
  rw [e1]
  have hn : (2 : ℚ) ^ 24 ≤ (((n : ℕ) : ℤ) : ℚ) := by push_cast; exact_mod_cast h
  generalize (((n : ℕ) : ℤ) : ℚ) = x at hn
  have key : ∀ y : ℚ, 2 ^ 24 - 2 ≤ y → 8192 ≤ F32.toUsize (ceilF (F32.div (fin y) (fin 2048))) := by
    intro y hy
    simp only [F32.div]
    rw [if_neg (by norm_num)]
    have hz : (8191 + 1 / 2 : ℚ) ≤ rndQ (y / 2048) := by
      have := rndQ_err (y / 2048)
      have hy0 : (0 : ℚ) ≤ y / 2048 := by norm_num at hy; apply div_nonneg <;> linarith
      rw [abs_of_nonneg hy0, abs_le] at this
      have h1 := this.1
      norm_num at h1 hy ⊢
      linarith
    unfold rnd
    split
    · decide
    · split
      · norm_num at *; linarith
      · show 8192 ≤ min 18446744073709551615 ⌊((⌈rndQ (y / 2048)⌉ : ℤ) : ℚ)⌋.toNat
        rw [Int.floor_intCast]
        have : (8191 : ℤ) < ⌈rndQ (y / 2048)⌉ := by
          rw [Int.lt_ceil]; push_cast; linarith
        omega
  have hx : (2 ^ 24 - 2 : ℚ) ≤ rndQ x := by
    have := rndQ_err x
    have hx0 : (0 : ℚ) ≤ x := by norm_num at hn; linarith
    rw [abs_of_nonneg hx0, abs_le] at this
    have h1 := this.1
    norm_num at h1 hn ⊢
    linarith
  unfold rnd
  split
  · decide
  · split
    · norm_num at *; linarith
    · exact key _ hx

theorem bits2048_f32_le {n X : Nat} (hX : X < 8192) (h : @bits2048 F32 (scalar el) n ≤ X) : n ≤ 2048 * X := by
  by_cases hn : n < 2 ^ 24
  · rw [bits2048_f32_exact hn] at h; omega
  · have := bits2048_f32_large (el := el) (n := n) (by omega)
    omega

/-- cost of the result of the quantiser with a given gain -/
theorem quantSpectrum_cost32 {ne fsInd nbits spec : Nat} {ggOff ggInd : Int} {xf : List F32} (h2 : 2 ≤ ne) (he : ne % 2 = 0)
    (hl : xf.length = ne) (hspec : spec < 8192) (hx : ∀ x ∈ xf, @quantLine F32 (scalar el) (@ggValue F32 (scalar el) ggInd ggOff) x ≠ -32768) {r : QuantResult F32}
    (hr : @quantSpectrum F32 (scalar el) ne fsInd xf nbits ggOff ggInd spec = .ok r) :
    r.bc.lastnzTrunc = 2 ∨ spectrumBits r.lsbMode r.bc.rateFlag ne (r.xq.take r.bc.lastnzTrunc) ≤ spec := by
  letI := scalar el
  unfold quantSpectrum at hr
  simp only at hr
  obtain ⟨bc, e1, hr⟩ := Res.bind_eq_ok.1 hr
  split at hr
  case isFalse => cases hr
  rename_i hle
  simp only [Res.ok.injEq] at hr
  subst hr
  simp only
  have hb : ∀ x ∈ xf.map (quantLine (ggValue ggInd ggOff)), x.natAbs ≤ 32768 := by
    intro x hx
    obtain ⟨y, -, rfl⟩ := List.mem_map.1 hx
    exact quantLine_bounds _ _
  have hb' : ∀ x ∈ xf.map (quantLine (ggValue ggInd ggOff)), x.natAbs < 32768 := by
    intro x hx'
    have h1 := hb x hx'
    obtain ⟨y, hy, rfl⟩ := List.mem_map.1 hx'
    exact lt_of_natAbs_le h1 (hx y hy) (quantLine_hi _ _)
  have hlen : (xf.map (quantLine (ggValue ggInd ggOff))).length = ne := by simpa using hl
  generalize xf.map (quantLine (ggValue ggInd ggOff)) = xq at *
  obtain ⟨bc', e1', c1, c2, c3, c4, c5, c6, c7, c8, c9⟩ := bitConsumption_ok (α := F32) (fsInd := fsInd) (nbits := nbits) (spec := spec)
    h2 he hlen hb
  rw [e1] at e1'
  obtain rfl : bc = bc' := by simpa using e1'
  -- the lines that are written
  have htk : ∀ n, n ≤ bc.lastnzTrunc → (xq.take bc.lastnzTrunc ++ List.replicate (bc.lastnz - bc.lastnzTrunc) 0 ++
      xq.drop bc.lastnz).take n = xq.take n := by
    intro n hn
    have := c1.le
    rw [List.append_assoc, List.take_append_of_le_length (by simp; omega), List.take_take, Nat.min_eq_left hn]
  rw [htk _ (le_refl _)]
  -- the estimate
  unfold bitConsumption at e1
  simp only at e1
  rw [if_neg (by omega)] at e1
  obtain ⟨st, e2, e1⟩ := Res.bind_eq_ok.1 e1
  simp only [Res.ok.injEq] at e1
  have hln : lastNz ne (xq.take ne).reverse = bc.lastnz := by rw [← e1]
  rw [hln] at e2
  have hrate : encRateFlag nbits fsInd = bc.rateFlag := c8.symm
  have hmode : encModeFlag nbits fsInd = bc.modeFlag := c7.symm
  rw [hrate, hmode] at e2
  have hr512 : bc.rateFlag ≤ 512 := by rw [c8]; unfold encRateFlag; split <;> omega
  have hev := c1.even
  obtain ⟨st', e3, e4, e5⟩ := estPairs_cost (α := F32) (mode := bc.modeFlag) (rate := bc.rateFlag) (ne := ne) (spec := spec) hr512
    (bc.lastnz / 2) (xq.take bc.lastnz) 0 ⟨0, 0, 0, 2, 0⟩ (by have := c1.le; simp; omega)
    (fun x hx' => hb' x (List.mem_of_mem_take hx')) (by simp)
  rw [e2] at e3
  obtain rfl : st = st' := by simpa using e3
  have hmem : ∀ n, ∀ x ∈ xq.take n, x.natAbs < 32768 := fun n x hx' => hb' x (List.mem_of_mem_take hx')
  have hlen2 : ∀ n, n ≤ bc.lastnz → n % 2 = 0 → (xq.take n).length % 2 = 0 := by
    intro n hn hn2
    have := c1.le
    rw [List.length_take, Nat.min_eq_left (by omega)]
    exact hn2
  have htr : bc.lastnzTrunc = st.lastTrunc := by rw [← e1]
  have hest : bc.nbitsEst = bits2048 F32 st.est + bc.nbitsLsb := by rw [← e1]
  simp only [Nat.cast_zero, add_zero, Nat.zero_add] at e4 e5
  rw [spectrumBits_eq (hmem _) (hlen2 _ (le_refl _) hev)] at e4
  -- the mode
  by_cases hm : bc.modeFlag = true ∧ bc.nbitsEst ≤ spec
  · -- all bits are written at once
    have hls : (bc.modeFlag && decide (bc.nbitsEst > spec)) = false := by
      rw [hm.1, Bool.true_and]; exact decide_eq_false (by omega)
    rw [hls]
    rw [c6 hm.2]
    have hle1 := hm.2
    rw [hest] at hle1
    have h3 := bits2048_f32_le (el := el) (X := spec - bc.nbitsLsb) (by omega) (by omega : bits2048 F32 st.est ≤ spec - bc.nbitsLsb)
    rw [hm.1] at e4
    rw [if_pos hm.1] at c9
    have h4 := plainBits_lsb (xq.take bc.lastnz)
    have h3' : (st.est : ℝ) + 2048 * bc.nbitsLsb ≤ 2048 * spec := by
      have : st.est + 2048 * bc.nbitsLsb ≤ 2048 * spec := by omega
      exact_mod_cast this
    have h4' : (plainBits false (xq.take bc.lastnz) : ℝ) ≤ plainBits true (xq.take bc.lastnz) + bc.nbitsLsb := by
      rw [c9]; exact_mod_cast h4
    refine .inr ?_
    unfold spectrumBits at e4 ⊢
    linarith
  · have hls : (bc.modeFlag && decide (bc.nbitsEst > spec)) = bc.modeFlag := by
      cases hmf : bc.modeFlag with
      | false => rfl
      | true =>
        rw [Bool.true_and]
        exact decide_eq_true (by by_contra hc; exact hm ⟨hmf, by omega⟩)
    rw [hls]
    rcases e5 with ⟨e5, -⟩ | ⟨j, hj, hj0, e5, e6, e7⟩
    · exact .inl (htr.trans e5)
    · have hj2 : 2 * j ≤ bc.lastnz := by omega
      rw [htr, e5]
      rw [List.take_take, Nat.min_eq_left hj2, spectrumBits_eq (hmem _) (hlen2 _ hj2 (by omega))] at e7
      have h3 := bits2048_f32_le (el := el) hspec e6
      have h3' : (st.trunc : ℝ) ≤ 2048 * spec := by exact_mod_cast h3
      exact .inr (by linarith)

/-- the bits counted for a filter cover its flag and its information -/
theorem tnsFilterBits_cost32 {w : Nat} {ints : List Nat} (hl : ints.length = 8) {b : Nat} (h : @tnsFilterBits F32 (scalar el) w ints = .ok b) :
    1 ≤ b ∧ filterInfo w (ints.take (tnsOrder ints)) + 1 ≤ b := by
  letI := scalar el
  unfold tnsFilterBits at h
  simp only at h
  obtain ⟨ob, h1, h⟩ := Res.bind_eq_ok.1 h
  obtain ⟨cb, h2, h⟩ := Res.bind_eq_ok.1 h
  simp only [Res.ok.injEq] at h
  obtain ⟨c1, c2⟩ := tnsCoefBits_cost _ _ _ h2
  have ho8 : tnsOrder ints ≤ ints.length := tnsOrder_le ints
  rw [List.length_take, Nat.min_eq_left ho8] at c2
  have hob : ob ≤ 65536 ∧ 2048 * (if tnsOrder ints = 0 then 0 else idealBits ((AC_TNS_ORDER_FREQ.getD w []).getD (tnsOrder ints - 1) 0)) ≤ ob := by
    by_cases ho : tnsOrder ints = 0
    · rw [if_neg (by simpa using ho)] at h1
      simp only [Res.ok.injEq] at h1
      subst h1
      simp [ho]
    · rw [if_pos ho] at h1
      obtain ⟨row, g1, g2⟩ := Res.bind_eq_ok.1 h1
      rw [if_neg ho]
      refine ⟨?_, C51.2.1.cost g1 g2⟩
      have hall : AC_TNS_ORDER_BITS.all (fun row => row.all fun v => decide (v ≤ 65536)) = true := by decide +kernel
      have := List.all_eq_true.1 hall _ (idx_mem g1)
      simpa using List.all_eq_true.1 this _ (idx_mem g2)
  have h8 : tnsOrder ints ≤ 8 := hl ▸ ho8
  have hb : b = bits2048 F32 (2048 + ob + cb) := by
    rw [← h]
    unfold bits2048
    show F32.toUsize (ceilF (F32.div (F32.add (F32.add (rnd 2048) (rnd ((ob : ℤ) : ℚ))) (rnd ((cb : ℤ) : ℚ))) (rnd 2048))) =
      F32.toUsize (ceilF (F32.div (rnd (((2048 + ob + cb : ℕ) : ℤ) : ℚ)) (rnd 2048)))
    have i1 : ∀ n : ℕ, n < 2 ^ 24 → rnd (((n : ℤ) : ℚ)) = fin n := fun n hn => by
      rw [show ((n : ℤ) : ℚ) = (n : ℚ) by push_cast; rfl]; exact rnd_nat24 hn
    have e1 : rnd (2048 : ℚ) = fin 2048 := by have := i1 2048 (by norm_num); simpa using this
    have a1 : ∀ n m : ℕ, n + m < 2 ^ 24 → F32.add (fin n) (fin m) = fin (n + m : ℕ) := fun n m hnm => by
      simp only [F32.add]
      have := rnd_nat24 hnm
      rw [← this]; push_cast; rfl
    rw [e1, i1 ob (by omega), i1 cb (by omega), i1 (2048 + ob + cb) (by omega)]
    have := a1 2048 ob (by omega)
    rw [show ((2048 : ℕ) : ℚ) = 2048 by norm_num] at this
    rw [this, a1 (2048 + ob) cb (by omega)]
  have hle := bits2048_f32_le (el := el) (n := 2048 + ob + cb) (X := b) (by
    rw [hb, bits2048_f32_exact (by omega)]; omega) (by rw [hb])
  have hle' : (2048 : ℝ) + ob + cb ≤ 2048 * b := by exact_mod_cast hle
  refine ⟨by omega, ?_⟩
  unfold filterInfo
  by_cases ho : tnsOrder ints = 0
  · rw [ho, List.take_zero, if_pos rfl]
    have : (1 : ℝ) ≤ b := by
      have : 1 ≤ b := by omega
      exact_mod_cast this
    linarith
  · have hne : ints.take (tnsOrder ints) ≠ [] := by
      intro hc
      have := congrArg List.length hc
      rw [List.length_take, Nat.min_eq_left ho8] at this
      exact ho this
    rw [if_neg hne, List.length_take, Nat.min_eq_left ho8]
    rw [if_neg ho] at hob
    simp only [Nat.zero_add] at c1
    linarith [hob.2]

/-- the bits counted for temporal noise shaping cover its flags and its information -/
theorem tnsEncRun_cost32 {cfg : Lc3Config} {x : List F32} {bw nbits : Nat} {nn : Bool} {res : TnsResult F32}
    (h : @tnsEncRun F32 (scalar el) cfg x bw nbits nn = .ok res) :
    res.numFilters ≤ res.nbitsTns ∧
      tnsInfoFrom res.lpcWeighting res.rcOrder res.rcI 0 res.numFilters + res.numFilters ≤ res.nbitsTns := by
  letI := scalar el
  unfold tnsEncRun at h
  split at h
  · cases h
  obtain ⟨p, h1, h⟩ := bind_ok_inv h
  simp only at h
  obtain ⟨ints, e2, h⟩ := bind_ok_inv h
  obtain ⟨bits, e3, h⟩ := bind_ok_inv h
  obtain ⟨lines, -, h⟩ := bind_ok_inv h
  simp only [Res.ok.injEq] at h
  subst h
  simp only
  have hf := mapM_forall₂ e2
  have hf' := mapM_forall₂ e3
  obtain ⟨-, hn, hn2, -⟩ := tnsParams_shape h1
  have h2 : ints.length = p.numFilters := by rw [← hf.length_eq, hn]
  have h3 : ∀ l ∈ ints, l.length = 8 := by
    intro l hl
    obtain ⟨i, hi, rfl⟩ := List.getElem_of_mem hl
    exact (tnsFilterInts_facts ((List.forall₂_iff_get.1 hf).2 i (by rw [hf.length_eq]; exact hi) hi)).1
  rw [← h2] at hn2 ⊢
  clear e2 e3 hf
  match ints, bits, hf', hn2, h3 with
  | [], [], _, _, _ => simp [tnsInfoFrom]
  | [a], [b], .cons q1 .nil, _, h3 =>
    have la := h3 a (by simp)
    obtain ⟨r1, r2⟩ := tnsFilterBits_cost32 la q1
    have hc : filterCoefs ([a].flatten ++ List.replicate (16 - 8 * [a].length) 8) 0 (tnsOrder a) = a.take (tnsOrder a) := by
      have ho8 : tnsOrder a ≤ a.length := tnsOrder_le a
      unfold filterCoefs
      simp only [Nat.mul_zero, List.drop_zero, List.flatten_cons, List.flatten_nil, List.append_nil]
      rw [List.take_append_of_le_length ho8]
    refine ⟨by simpa using r1, ?_⟩
    simp only [List.length_singleton, tnsInfoFrom]
    have g0 : List.getD (List.map tnsOrder [a] ++ List.replicate (2 - 1) 0) 0 0 = tnsOrder a := rfl
    rw [g0]
    simp only [List.length_singleton] at hc
    rw [hc]
    simp only [List.sum_cons, List.sum_nil]
    push_cast
    linarith
  | [a, c], [b, e], .cons q1 (.cons q2 .nil), _, h3 =>
    have la := h3 a (by simp)
    have lc := h3 c (by simp)
    obtain ⟨r1, r2⟩ := tnsFilterBits_cost32 la q1
    obtain ⟨r3, r4⟩ := tnsFilterBits_cost32 lc q2
    have hc : filterCoefs ([a, c].flatten ++ List.replicate (16 - 8 * [a, c].length) 8) 0 (tnsOrder a) = a.take (tnsOrder a) := by
      have ho8 : tnsOrder a ≤ a.length := tnsOrder_le a
      unfold filterCoefs
      simp only [Nat.mul_zero, List.drop_zero, List.flatten_cons, List.flatten_nil, List.append_nil, List.append_assoc]
      rw [List.take_append_of_le_length ho8]
    have hc2 : filterCoefs ([a, c].flatten ++ List.replicate (16 - 8 * [a, c].length) 8) 1 (tnsOrder c) = c.take (tnsOrder c) := by
      have ho8 : tnsOrder c ≤ c.length := tnsOrder_le c
      unfold filterCoefs
      simp only [Nat.mul_one, List.flatten_cons, List.flatten_nil, List.append_nil, List.append_assoc]
      rw [List.drop_append_of_le_length (by omega), List.drop_of_length_le (by omega), List.nil_append,
        List.take_append_of_le_length ho8]
    refine ⟨by simp; omega, ?_⟩
    simp only [List.length_cons, List.length_nil, Nat.zero_add, Nat.reduceAdd, tnsInfoFrom] at hc hc2 ⊢
    have g0 : List.getD (List.map tnsOrder [a, c] ++ List.replicate (2 - 2) 0) 0 0 = tnsOrder a := rfl
    have g1 : List.getD (List.map tnsOrder [a, c] ++ List.replicate (2 - 2) 0) 1 0 = tnsOrder c := rfl
    rw [g0, g1, hc, hc2]
    simp only [List.sum_cons, List.sum_nil]
    push_cast
    linarith

/-- one pair of lines takes at most 168 bits -/
theorem pair_bits (lsb : Bool) (rf ne : Nat) (x0 x1 : Int) (h0 : x0.natAbs < 32768) (h1 : x1.natAbs < 32768) :
    symbolInfo rf ne [x0, x1] + plainBits lsb [x0, x1] ≤ 168 := by
  have hx : ∀ x ∈ [x0, x1], x.natAbs < 32768 := by simp [h0, h1]
  obtain ⟨p1, p2, -⟩ := pairsEv_spec (lsb := lsb) (rf := rf) (ne := ne) hx (by simp)
  have hv := pairsEv_valid lsb rf ne 1 [x0, x1] 0 0 (by simp) hx
  have hesc : Context.escapes x0.natAbs x1.natAbs ≤ 13 := by
    unfold Context.escapes
    have : Nat.log2 (max x0.natAbs x1.natAbs) < 15 := by
      by_cases h : max x0.natAbs x1.natAbs = 0
      · rw [h]; decide
      · exact (Nat.log2_lt h).2 (by norm_num; omega)
    omega
  have hc : symbolCount rf ne [x0, x1] ≤ 14 := by
    unfold symbolCount Context.symbols
    simp only [Context.ofLines, Context.ofMagnitudes, List.length_cons, List.length_nil]
    simp [List.range_succ]
    omega
  have hi : symbolInfo rf ne [x0, x1] ≤ 10 * symbolCount rf ne [x0, x1] := by
    rw [← p1, ← p2]
    generalize pairsEv lsb rf ne [x0, x1] 0 0 = es at hv
    unfold evsInfo evsSym
    induction es with
    | nil => simp
    | cons e es ih =>
      have i1 := ih fun e he => hv e (by simp [he])
      have i2 : evInfo e ≤ 10 * evSym e := by
        cases e with
        | bit b => simp [evInfo, evSym]
        | sym c f =>
          have := idealBits_le (hv (.sym c f) (by simp)).1
          simpa [evInfo, evSym] using this
      simp only [List.map_cons, List.sum_cons]
      push_cast at i1 ⊢
      linarith
  have hp : plainBits lsb [x0, x1] ≤ 28 := by
    simp only [plainBits, plainPair]
    split_ifs <;> omega
  have hc' : (symbolCount rf ne [x0, x1] : ℝ) ≤ 14 := by exact_mod_cast hc
  have hp' : (plainBits lsb [x0, x1] : ℝ) ≤ 28 := by exact_mod_cast hp
  linarith

end F32
end Lc3
