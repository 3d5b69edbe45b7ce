import Verif.Props.RateMono
/-! C130: the quantiser does not depend on the polarity of the spectrum, in exact arithmetic -/

namespace Lc3
open Scalar Spec

theorem spectralEnergy_neg (n : ℕ) : ∀ xf : List ℝ, spectralEnergy n (xf.map (-·)) = spectralEnergy n xf := by
  induction n with
  | zero => intro xf; cases xf <;> simp [spectralEnergy]
  | succ n ih =>
    intro xf
    match xf with
    | [] => rfl
    | [_] => rfl
    | [_, _] => rfl
    | [_, _, _] => rfl
    | x0 :: x1 :: x2 :: x3 :: xs =>
      simp only [List.map_cons, spectralEnergy, neg_mul_neg]
      rw [ih]

theorem maxAbs_neg (xf : List ℝ) : maxAbs (xf.map (-·)) = maxAbs xf := by
  rw [maxAbs_real, maxAbs_real, List.foldl_map]
  simp only [abs_neg]

theorem lastNz_neg (n : ℕ) (l : List ℤ) : lastNz n (l.map (-·)) = lastNz n l := by
  fun_induction lastNz n l with
  | case1 n x1 x0 xs h ih =>
    rw [List.map_cons, List.map_cons, lastNz, if_pos (by omega), ih]
  | case2 n x1 x0 xs h =>
    rw [List.map_cons, List.map_cons, lastNz, if_neg (by omega)]
  | case3 n l h =>
    match n, l with
    | 0, l => cases l <;> rfl
    | 1, l => cases l <;> rfl
    | n + 2, [] => rfl
    | n + 2, [_] => rfl
    | n + 2, x1 :: x0 :: xs => exact absurd rfl (fun e => h n x1 x0 xs rfl e)

theorem estPairs_neg (mf : Bool) (rf ne spec : ℕ) : ∀ (l : List ℤ) (n : ℕ) (s : EstSt),
    estPairs ℝ mf rf ne spec (l.map (-·)) n s = estPairs ℝ mf rf ne spec l n s
  | [], _, _ => rfl
  | [_], _, _ => rfl
  | x0 :: x1 :: xs, n, s => by
    rw [List.map_cons, List.map_cons, estPairs, estPairs]
    simp only [Int.natAbs_neg, ne_eq, neg_eq_zero, estPairs_neg mf rf ne spec xs]

theorem bitConsumption_neg (ne fsInd nbits spec : ℕ) (xq : List ℤ) :
    bitConsumption ℝ ne fsInd nbits spec (xq.map (-·)) = bitConsumption ℝ ne fsInd nbits spec xq := by
  unfold bitConsumption
  simp only [List.length_map, ← List.map_take, ← List.map_reverse, lastNz_neg, estPairs_neg]

/-- rounding is symmetric below the bound of 16 bits -/
theorem quantLine_neg {g x : ℝ} (hg : 0 < g) (hb : |x| / g + 3 / 8 < 32768) : quantLine g (-x) = -quantLine g x := by
  have h38 : (ofRat (3 / 8) : ℝ) = 3 / 8 := by show ((3 / 8 : ℚ) : ℝ) = 3 / 8; norm_num
  have hge : ∀ y : ℝ, geS y zero = true ↔ 0 ≤ y := by
    intro y
    unfold geS
    rw [Bool.or_eq_true]
    show decide (((0 : ℚ) : ℝ) < y) = true ∨ decide (y = ((0 : ℚ) : ℝ)) = true ↔ _
    rw [decide_eq_true_eq, decide_eq_true_eq, Rat.cast_zero, le_iff_lt_or_eq, eq_comm (a := y)]
  have hpos : ∀ y : ℝ, 0 ≤ y → y / g + 3 / 8 < 32768 → quantLine g y = ⌊y / g + 3 / 8⌋ := by
    intro y hy hb
    have h0 : 0 ≤ y / g := by positivity
    unfold quantLine toI16
    rw [if_pos ((hge y).2 hy), h38]
    show max (-32768) (min 32767 (realToI32 _)) = _
    unfold realToI32
    rw [if_pos (by linarith)]
    have h1 : ⌊y / g + 3 / 8⌋ < 32768 := Int.floor_lt.2 (by exact_mod_cast hb)
    have h2 : 0 ≤ ⌊y / g + 3 / 8⌋ := Int.floor_nonneg.2 (by linarith)
    omega
  have hneg : ∀ y : ℝ, 0 < y → y / g + 3 / 8 < 32768 → quantLine g (-y) = -⌊y / g + 3 / 8⌋ := by
    intro y hy hb
    have h0 : 0 < y / g := by positivity
    unfold quantLine toI16
    rw [if_neg (fun h => by have := (hge _).1 h; linarith), h38, show -y / g - 3 / 8 = -(y / g + 3 / 8) by ring]
    show max (-32768) (min 32767 (realToI32 _)) = _
    unfold realToI32
    rw [if_neg (by linarith), Int.ceil_neg]
    have h1 : ⌊y / g + 3 / 8⌋ < 32768 := Int.floor_lt.2 (by exact_mod_cast hb)
    have h2 : 0 ≤ ⌊y / g + 3 / 8⌋ := Int.floor_nonneg.2 (by linarith)
    omega
  rcases lt_trichotomy x 0 with h | h | h
  · rw [abs_of_neg h] at hb
    have := hneg (-x) (by linarith) hb
    rw [neg_neg] at this
    rw [this, hpos (-x) (by linarith) hb, neg_neg]
  · subst h
    rw [neg_zero, hpos 0 (le_refl _) (by norm_num)]
    norm_num
  · rw [abs_of_pos h] at hb
    rw [hneg x h hb, hpos x h.le hb]

theorem quantSpectrum_neg (ne fsInd : ℕ) (xf : List ℝ) (nbits : ℕ) (off ind : ℤ) (spec : ℕ)
    (hs : ∀ x ∈ xf, quantLine (ggValue ind off) (-x) = -quantLine (ggValue ind off : ℝ) x) :
    quantSpectrum ne fsInd (xf.map (-·)) nbits off ind spec =
      (quantSpectrum ne fsInd xf nbits off ind spec >>= fun q => Res.ok { q with xq := q.xq.map (-·) }) := by
  have hm : (xf.map (-·)).map (quantLine (ggValue ind off)) = (xf.map (quantLine (ggValue ind off : ℝ))).map (-·) := by
    rw [List.map_map, List.map_map]
    exact List.map_congr_left hs
  unfold quantSpectrum
  simp only
  rw [hm, bitConsumption_neg]
  cases bitConsumption ℝ ne fsInd nbits spec (xf.map (quantLine (ggValue ind off : ℝ))) with
  | err => rfl
  | panic => rfl
  | ok bc =>
    simp only [Res.bind_ok, List.length_map]
    split
    · show Res.ok _ = Res.ok _
      simp only [List.map_append, List.map_take, List.map_drop, List.map_replicate, neg_zero]
    · rfl

/-- **C130** In exact arithmetic: for every run of the quantiser in which no line is exactly at the bound of 16 bits of any gain, the run on the negated
spectrum leaves the same state and gives the same gain, flags and bit counts, and the negated quantised lines. -/
theorem C130 {ne fsInd nbits nbw ntns nltpf : ℕ} {s s' : QuantSt ℝ} {xf : List ℝ} {o : QuantOut ℝ} (hn : nbits < 32768)
    (h : quantRun ne fsInd s xf nbits nbw ntns nltpf = .ok (s', o))
    (hx : ∀ x ∈ xf, ∀ ind : ℤ, |x| ≠ (32768 - 3 / 8) * (10 : ℝ) ^ (((ind : ℝ) + gainOffset nbits fsInd) / 28)) :
    quantRun ne fsInd s (xf.map (-·)) nbits nbw ntns nltpf = .ok (s', { o with xq := o.xq.map (-·) }) := by
  unfold quantRun at h ⊢
  rw [List.length_map]
  split at h
  · cases h
  rename_i hl
  rw [if_neg hl]
  obtain ⟨spec, hs, h⟩ := Res.bind_eq_ok.1 h
  rw [hs, Res.bind_ok]
  simp only at h ⊢
  split at h
  · cases h
  rename_i h4
  rw [if_neg h4, spectralEnergy_neg]
  obtain ⟨⟨reset, ggMin, ggInd⟩, hlim, h⟩ := Res.bind_eq_ok.1 h
  have hlimN : ∀ ind, ggLimit (xf.map (-·)) (ggOffEnc nbits fsInd) ind = ggLimit xf (ggOffEnc nbits fsInd) ind := by
    intro ind
    unfold ggLimit ggMinOf
    rw [maxAbs_neg]
  rw [hlimN, hlim, Res.bind_ok]
  simp only at h ⊢
  have hmin : ggMin ≤ ggInd ∧ i16Chk (ggMinOf xf (ggOffEnc nbits fsInd)) = .ok ggMin := by
    unfold ggLimit at hlim
    obtain ⟨g, h1, h2⟩ := Res.bind_eq_ok.1 hlim
    split at h2
    · simp only [Res.ok.injEq, Prod.mk.injEq] at h2
      obtain ⟨-, rfl, rfl⟩ := h2
      exact ⟨le_refl _, h1⟩
    · rename_i hc
      simp only [Res.ok.injEq, Prod.mk.injEq] at h2
      obtain ⟨-, rfl, rfl⟩ := h2
      rw [Bool.or_eq_true, decide_eq_true_eq] at hc
      exact ⟨by omega, h1⟩
  have hsym : ∀ ind, ggMin ≤ ind → ∀ x ∈ xf, quantLine (ggValue ind (ggOffEnc nbits fsInd)) (-x) = -quantLine (ggValue ind (ggOffEnc nbits fsInd) : ℝ) x := by
    intro ind hi x hxm
    have hg : (ggValue ind (ggOffEnc nbits fsInd) : ℝ) = (10 : ℝ) ^ (((ind : ℝ) + gainOffset nbits fsInd) / 28) := by
      rw [ggOffEnc_rate hn]
      show (10 : ℝ) ^ ((((ind : ℚ) : ℝ) + ((((gainOffset nbits fsInd : ℤ) : ℚ)) : ℝ)) / ((28 : ℚ) : ℝ)) = _
      push_cast
      rfl
    have hpos : (0 : ℝ) < ggValue ind (ggOffEnc nbits fsInd) := by rw [hg]; positivity
    refine quantLine_neg hpos ?_
    have hle : |x| ≤ maxAbs xf := by rw [maxAbs_real]; exact (maxAbs_foldl xf 0).2 x hxm
    rcases (abs_nonneg x).eq_or_lt with hz | hp
    · rw [← hz]; norm_num
    have hm : 0 < maxAbs xf := hp.trans_le hle
    have hlog := ggMin_spec (ggOffEnc_neg nbits fsInd hn) hmin.2 hi hm
    rw [ggOffEnc_rate hn] at hlog
    have hle2 : maxAbs xf / (32768 - 3 / 8) ≤ ggValue ind (ggOffEnc nbits fsInd) := by
      rw [hg]
      have hq0 : 0 < maxAbs xf / (32768 - 3 / 8) := by positivity
      rw [← Real.rpow_logb (b := 10) (by norm_num) (by norm_num) hq0]
      refine Real.rpow_le_rpow_of_exponent_le (by norm_num) ?_
      rw [le_div_iff₀ (by norm_num)]
      linarith
    have h1 : |x| ≤ (32768 - 3 / 8) * ggValue ind (ggOffEnc nbits fsInd) := by
      rw [div_le_iff₀ (by norm_num)] at hle2
      linarith
    have h2 := lt_of_le_of_ne h1 (by rw [hg]; exact hx x hxm ind)
    have : |x| / ggValue ind (ggOffEnc nbits fsInd) < 32768 - 3 / 8 := by
      rw [div_lt_iff₀ hpos]
      linarith
    linarith
  obtain ⟨q0, hq0, h⟩ := Res.bind_eq_ok.1 h
  rw [quantSpectrum_neg _ _ _ _ _ _ _ (hsym _ hmin.1), hq0, Res.bind_ok, Res.bind_ok]
  obtain ⟨ind', h3, h⟩ := Res.bind_eq_ok.1 h
  simp only at h ⊢
  rw [h3, Res.bind_ok]
  rw [quantSpectrum_neg _ _ _ _ _ _ _ (hsym _ (ggAdjust_ge hmin.1 h3))]
  obtain ⟨q, hq, h⟩ := Res.bind_eq_ok.1 h
  simp only [Res.ok.injEq, Prod.mk.injEq] at h
  obtain ⟨rfl, rfl⟩ := h
  split at hq
  · rename_i hne
    rw [if_pos hne, hq]
    rfl
  · rename_i hne
    simp only [Res.ok.injEq] at hq
    subst hq
    rw [if_neg hne]
    rfl

/-- a line of 1000 is not at the bound of 16 bits of any gain -/
theorem thousand_off_bound (k : ℤ) : (1000 : ℝ) ≠ (32768 - 3 / 8) * (10 : ℝ) ^ ((k : ℝ) / 28) := by
  intro h
  obtain ⟨y, hy⟩ : ∃ y, y = (10 : ℝ) ^ ((k : ℝ) / 28) := ⟨_, rfl⟩
  have h28 : y ^ 28 = (10 : ℝ) ^ k := by
    rw [hy, ← Real.rpow_natCast, ← Real.rpow_mul (by norm_num), ← Real.rpow_intCast]
    congr 1
    push_cast
    ring
  rw [← hy] at h
  have hv : y = 8000 / 262141 := by
    rw [eq_div_iff (by norm_num)]
    linarith
  rw [hv, div_pow] at h28
  rcases le_or_gt 0 k with hk | hk
  · have h1 : (1 : ℝ) ≤ (10 : ℝ) ^ k := one_le_zpow₀ (by norm_num) hk
    rw [← h28, le_div_iff₀ (by norm_num)] at h1
    norm_num at h1
  · obtain ⟨m, rfl⟩ : ∃ m : ℕ, k = -((m + 1 : ℕ) : ℤ) := ⟨(-k - 1).toNat, by omega⟩
    rw [zpow_neg, zpow_natCast, div_eq_iff (by norm_num), inv_mul_eq_div, eq_div_iff (by positivity)] at h28
    have hN : 8000 ^ 28 * 10 ^ (m + 1) = 262141 ^ 28 := by exact_mod_cast h28
    have he : Even (8000 ^ 28 * 10 ^ (m + 1)) := by
      rw [pow_succ 10 m]
      exact ⟨8000 ^ 28 * (10 ^ m * 5), by ring⟩
    rw [hN] at he
    have ho : Odd (262141 ^ 28) := Odd.pow ⟨131070, by norm_num⟩
    exact (Nat.not_even_iff_odd.2 ho) he

/-- C130 is not vacuous: 48 kHz, 10 ms, 150 bytes, all lines 1000 -/
example : ∃ s' o, quantRun 400 4 QuantSt.new (List.replicate 400 (1000 : ℝ)) 1200 3 1 1 = .ok (s', o) ∧
    ∀ x ∈ List.replicate 400 (1000 : ℝ), ∀ ind : ℤ, |x| ≠ (32768 - 3 / 8) * (10 : ℝ) ^ (((ind : ℝ) + gainOffset 1200 4) / 28) := by
  obtain ⟨s', o, h⟩ := constRun (c := 1000) (le_refl _) (by norm_num)
  refine ⟨s', o, h, fun x hx ind => ?_⟩
  rw [List.eq_of_mem_replicate hx, abs_of_pos (by norm_num)]
  have := thousand_off_bound (ind + gainOffset 1200 4)
  push_cast at this
  exact this

end Lc3
