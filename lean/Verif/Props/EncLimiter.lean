import Verif.Props.EncQuant
import Verif.Model.ScalarReal
/-! C43: the gain limiter, in exact arithmetic -/

namespace Lc3
open Scalar

theorem maxAbs_foldl (xf : List ℝ) : ∀ m : ℝ, m ≤ xf.foldl (fun m x => max m |x|) m ∧
    ∀ x ∈ xf, |x| ≤ xf.foldl (fun m x => max m |x|) m := by
  induction xf with
  | nil => intro m; simp
  | cons y ys ih =>
    intro m
    obtain ⟨h1, h2⟩ := ih (max m |y|)
    refine ⟨(le_max_left _ _).trans h1, ?_⟩
    intro x hx
    rcases List.mem_cons.1 hx with rfl | hx
    · exact (le_max_right _ _).trans h1
    · exact h2 x hx

theorem maxAbs_real (xf : List ℝ) : maxAbs xf = xf.foldl (fun m x => max m |x|) 0 := by
  unfold maxAbs
  rw [show (zero : ℝ) = 0 by show ((0 : ℚ) : ℝ) = 0; norm_num]
  rfl

theorem ggAdjust_ge {fsInd : Nat} {ggInd ggMin g : Int} {spec est : Nat} (hm : ggMin ≤ ggInd)
    (h : ggAdjust ℝ fsInd ggInd ggMin spec est = .ok g) : ggMin ≤ g := by
  unfold ggAdjust at h
  obtain ⟨t1, h1, h⟩ := Res.bind_eq_ok.1 h
  obtain ⟨t2, h2, h⟩ := Res.bind_eq_ok.1 h
  obtain ⟨t3, h3, h⟩ := Res.bind_eq_ok.1 h
  simp only at h
  split at h
  · obtain ⟨g', hg, h⟩ := Res.bind_eq_ok.1 h
    simp only [Res.ok.injEq] at h
    omega
  · simp only [Res.ok.injEq] at h
    omega

theorem ggOffEnc_neg (nbits fsInd : Nat) (hn : nbits < 32768) : ggOffEnc nbits fsInd < 0 := by
  unfold ggOffEnc toI16Wrap
  simp only
  rw [if_pos (by omega)]
  have : 0 ≤ Int.tdiv ((nbits % 65536 : ℕ) : ℤ) (10 * (fsInd + 1)) := Int.tdiv_nonneg (by positivity) (by positivity)
  omega

/-- the bound of the limiter, as an inequality -/
theorem ggMin_spec {xf : List ℝ} {ggOff g : Int} (hoff : ggOff < 0) (hc : i16Chk (ggMinOf xf ggOff) = .ok g) {ind : Int}
    (hi : g ≤ ind) (hpos : 0 < maxAbs xf) :
    28 * Real.logb 10 (maxAbs xf / (32768 - 3 / 8)) ≤ ind + ggOff := by
  have hg := i16Chk_inv hc
  have hb : ggMinOf xf ggOff ≤ 32767 := by
    unfold i16Chk at hc
    split at hc
    · rename_i h; exact h.2
    · cases hc
  unfold ggMinOf at hg hb
  have hl : (lt (zero : ℝ) (maxAbs xf)) = true := by
    show decide (((0 : ℚ) : ℝ) < maxAbs xf) = true
    simpa using hpos
  rw [if_pos hl] at hg hb
  obtain ⟨y, hy⟩ : ∃ y, y = 28 * Real.logb 10 (maxAbs xf / (32768 - 3 / 8)) := ⟨_, rfl⟩
  have he : (ceilS ((ofRat 28 : ℝ) * log10 (maxAbs xf / (ofRat 32768 - ofRat (3 / 8))))) = ((⌈y⌉ : ℤ) : ℝ) := by
    show ((⌈((28 : ℚ) : ℝ) * Real.logb 10 (maxAbs xf / (((32768 : ℚ) : ℝ) - ((3 / 8 : ℚ) : ℝ)))⌉ : ℤ) : ℝ) = _
    rw [hy]
    norm_num
  rw [he] at hg hb
  have ht : (toI32 (((⌈y⌉ : ℤ) : ℝ)) : ℤ) = max (-2147483648) (min 2147483647 ⌈y⌉) := by
    show realToI32 _ = _
    unfold realToI32
    simp
  unfold toI16 at hg hb
  rw [ht] at hg hb
  rw [← hy]
  have h1 : ⌈y⌉ ≤ ind + ggOff := by omega
  have h2 : (⌈y⌉ : ℝ) ≤ ((ind + ggOff : ℤ) : ℝ) := by exact_mod_cast h1
  push_cast at h2
  exact (Int.le_ceil y).trans h2

/-- **C43** In exact arithmetic: the magnitude of every line, divided by the final gain, plus the rounding offset 3/8, is at most
32768. The conversion to 16 bits therefore saturates at most in this extreme case. -/
theorem C43 {ne fsInd nbits nbw ntns nltpf : Nat} {s s' : QuantSt ℝ} {xf : List ℝ} {o : QuantOut ℝ} (hn : nbits < 32768)
    (h : quantRun ne fsInd s xf nbits nbw ntns nltpf = .ok (s', o)) :
    0 < o.gg ∧ ∀ x ∈ xf, |x| / o.gg + 3 / 8 ≤ 32768 := by
  obtain ⟨hl, -, ind0, reset, ggMin, ggInd, q0, q, -, h2, -, h3, hq, ho⟩ := quantRun_inv h
  have hg : o.gg = (10 : ℝ) ^ (((o.ggInd : ℝ) + (ggOffEnc nbits fsInd : ℤ)) / 28) := by
    have hg : q.gg = ggValue o.ggInd (ggOffEnc nbits fsInd) := by
      unfold quantSpectrum at hq
      obtain ⟨bc, -, hq⟩ := Res.bind_eq_ok.1 hq
      split at hq
      · simp only [Res.ok.injEq] at hq
        rw [← hq]
      · cases hq
    rw [ho]
    simp only
    rw [hg]
    show (10 : ℝ) ^ ((((o.ggInd : ℚ) : ℝ) + ((((ggOffEnc nbits fsInd : ℤ) : ℚ)) : ℝ)) / ((28 : ℚ) : ℝ)) = _
    push_cast
    rfl
  have hpos : 0 < o.gg := by rw [hg]; positivity
  refine ⟨hpos, ?_⟩
  intro x hx
  have hxm : |x| ≤ maxAbs xf := by rw [maxAbs_real]; exact (maxAbs_foldl xf 0).2 x hx
  rcases (abs_nonneg x).eq_or_lt with hz | hp
  · rw [← hz]; norm_num
  have hm : 0 < maxAbs xf := hp.trans_le hxm
  have hmin : ggMin ≤ ggInd ∧ i16Chk (ggMinOf xf (ggOffEnc nbits fsInd)) = .ok ggMin := by
    unfold ggLimit at h2
    obtain ⟨g, h1, h2⟩ := Res.bind_eq_ok.1 h2
    split at h2
    · simp only [Res.ok.injEq, Prod.mk.injEq] at h2
      obtain ⟨-, rfl, rfl⟩ := h2
      exact ⟨le_refl _, h1⟩
    · rename_i hc
      simp only [Res.ok.injEq, Prod.mk.injEq] at h2
      obtain ⟨-, rfl, rfl⟩ := h2
      rw [Bool.or_eq_true, decide_eq_true_eq] at hc
      exact ⟨by omega, h1⟩
  have hge := ggAdjust_ge hmin.1 h3
  have hlog := ggMin_spec (ggOffEnc_neg nbits fsInd hn) hmin.2 hge hm
  have hle : maxAbs xf / (32768 - 3 / 8) ≤ o.gg := by
    rw [hg]
    have hq0 : 0 < maxAbs xf / (32768 - 3 / 8) := by positivity
    rw [← Real.rpow_logb (b := 10) (by norm_num) (by norm_num) hq0]
    refine Real.rpow_le_rpow_of_exponent_le (by norm_num) ?_
    rw [le_div_iff₀ (by norm_num)]
    linarith
  have : |x| ≤ o.gg * (32768 - 3 / 8) := by
    rw [div_le_iff₀ (by norm_num)] at hle
    linarith
  have : |x| / o.gg ≤ 32768 - 3 / 8 := by
    rw [div_le_iff₀ hpos]
    linarith
  linarith

/-- **C26** (the condition is needed) The limiter bound can exceed 255: one line of magnitude 300000 at 16 kHz with frames of 288
bytes or more (`gg_off` = -230). The bit stream writer keeps only the low 8 bits of such an index. -/
theorem C26_limit : 255 < ggMinOf [(300000 : ℝ)] (ggOffEnc 2304 1) := by
  have hoff : ggOffEnc 2304 1 = -230 := by decide
  have hm : maxAbs [(300000 : ℝ)] = 300000 := by
    rw [maxAbs_real]
    simp [abs_of_nonneg]
  rw [hoff]
  unfold ggMinOf
  rw [hm]
  have hl : (lt (zero : ℝ) 300000) = true := by
    show decide (((0 : ℚ) : ℝ) < 300000) = true
    simp
  rw [if_pos hl]
  obtain ⟨y, hy⟩ : ∃ y, y = 28 * Real.logb 10 (300000 / (32768 - 3 / 8)) := ⟨_, rfl⟩
  have he : (ceilS ((ofRat 28 : ℝ) * log10 (300000 / (ofRat 32768 - ofRat (3 / 8))))) = ((⌈y⌉ : ℤ) : ℝ) := by
    show ((⌈((28 : ℚ) : ℝ) * Real.logb 10 (300000 / (((32768 : ℚ) : ℝ) - ((3 / 8 : ℚ) : ℝ)))⌉ : ℤ) : ℝ) = _
    rw [hy]
    norm_num
  rw [he]
  have ht : (toI32 (((⌈y⌉ : ℤ) : ℝ)) : ℤ) = max (-2147483648) (min 2147483647 ⌈y⌉) := by
    show realToI32 _ = _
    unfold realToI32
    simp
  unfold toI16
  rw [ht]
  have hy25 : 25 < y := by
    have h1 : (25 / 28 : ℝ) < Real.logb 10 (300000 / (32768 - 3 / 8)) := by
      rw [Real.lt_logb_iff_rpow_lt (by norm_num) (by norm_num)]
      have h28 : ((10 : ℝ) ^ (25 / 28 : ℝ)) ^ (28 : ℕ) < (300000 / (32768 - 3 / 8)) ^ (28 : ℕ) := by
        rw [← Real.rpow_natCast, ← Real.rpow_mul (by norm_num)]
        norm_num
      exact lt_of_pow_lt_pow_left₀ 28 (by norm_num) h28
    rw [hy]
    linarith
  have : (25 : ℤ) < ⌈y⌉ := by
    have := hy25.trans_le (Int.le_ceil y)
    exact_mod_cast this
  omega

/-! ## The quantiser returns -/

section
variable {α : Type} [Scalar α]

theorem ggAdjust_total {fsInd : Nat} {ggInd ggMin : Int} {spec est : Nat} (hf : fsInd < 5) (h0 : -32767 ≤ ggInd) (h1 : ggInd ≤ 32000) :
    ∃ g, ggAdjust α fsInd ggInd ggMin spec est = .ok g := by
  have i1 : ∃ t, idx GG_T1 fsInd = .ok t := ⟨_, idx_eq_ok (show fsInd < GG_T1.length from hf)⟩
  have i2 : ∃ t, idx GG_T2 fsInd = .ok t := ⟨_, idx_eq_ok (show fsInd < GG_T2.length from hf)⟩
  have i3 : ∃ t, idx GG_T3 fsInd = .ok t := ⟨_, idx_eq_ok (show fsInd < GG_T3.length from hf)⟩
  obtain ⟨t1, i1⟩ := i1
  obtain ⟨t2, i2⟩ := i2
  obtain ⟨t3, i3⟩ := i3
  unfold ggAdjust
  rw [i1, i2, i3]
  simp only [Res.bind_ok]
  have chk : ∀ x : Int, -32768 ≤ x → x ≤ 32767 → i16Chk x = .ok x := fun x a b => if_pos ⟨a, b⟩
  rw [chk (ggInd - 1) (by omega) (by omega), chk (ggInd + 1) (by omega) (by omega), chk (ggInd + 2) (by omega) (by omega)]
  generalize lt (ofInt est : α) (ofInt spec - (ggDelta t1 t2 t3 est + ofRat 2)) = low
  generalize lt (ofInt est : α) (ofInt spec + ggDelta t1 t2 t3 est) = low2
  split
  · split
    · exact ⟨_, rfl⟩
    · split <;> exact ⟨_, rfl⟩
  · exact ⟨_, rfl⟩

/-- **C44** The quantiser returns for every spectrum, every state and every arithmetic, provided the side information fits into the frame
and the bound of the limiter is not close to the limits of `i16`. -/
theorem C44 (f : SamplingFrequency) (d : FrameDuration) {fsInd nbits nbw ntns nltpf : Nat} {s : QuantSt α} {xf : List α} (hf : fsInd < 5)
    (hl : xf.length = (Lc3Config.new f d).ne)
    (hb : nbw + ntns + nltpf + nbitsFixed (Lc3Config.new f d).ne nbits ≤ nbits)
    (hm : -32767 ≤ ggMinOf xf (ggOffEnc nbits fsInd)) (hm' : ggMinOf xf (ggOffEnc nbits fsInd) ≤ 32000) :
    ∃ s' o, quantRun (Lc3Config.new f d).ne fsInd s xf nbits nbw ntns nltpf = .ok (s', o) := by
  have hne : 2 ≤ (Lc3Config.new f d).ne ∧ (Lc3Config.new f d).ne % 2 = 0 ∧ ¬ 100 < (Lc3Config.new f d).ne / 4 := by
    cases f <;> cases d <;> decide
  obtain ⟨ne, hn⟩ : ∃ n, n = (Lc3Config.new f d).ne := ⟨_, rfl⟩
  rw [← hn] at hl hb hne ⊢
  unfold quantRun
  rw [if_neg (by simpa using hl)]
  have hbb : bitBudget ne nbits nbw ntns nltpf = .ok (nbits - (nbw + ntns + nltpf + nbitsFixed ne nbits)) := by
    unfold bitBudget usub
    rw [if_pos hb]
  rw [hbb]
  simp only [Res.bind_ok]
  rw [if_neg hne.2.2]
  obtain ⟨adj, ha⟩ : ∃ a, a = nbitsSpecAdj (nbits - (nbw + ntns + nltpf + nbitsFixed ne nbits)) (nbitsOffset s) := ⟨_, rfl⟩
  rw [← ha]
  have hs := C26_search (spectralEnergy (ne / 4) xf) adj (ggOffEnc nbits fsInd)
  obtain ⟨ind, hi⟩ : ∃ i, i = ggSearch (spectralEnergy (ne / 4) xf) adj (ggOffEnc nbits fsInd) 8 256 255 := ⟨_, rfl⟩
  rw [← hi] at hs ⊢
  have hlim : ∃ reset g i, ggLimit xf (ggOffEnc nbits fsInd) ind = .ok (reset, g, i) ∧ -32767 ≤ i ∧ i ≤ 32000 := by
    unfold ggLimit
    have : i16Chk (ggMinOf xf (ggOffEnc nbits fsInd)) = .ok (ggMinOf xf (ggOffEnc nbits fsInd)) := if_pos ⟨by omega, by omega⟩
    rw [this, Res.bind_ok]
    split
    · exact ⟨_, _, _, rfl, hm, hm'⟩
    · exact ⟨_, _, _, rfl, by omega, by omega⟩
  obtain ⟨reset, g, i, h1, h2, h3⟩ := hlim
  rw [h1]
  simp only [Res.bind_ok]
  obtain ⟨q, hq, -⟩ := C27_spectrum (α := α) (ne := ne) (fsInd := fsInd) (nbits := nbits) (spec := nbits - (nbw + ntns + nltpf + nbitsFixed ne nbits))
    (ggOff := ggOffEnc nbits fsInd) (ggInd := i) (xf := xf) hne.1 hne.2.1 hl
  rw [hq]
  simp only [Res.bind_ok]
  obtain ⟨g', hg⟩ := ggAdjust_total (α := α) (fsInd := fsInd) (ggInd := i) (ggMin := g)
    (spec := nbits - (nbw + ntns + nltpf + nbitsFixed ne nbits)) (est := q.bc.nbitsEst) hf h2 h3
  rw [hg]
  simp only [Res.bind_ok]
  obtain ⟨q', hq', -⟩ := C27_spectrum (α := α) (ne := ne) (fsInd := fsInd) (nbits := nbits) (spec := nbits - (nbw + ntns + nltpf + nbitsFixed ne nbits))
    (ggOff := ggOffEnc nbits fsInd) (ggInd := g') (xf := xf) hne.1 hne.2.1 hl
  rw [hq']
  split
  · exact ⟨_, _, rfl⟩
  · exact ⟨_, _, rfl⟩

end

/-- 48 kHz, 10 ms, 150 bytes, all lines 1000: the hypotheses of C44, and therefore those of C43, are met -/
example : ∃ s' o, quantRun (Lc3Config.new .hz48000 .tenMs).ne 4 QuantSt.new (List.replicate 400 (1000 : ℝ)) 1200 3 1 1 = .ok (s', o) := by
  have hoff : ggOffEnc 1200 4 = -154 := by decide
  have hc : -32767 ≤ ggMinOf (List.replicate 400 (1000 : ℝ)) (ggOffEnc 1200 4) ∧ ggMinOf (List.replicate 400 (1000 : ℝ)) (ggOffEnc 1200 4) ≤ 32000 := by
    rw [hoff]
    unfold ggMinOf
    split
    · have hmax : maxAbs (List.replicate 400 (1000 : ℝ)) = 1000 := by
        rw [maxAbs_real]
        have : ∀ n (m : ℝ), 0 ≤ m → m ≤ 1000 → (List.replicate (n + 1) (1000 : ℝ)).foldl (fun m x => max m |x|) m = 1000 := by
          intro n
          induction n with
          | zero => intro m _ h; simpa using h
          | succ n ih =>
            intro m _ h
            rw [List.replicate_succ, List.foldl_cons]
            exact ih _ (by positivity) (by simpa using h)
        exact this 399 0 (le_refl _) (by norm_num)
      rw [hmax]
      obtain ⟨y, hy⟩ : ∃ y, y = 28 * Real.logb 10 (1000 / (32768 - 3 / 8)) := ⟨_, rfl⟩
      have he : (ceilS ((ofRat 28 : ℝ) * log10 (1000 / (ofRat 32768 - ofRat (3 / 8))))) = ((⌈y⌉ : ℤ) : ℝ) := by
        show ((⌈((28 : ℚ) : ℝ) * Real.logb 10 (1000 / (((32768 : ℚ) : ℝ) - ((3 / 8 : ℚ) : ℝ)))⌉ : ℤ) : ℝ) = _
        rw [hy]
        norm_num
      rw [he]
      have ht : (toI32 (((⌈y⌉ : ℤ) : ℝ)) : ℤ) = max (-2147483648) (min 2147483647 ⌈y⌉) := by
        show realToI32 _ = _
        unfold realToI32
        simp
      unfold toI16
      rw [ht]
      have hy0 : y < 0 := by
        rw [hy]
        have := Real.logb_neg (b := 10) (x := 1000 / (32768 - 3 / 8)) (by norm_num) (by norm_num) (by norm_num)
        linarith
      have hy1 : -100 ≤ y := by
        have : (-2 : ℝ) ≤ Real.logb 10 (1000 / (32768 - 3 / 8)) := by
          rw [Real.le_logb_iff_rpow_le (by norm_num) (by norm_num)]
          rw [Real.rpow_neg (by norm_num)]
          norm_num
        rw [hy]; linarith
      have c1 : ⌈y⌉ ≤ 0 := Int.ceil_le.2 (by simpa using hy0.le)
      have c2 : (-100 : ℤ) ≤ ⌈y⌉ := by
        have := hy1.trans (Int.le_ceil y)
        exact_mod_cast this
      omega
    · omega
  exact C44 _ _ (by norm_num) (by rw [List.length_replicate]; rfl) (by decide) hc.1 hc.2

end Lc3
