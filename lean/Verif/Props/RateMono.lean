import Verif.Props.Rate
/-! C127: the rate control is monotone in the level of the spectrum and in the budget, in exact arithmetic -/

namespace Lc3
open Scalar Spec

/-- a louder group never costs less -/
theorem groupCost_mono (g : ℝ) {e e' : ℝ} (h : e ≤ e') : groupCost g e ≤ groupCost g e' := by
  unfold groupCost
  split_ifs <;> linarith

open Classical in
/-- a louder spectrum never costs less -/
theorem spectrumCost_mono (g : ℝ) {es es' : List ℝ} (h : List.Forall₂ (· ≤ ·) es es') : spectrumCost g es ≤ spectrumCost g es' := by
  unfold spectrumCost
  have hr : List.Forall₂ (· ≤ ·) es.reverse es'.reverse := List.rel_reverse h
  have hsum : ∀ {l l' : List ℝ}, List.Forall₂ (· ≤ ·) l l' → (l.map (groupCost g)).sum ≤ (l'.map (groupCost g)).sum := by
    intro l l' h
    induction h with
    | nil => simp
    | cons a _ ih => simp only [List.map_cons, List.sum_cons]; linarith [groupCost_mono g a]
  have hdw : ∀ l : List ℝ, ((l.dropWhile (fun e => decide (7 / 5 * e < g))).map (groupCost g)).sum ≤ (l.map (groupCost g)).sum := by
    intro l
    induction l with
    | nil => simp
    | cons e l ih =>
      rw [List.dropWhile_cons]
      split
      · simp only [List.map_cons, List.sum_cons]; linarith [groupCost_pos g e]
      · exact le_refl _
  generalize es.reverse = l at hr
  generalize es'.reverse = l' at hr
  induction hr with
  | nil => simp
  | @cons e e' l l' a b ih =>
    by_cases h1 : 7 / 5 * e' < g
    · rw [List.dropWhile_cons_of_pos (a := e') (by simpa using h1), List.dropWhile_cons_of_pos (a := e) (by simp; linarith)]
      exact ih
    · rw [List.dropWhile_cons_of_neg (a := e') (by simpa using h1)]
      exact (hdw _).trans (hsum (.cons a b))

theorem groupEnergy_mono {xf xf' : List ℝ} (h : ∀ i, |xf.getD i 0| ≤ |xf'.getD i 0|) (k : ℕ) : groupEnergy xf k ≤ groupEnergy xf' k := by
  unfold groupEnergy
  have h0 := sq_le_sq.2 (h (4 * k))
  have h1 := sq_le_sq.2 (h (4 * k + 1))
  have h2 := sq_le_sq.2 (h (4 * k + 2))
  have h3 := sq_le_sq.2 (h (4 * k + 3))
  have := Real.logb_le_logb_of_le (b := 10) (by norm_num)
    (show (0 : ℝ) < 1 / 2 ^ 23 + (xf.getD (4 * k) 0 ^ 2 + xf.getD (4 * k + 1) 0 ^ 2 + xf.getD (4 * k + 2) 0 ^ 2 + xf.getD (4 * k + 3) 0 ^ 2) by positivity)
    (show _ ≤ 1 / 2 ^ 23 + (xf'.getD (4 * k) 0 ^ 2 + xf'.getD (4 * k + 1) 0 ^ 2 + xf'.getD (4 * k + 2) 0 ^ 2 + xf'.getD (4 * k + 3) 0 ^ 2) by linarith)
  linarith

theorem tooFine_mono {xf xf' : List ℝ} (h : ∀ i, |xf.getD i 0| ≤ |xf'.getD i 0|) (n : ℕ) {b b' : ℕ} (hb : b' ≤ b) (g : ℝ)
    (ht : TooFine ((List.range n).map (groupEnergy xf)) b g) : TooFine ((List.range n).map (groupEnergy xf')) b' g := by
  unfold TooFine at ht ⊢
  have hm : spectrumCost g ((List.range n).map (groupEnergy xf)) ≤ spectrumCost g ((List.range n).map (groupEnergy xf')) := by
    refine spectrumCost_mono g ?_
    rw [List.forall₂_map_left_iff, List.forall₂_map_right_iff, List.forall₂_same]
    exact fun k _ => groupEnergy_mono h k
  have : (b' : ℝ) ≤ b := by exact_mod_cast hb
  nlinarith

/-- **C127** (estimate) In exact arithmetic: when no line is smaller in magnitude and the budget is not larger, the estimated gain index is not
smaller. -/
theorem C127_estimate {xf xf' : List ℝ} (h : ∀ i, |xf.getD i 0| ≤ |xf'.getD i 0|) {n : ℕ} (hl : 4 * n ≤ xf.length) (hl' : 4 * n ≤ xf'.length)
    {b b' : ℕ} (hb : b' ≤ b) (off : ℤ) :
    ggSearch (spectralEnergy n xf) b off 8 256 255 ≤ ggSearch (spectralEnergy n xf') b' off 8 256 255 := by
  have e := spectralEnergy_real xf n 0 (by omega)
  have e' := spectralEnergy_real xf' n 0 (by omega)
  simp only [Nat.mul_zero, List.drop_zero, Nat.zero_add] at e e'
  rw [e, e']
  show ggSearch ((List.range n).map (groupEnergy xf)) b off 8 256 255 ≤ ggSearch ((List.range n).map (groupEnergy xf')) b' off 8 256 255
  obtain ⟨c0, c1, c2⟩ := C70 ((List.range n).map (groupEnergy xf)) b off
  obtain ⟨d0, d1, d2⟩ := C70 ((List.range n).map (groupEnergy xf')) b' off
  by_contra hc
  push Not at hc
  have := (d2 _ d0 (by omega)).1 (tooFine_mono h n hb _ ((c2 _ d0 (by omega)).2 hc))
  omega

/-- **C127** In exact arithmetic, for any two runs of the quantiser with the same frame size, whatever their states and side information: when no line
of the second spectrum is smaller in magnitude than that of the first and its budget is not larger, its gain index is smaller by at most three, so
its step is at least `10 ^ (-3 / 28)` times that of the first. -/
theorem C127 {ne fsInd nbits nbw ntns nltpf nbw' ntns' nltpf' : ℕ} {s t s' t' : QuantSt ℝ} {xf xf' : List ℝ} {o o' : QuantOut ℝ} (hn : nbits < 32768)
    (hf : fsInd < 5) (h : quantRun ne fsInd s xf nbits nbw ntns nltpf = .ok (t, o)) (h' : quantRun ne fsInd s' xf' nbits nbw' ntns' nltpf' = .ok (t', o'))
    (hx : ∃ x ∈ xf, x ≠ 0) (hle : ∀ i, |xf.getD i 0| ≤ |xf'.getD i 0|)
    (hb : (o'.nbitsSpec : ℝ) + t'.nbitsOffsetOld ≤ o.nbitsSpec + t.nbitsOffsetOld) :
    o.ggInd ≤ o'.ggInd + 3 ∧ o.gg ≤ (10 : ℝ) ^ ((3 : ℝ) / 28) * o'.gg := by
  have hmem : ∀ x ∈ xf, x ≠ 0 → ∃ y ∈ xf', |x| ≤ |y| ∧ y ≠ 0 := by
    intro x hx h0
    obtain ⟨i, hi, rfl⟩ := List.getElem_of_mem hx
    have := hle i
    rw [List.getD_eq_getElem _ _ hi] at this
    have hp := abs_pos.2 h0
    by_cases hi' : i < xf'.length
    · rw [List.getD_eq_getElem _ _ hi'] at this
      exact ⟨_, List.getElem_mem hi', this, abs_pos.1 (by linarith)⟩
    · rw [List.getD_eq_default _ _ (by omega), abs_zero] at this
      linarith
  have hx' : ∃ x ∈ xf', x ≠ 0 := by
    obtain ⟨x, m, h0⟩ := hx
    obtain ⟨y, m', -, h0'⟩ := hmem x m h0
    exact ⟨y, m', h0'⟩
  have step : ∀ {nbw ntns nltpf : ℕ} {s t : QuantSt ℝ} {xf : List ℝ} {o : QuantOut ℝ}, quantRun ne fsInd s xf nbits nbw ntns nltpf = .ok (t, o) →
      o.gg = (10 : ℝ) ^ (((o.ggInd : ℝ) + gainOffset nbits fsInd) / 28) := by
    intro nbw ntns nltpf s t xf o h
    obtain ⟨-, -, ind0, reset, ggMin, ggInd, q0, q, -, -, -, -, hq, ho⟩ := quantRun_inv h
    have hg : q.gg = ggValue o.ggInd (ggOffEnc nbits fsInd) := by
      unfold quantSpectrum at hq
      obtain ⟨bc, -, hq⟩ := Res.bind_eq_ok.1 hq
      split at hq
      · simp only [Res.ok.injEq] at hq
        rw [← hq]
      · cases hq
    rw [ho]
    simp only
    rw [hg, ggOffEnc_rate hn]
    show (10 : ℝ) ^ ((((o.ggInd : ℚ) : ℝ) + ((((gainOffset nbits fsInd : ℤ) : ℚ)) : ℝ)) / ((28 : ℚ) : ℝ)) = _
    push_cast
    rfl
  have hind : o.ggInd ≤ o'.ggInd + 3 := by
    obtain ⟨a, a0, a1, a2, a3, a4⟩ := C70_run hn hf h hx
    obtain ⟨c, c0, c1, c2, c3, -⟩ := C70_run hn hf h' hx'
    rcases a4 with a4 | ⟨x, m, hlim⟩
    · have hac : a ≤ c := by
        by_contra hc
        push Not at hc
        have hbud : min 65535 ⌊(o'.nbitsSpec : ℝ) + t'.nbitsOffsetOld + 1 / 2⌋₊ ≤ min 65535 ⌊(o.nbitsSpec : ℝ) + t.nbitsOffsetOld + 1 / 2⌋₊ :=
          min_le_min_left _ (Nat.floor_le_floor (by linarith))
        have := (c2 c c0 (by omega)).1 (tooFine_mono hle _ hbud _ ((a2 c c0 (by omega)).2 hc))
        omega
      omega
    · have h0 : x ≠ 0 := by
        rintro rfl
        norm_num at hlim
      obtain ⟨y, m', hxy, -⟩ := hmem x m h0
      have hy := (C43 hn h').2 y m'
      rw [step h'] at hy
      by_contra hc
      push Not at hc
      have hpow : (10 : ℝ) ^ (((o'.ggInd : ℝ) + gainOffset nbits fsInd) / 28) ≤ (10 : ℝ) ^ (((o.ggInd : ℝ) - 3 + gainOffset nbits fsInd) / 28) := by
        refine Real.rpow_le_rpow_of_exponent_le (by norm_num) ?_
        have : (o'.ggInd : ℝ) + 3 < o.ggInd := by exact_mod_cast hc
        linarith
      have h1 := div_le_div_of_nonneg_left (abs_nonneg x) (by positivity) hpow
      have h2 := div_le_div_of_nonneg_right hxy (show (0 : ℝ) ≤ (10 : ℝ) ^ (((o'.ggInd : ℝ) + gainOffset nbits fsInd) / 28) by positivity)
      linarith
  refine ⟨hind, ?_⟩
  rw [step h, step h', ← Real.rpow_add (by norm_num)]
  refine Real.rpow_le_rpow_of_exponent_le (by norm_num) ?_
  have : (o.ggInd : ℝ) ≤ o'.ggInd + 3 := by exact_mod_cast hind
  linarith

/-- 48 kHz, 10 ms, 150 bytes, all lines equal: the quantiser returns -/
theorem constRun {c : ℝ} (hc1 : 1000 ≤ c) (hc2 : c ≤ 3000) : ∃ s' o, quantRun (Lc3Config.new .hz48000 .tenMs).ne 4 QuantSt.new (List.replicate 400 c) 1200 3 1 1 = .ok (s', o) := by
  have hc0 : 0 ≤ c := by linarith
  have hoff : ggOffEnc 1200 4 = -154 := by decide
  have hc : -32767 ≤ ggMinOf (List.replicate 400 c) (ggOffEnc 1200 4) ∧ ggMinOf (List.replicate 400 c) (ggOffEnc 1200 4) ≤ 32000 := by
    rw [hoff]
    unfold ggMinOf
    split
    · have hmax : maxAbs (List.replicate 400 c) = c := by
        rw [maxAbs_real]
        have : ∀ n (m : ℝ), 0 ≤ m → m ≤ c → (List.replicate (n + 1) c).foldl (fun m x => max m |x|) m = c := by
          intro n
          induction n with
          | zero => intro m _ h; simpa [abs_of_nonneg hc0] using h
          | succ n ih =>
            intro m _ h
            rw [List.replicate_succ, List.foldl_cons]
            exact ih _ (by positivity) (by simpa [abs_of_nonneg hc0] using h)
        exact this 399 0 (le_refl _) hc0
      rw [hmax]
      obtain ⟨y, hy⟩ : ∃ y, y = 28 * Real.logb 10 (c / (32768 - 3 / 8)) := ⟨_, rfl⟩
      have he : (ceilS ((ofRat 28 : ℝ) * log10 (c / (ofRat 32768 - ofRat (3 / 8))))) = ((⌈y⌉ : ℤ) : ℝ) := by
        show ((⌈((28 : ℚ) : ℝ) * Real.logb 10 (c / (((32768 : ℚ) : ℝ) - ((3 / 8 : ℚ) : ℝ)))⌉ : ℤ) : ℝ) = _
        rw [hy]
        norm_num
      rw [he]
      have ht : (toI32 (((⌈y⌉ : ℤ) : ℝ)) : ℤ) = max (-2147483648) (min 2147483647 ⌈y⌉) := by
        show realToI32 _ = _
        unfold realToI32
        simp
      unfold toI16
      rw [ht]
      have hy0 : y < 0 := by
        rw [hy]
        have := Real.logb_neg (b := 10) (x := c / (32768 - 3 / 8)) (by norm_num) (by apply div_pos <;> linarith) (by rw [div_lt_one (by norm_num)]; linarith)
        linarith
      have hy1 : -100 ≤ y := by
        have : (-2 : ℝ) ≤ Real.logb 10 (c / (32768 - 3 / 8)) := by
          rw [Real.le_logb_iff_rpow_le (by norm_num) (by apply div_pos <;> linarith), Real.rpow_neg (by norm_num), le_div_iff₀ (by norm_num)]
          norm_num
          linarith
        rw [hy]; linarith
      have c1 : ⌈y⌉ ≤ 0 := Int.ceil_le.2 (by simpa using hy0.le)
      have c2 : (-100 : ℤ) ≤ ⌈y⌉ := by
        have := hy1.trans (Int.le_ceil y)
        exact_mod_cast this
      omega
    · omega
  exact C44 _ _ (by norm_num) (by rw [List.length_replicate]; rfl) (by decide) hc.1 hc.2

/-- C127 is not vacuous: 48 kHz, 10 ms, 150 bytes, all lines 1000 and all lines 3000, with the same budget -/
example : ∃ s o s' o', quantRun 400 4 QuantSt.new (List.replicate 400 (1000 : ℝ)) 1200 3 1 1 = .ok (s, o) ∧
    quantRun 400 4 QuantSt.new (List.replicate 400 (3000 : ℝ)) 1200 3 1 1 = .ok (s', o') ∧ (∃ x ∈ List.replicate 400 (1000 : ℝ), x ≠ 0) ∧
    (∀ i, |(List.replicate 400 (1000 : ℝ)).getD i 0| ≤ |(List.replicate 400 (3000 : ℝ)).getD i 0|) ∧
    (o'.nbitsSpec : ℝ) + s'.nbitsOffsetOld ≤ o.nbitsSpec + s.nbitsOffsetOld := by
  obtain ⟨s, o, h⟩ := constRun (c := 1000) (le_refl _) (by norm_num)
  obtain ⟨s', o', h'⟩ := constRun (c := 3000) (by norm_num) (le_refl _)
  refine ⟨s, o, s', o', h, h', ⟨1000, List.mem_replicate.2 ⟨by norm_num, rfl⟩, by norm_num⟩, fun i => ?_, ?_⟩
  · rw [List.getD_eq_getElem?_getD, List.getD_eq_getElem?_getD, List.getElem?_replicate, List.getElem?_replicate]
    split <;> norm_num
  · obtain ⟨-, b, -⟩ := quantRun_inv h
    obtain ⟨-, b', -⟩ := quantRun_inv h'
    rw [(quantRun_state h).1, (quantRun_state h').1, show o.nbitsSpec = o'.nbitsSpec by omega]

end Lc3
