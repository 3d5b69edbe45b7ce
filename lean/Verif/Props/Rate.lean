import Verif.Props.EncLimiter
import Verif.Props.Bandwidth
import Verif.Spec.Rate
/-! C70-C72: the search for the global gain and the rate control, in exact arithmetic -/

namespace Lc3
open Scalar Spec

theorem lt_real (a b : ℝ) : lt a b = true ↔ a < b := by show decide (a < b) = true ↔ _; simp

open Classical in
/-- the loop of the code over the reversed energies -/
theorem ggEnergy_fold (g : ℝ) (es : List ℝ) : ∀ (t : ℝ),
    (es.foldl (ggEnergyStep g) (t, false) = (t + (es.map (groupCost g)).sum, false)) ∧
    (es.foldl (ggEnergyStep g) (t, true) =
      (t + ((es.dropWhile (fun e => decide (7 / 5 * e < g))).map (groupCost g)).sum,
        (es.dropWhile (fun e => decide (7 / 5 * e < g))).isEmpty)) := by
  have e28 : ∀ e : ℝ, e * (ofRat 28 : ℝ) / ofRat 20 = 7 / 5 * e := by
    intro e; show e * ((28 : ℚ) : ℝ) / ((20 : ℚ) : ℝ) = _; push_cast; ring
  have c27 : (ofRat (27 / 10) * ofRat 28 / ofRat 20 : ℝ) = 7 / 5 * (27 / 10) := by
    show ((27 / 10 : ℚ) : ℝ) * ((28 : ℚ) : ℝ) / ((20 : ℚ) : ℝ) = _; push_cast; ring
  have c43 : (ofRat 43 * ofRat 28 / ofRat 20 : ℝ) = 7 / 5 * 43 := by
    show ((43 : ℚ) : ℝ) * ((28 : ℚ) : ℝ) / ((20 : ℚ) : ℝ) = _; push_cast; ring
  have c36 : (ofRat 36 * ofRat 28 / ofRat 20 : ℝ) = 7 / 5 * 36 := by
    show ((36 : ℚ) : ℝ) * ((28 : ℚ) : ℝ) / ((20 : ℚ) : ℝ) = _; push_cast; ring
  have c7 : (ofRat 7 * ofRat 28 / ofRat 20 : ℝ) = 7 / 5 * 7 := by
    show ((7 : ℚ) : ℝ) * ((28 : ℚ) : ℝ) / ((20 : ℚ) : ℝ) = _; push_cast; ring
  have c2 : (ofRat 2 : ℝ) = 2 := by show ((2 : ℚ) : ℝ) = 2; norm_num
  have step : ∀ (t : ℝ) (b : Bool) (e : ℝ), ggEnergyStep g (t, b) e =
      if 7 / 5 * e < g then (if b then t else t + groupCost g e, b) else (t + groupCost g e, false) := by
    intro t b e
    unfold ggEnergyStep groupCost
    rw [c27, c43, c36, c7, c2]
    simp only [e28, lt_real]
    by_cases h : 7 / 5 * e < g
    · simp only [if_pos h]
      cases b <;> rfl
    · simp only [if_neg h]
      by_cases h2 : g < 7 / 5 * e - 7 / 5 * 43
      · rw [if_pos h2, if_pos (show 7 / 5 * (e - 43) > g by linarith)]
        congr 1; ring
      · rw [if_neg h2, if_neg (show ¬ 7 / 5 * (e - 43) > g by linarith)]
  induction es with
  | nil => intro t; simp
  | cons e es ih =>
    intro t
    constructor
    · rw [List.foldl_cons, step]
      have : (if 7 / 5 * e < g then ((if false = true then t else t + groupCost g e : ℝ), false)
          else (t + groupCost g e, false)) = (t + groupCost g e, false) := by split <;> simp
      rw [this, (ih _).1]
      simp [add_assoc]
    · rw [List.foldl_cons, step]
      by_cases h : 7 / 5 * e < g
      · rw [if_pos h, if_pos rfl, (ih t).2, List.dropWhile_cons_of_pos (by simpa using h)]
      · rw [if_neg h, (ih _).1, List.dropWhile_cons_of_neg (by simpa using h)]
        simp [add_assoc]

theorem groupCost_pos (g e : ℝ) : 0 < groupCost g e := by
  unfold groupCost
  split
  · norm_num
  · split <;> linarith

/-- a coarser gain never costs more -/
theorem groupCost_anti {g g' : ℝ} (h : g ≤ g') (e : ℝ) : groupCost g' e ≤ groupCost g e := by
  unfold groupCost
  split_ifs <;> linarith

open Classical in
theorem spectrumCost_anti {g g' : ℝ} (h : g ≤ g') (es : List ℝ) : spectrumCost g' es ≤ spectrumCost g es := by
  unfold spectrumCost
  generalize es.reverse = l
  have hsum : ∀ l : List ℝ, (l.map (groupCost g')).sum ≤ (l.map (groupCost g)).sum := by
    intro l
    induction l with
    | nil => simp
    | cons e l ih => simp only [List.map_cons, List.sum_cons]; linarith [groupCost_anti h e]
  have hnn : ∀ l : List ℝ, 0 ≤ (l.map (groupCost g)).sum := by
    intro l
    induction l with
    | nil => simp
    | cons e l ih => simp only [List.map_cons, List.sum_cons]; linarith [groupCost_pos g e]
  have hdw : ∀ l : List ℝ, ((l.dropWhile (fun e => decide (7 / 5 * e < g'))).map (groupCost g)).sum ≤ (l.map (groupCost g)).sum := by
    intro l
    induction l with
    | nil => simp
    | cons e l ih =>
      rw [List.dropWhile_cons]
      split
      · simp only [List.map_cons, List.sum_cons]; linarith [groupCost_pos g e]
      · exact le_refl _
  induction l with
  | nil => simp
  | cons e l ih =>
    by_cases h1 : 7 / 5 * e < g
    · rw [List.dropWhile_cons_of_pos (p := fun e => decide (7 / 5 * e < g)) (by simpa using h1),
        List.dropWhile_cons_of_pos (p := fun e => decide (7 / 5 * e < g')) (by simpa using h1.trans_le h)]
      exact ih
    · rw [List.dropWhile_cons_of_neg (p := fun e => decide (7 / 5 * e < g)) (by simpa using h1)]
      exact (hsum _).trans (hdw _)

theorem ggTooFine_real (es : List ℝ) (adj : Nat) (ggOff ind : Int) :
    ggTooFine es adj ggOff ind = true ↔ TooFine es adj ((ind : ℝ) + (ggOff : ℝ)) := by
  unfold ggTooFine TooFine spectrumCost
  simp only
  rw [real_ofInt, real_ofInt, real_ofInt, show ((zero : ℝ)) = 0 from Rat.cast_zero, (ggEnergy_fold _ _ _).2]
  simp only [zero_add, Bool.and_eq_true, lt_real]
  have hc : (((adj : ℤ) : ℝ)) * (ofRat (7 / 5) : ℝ) * ofRat 28 / ofRat 20 = 7 / 5 * (7 / 5) * adj := by
    show ((adj : ℤ) : ℝ) * ((7 / 5 : ℚ) : ℝ) * ((28 : ℚ) : ℝ) / ((20 : ℚ) : ℝ) = _
    push_cast; ring
  rw [hc]
  constructor
  · rintro ⟨h, -⟩
    convert h
  · intro h
    have h' : _ := h
    refine ⟨by convert h', ?_⟩
    rw [Bool.not_eq_true']
    by_contra hz
    rw [Bool.not_eq_false, List.isEmpty_iff] at hz
    have : (0 : ℝ) ≤ 7 / 5 * (7 / 5) * adj := by positivity
    have hz' : (List.dropWhile (fun e => @decide (7 / 5 * e < (ind : ℝ) + (ggOff : ℝ)) (Classical.propDecidable _)) es.reverse) = [] := by
      convert hz
    rw [hz'] at h
    simp at h
    linarith

/-- bisection with a monotone decision -/
theorem ggSearch_bisect {es : List ℝ} {adj : Nat} {ggOff : Int} (n : Nat) : ∀ ind : Int,
    (∀ i : Int, ind ≤ i → i < 255 → ggTooFine es adj ggOff i = false) →
    (∀ i : Int, i < ind + 1 - 2 ^ n → 0 ≤ i → ggTooFine es adj ggOff i = true) →
    ∀ i : Int, 0 ≤ i → i < 255 → (ggTooFine es adj ggOff i = true ↔ i < ggSearch es adj ggOff n (2 ^ n) ind) := by
  have mono : ∀ i j : Int, i ≤ j → ggTooFine es adj ggOff j = true → ggTooFine es adj ggOff i = true := by
    intro i j hij h
    rw [ggTooFine_real] at h ⊢
    refine lt_of_lt_of_le h (spectrumCost_anti ?_ es)
    have : (i : ℝ) ≤ j := by exact_mod_cast hij
    linarith
  induction n with
  | zero =>
    intro ind h1 h2 i h0 h255
    unfold ggSearch
    constructor
    · intro h
      by_contra hc
      rw [h1 i (by omega) h255] at h
      cases h
    · intro h
      exact h2 i (by simpa using h) h0
  | succ n ih =>
    intro ind h1 h2
    unfold ggSearch
    simp only
    rw [show (2 ^ (n + 1) : Int) / 2 = 2 ^ n by rw [pow_succ]; simp]
    have hp : (2 : Int) ^ (n + 1) = 2 * 2 ^ n := by rw [pow_succ]; ring
    have hpos : (0 : Int) < 2 ^ n := by positivity
    by_cases hb : ggTooFine es adj ggOff (ind - 2 ^ n) = true
    · rw [if_pos hb]
      refine ih _ (fun i h => h1 i (by omega)) ?_
      intro i hi h0
      exact mono i _ (by omega) hb
    · rw [if_neg hb]
      refine ih _ ?_ ?_
      · intro i hi h255
        by_contra hc
        exact hb (mono _ i hi (by simpa using hc))
      · intro i hi h0
        exact h2 i (by omega) h0

/-- **C70** (exact arithmetic) The bisection over the gain index finds the boundary: for every list of energies, every
budget and every offset, the result is in 0..255, every smaller index is too fine for the budget, and every
index from the result on (below 255) is not. -/
theorem C70 (es : List ℝ) (adj : Nat) (ggOff : Int) :
    0 ≤ ggSearch es adj ggOff 8 256 255 ∧ ggSearch es adj ggOff 8 256 255 ≤ 255 ∧
    ∀ i : Int, 0 ≤ i → i < 255 →
      (TooFine es adj ((i : ℝ) + (ggOff : ℝ)) ↔ i < ggSearch es adj ggOff 8 256 255) := by
  obtain ⟨h0, h255⟩ := C26_search es adj ggOff
  refine ⟨h0, h255, fun i hi hi2 => ?_⟩
  rw [← ggTooFine_real]
  exact ggSearch_bisect 8 255 (fun i h1 h2 => by omega) (fun i h1 h2 => by omega) i hi hi2

/-- energies falling from 60 dB to 10 dB, a budget of 20 bits: index 150 (gain 0) is too fine, index 240 is not -/
example : TooFine [60, 40, 10] 20 ((150 : ℤ) + ((-150 : ℤ) : ℝ)) ∧ ¬ TooFine [60, 40, 10] 20 ((240 : ℤ) + ((-150 : ℤ) : ℝ)) := by
  unfold TooFine spectrumCost
  constructor
  · norm_num [groupCost]
  · norm_num [groupCost]

/-! ## The complete run -/

theorem spectralEnergy_real (xf : List ℝ) (n : Nat) : ∀ k, 4 * (k + n) ≤ xf.length →
    spectralEnergy n (xf.drop (4 * k)) = (List.range n).map (fun i => groupEnergy xf (k + i)) := by
  induction n with
  | zero => intro k _; cases xf.drop (4 * k) <;> simp [spectralEnergy]
  | succ n ih =>
    intro k h
    have h0 : 4 * k < xf.length := by omega
    rw [List.drop_eq_getElem_cons h0, List.drop_eq_getElem_cons (show 4 * k + 1 < xf.length by omega),
      List.drop_eq_getElem_cons (show 4 * k + 1 + 1 < xf.length by omega),
      List.drop_eq_getElem_cons (show 4 * k + 1 + 1 + 1 < xf.length by omega)]
    rw [spectralEnergy, show 4 * k + 1 + 1 + 1 + 1 = 4 * (k + 1) by ring, ih (k + 1) (by omega), List.range_succ_eq_map,
      List.map_cons, List.map_map]
    congr 1
    · unfold groupEnergy
      rw [List.getD_eq_getElem _ _ (show 4 * (k + 0) < xf.length by omega),
        List.getD_eq_getElem _ _ (show 4 * (k + 0) + 1 < xf.length by omega),
        List.getD_eq_getElem _ _ (show 4 * (k + 0) + 2 < xf.length by omega),
        List.getD_eq_getElem _ _ (show 4 * (k + 0) + 3 < xf.length by omega)]
      show ((10 : ℚ) : ℝ) * Real.logb 10 (((1 / 8388608 : ℚ) : ℝ) + _) = _
      norm_num
      congr 2
      ring
    · apply List.map_congr_left
      intro i _
      simp only [Function.comp]
      congr 1
      omega

theorem ggOffEnc_rate {nbits fs : Nat} (hn : nbits < 32768) : ggOffEnc nbits fs = gainOffset nbits fs := by
  unfold ggOffEnc gainOffset toI16Wrap
  simp only
  rw [if_pos (by omega), Nat.mod_eq_of_lt (by omega)]
  rw [Int.tdiv_eq_ediv_of_nonneg (by positivity)]
  push_cast
  rfl

/-- the bound of the limiter is the smallest possible one: one index less would leave the 16-bit range -/
theorem ggMin_tight {xf : List ℝ} {ggOff g : Int} (hoff : ggOff < 0) (hlo : -32768 < ggOff)
    (hc : i16Chk (ggMinOf xf ggOff) = .ok g) (hg0 : 0 < g) :
    ∃ x ∈ xf, 32768 < |x| / (10 : ℝ) ^ (((g : ℝ) - 1 + ggOff) / 28) + 3 / 8 := by
  have hg := i16Chk_inv hc
  have hb : ggMinOf xf ggOff ≤ 32767 := by
    unfold i16Chk at hc
    split at hc
    · rename_i h; exact h.2
    · cases hc
  have hl : lt (zero : ℝ) (maxAbs xf) = true := by
    by_contra hcon
    unfold ggMinOf at hg
    rw [if_neg hcon] at hg
    omega
  have hpos : 0 < maxAbs xf := by
    rw [lt_real, show ((zero : ℝ)) = 0 from Rat.cast_zero] at hl
    exact hl
  unfold ggMinOf at hg hb
  rw [if_pos hl] at hg hb
  obtain ⟨y, hy⟩ : ∃ y, y = 28 * Real.logb 10 (maxAbs xf / (32768 - 3 / 8)) := ⟨_, rfl⟩
  have he : (ceilS ((ofRat 28 : ℝ) * log10 (maxAbs xf / (ofRat 32768 - ofRat (3 / 8))))) = ((⌈y⌉ : ℤ) : ℝ) := by
    show ((⌈((28 : ℚ) : ℝ) * Real.logb 10 (maxAbs xf / (((32768 : ℚ) : ℝ) - ((3 / 8 : ℚ) : ℝ)))⌉ : ℤ) : ℝ) = _
    rw [hy]
    norm_num
  rw [he] at hg hb
  have ht : (toI32 (((⌈y⌉ : ℤ) : ℝ)) : ℤ) = max (-2147483648) (min 2147483647 ⌈y⌉) := by
    show realToI32 _ = _
    unfold realToI32
    simp
  unfold toI16 at hg hb
  rw [ht] at hg hb
  have h1 : g - 1 + ggOff < ⌈y⌉ := by omega
  have h2 : ((g - 1 + ggOff : ℤ) : ℝ) < y := Int.lt_ceil.1 h1
  push_cast at h2
  have hmem : ∃ x ∈ xf, |x| = maxAbs xf := by
    rw [maxAbs_real] at hpos ⊢
    have key : ∀ (l : List ℝ) (m : ℝ), l.foldl (fun m x => max m |x|) m = m ∨ ∃ x ∈ l, |x| = l.foldl (fun m x => max m |x|) m := by
      intro l
      induction l with
      | nil => intro m; left; rfl
      | cons z l ih =>
        intro m
        rw [List.foldl_cons]
        rcases ih (max m |z|) with h | ⟨x, hx, h⟩
        · rw [h]
          rcases max_choice m |z| with h' | h'
          · left; exact h'
          · right; exact ⟨z, List.mem_cons_self, h'.symm⟩
        · right; exact ⟨x, List.mem_cons_of_mem _ hx, h⟩
    rcases key xf 0 with h | h
    · rw [h] at hpos; exact absurd hpos (lt_irrefl _)
    · exact h
  obtain ⟨x, hx, hxm⟩ := hmem
  refine ⟨x, hx, ?_⟩
  rw [hxm]
  have hq0 : 0 < maxAbs xf / (32768 - 3 / 8) := by positivity
  have h3 : (10 : ℝ) ^ (((g : ℝ) - 1 + ggOff) / 28) < maxAbs xf / (32768 - 3 / 8) := by
    rw [← Real.lt_logb_iff_rpow_lt (by norm_num) hq0, div_lt_iff₀ (by norm_num)]
    linarith
  have hp : 0 < (10 : ℝ) ^ (((g : ℝ) - 1 + ggOff) / 28) := by positivity
  have h4 : 32768 - 3 / 8 < maxAbs xf / (10 : ℝ) ^ (((g : ℝ) - 1 + ggOff) / 28) := by
    rw [lt_div_iff₀ hp]
    rw [lt_div_iff₀ (by norm_num)] at h3
    linarith
  linarith

theorem ggAdjust_near {fsInd : Nat} {ggInd ggMin g : Int} {spec est : Nat} (hm : ggMin ≤ ggInd)
    (h : ggAdjust ℝ fsInd ggInd ggMin spec est = .ok g) : ggInd - 1 ≤ g ∧ g ≤ ggInd + 2 := by
  unfold ggAdjust at h
  obtain ⟨t1, h1, h⟩ := Res.bind_eq_ok.1 h
  obtain ⟨t2, h2, h⟩ := Res.bind_eq_ok.1 h
  obtain ⟨t3, h3, h⟩ := Res.bind_eq_ok.1 h
  simp only at h
  split at h
  · obtain ⟨g', hg, h⟩ := Res.bind_eq_ok.1 h
    simp only [Res.ok.injEq] at h
    split at hg
    · have := i16Chk_inv hg; omega
    · split at hg
      · have := i16Chk_inv hg; omega
      · have := i16Chk_inv hg; omega
  · simp only [Res.ok.injEq] at h
    omega

/-- the state after a run -/
theorem quantRun_state {ne fsInd nbits nbw ntns nltpf : Nat} {s s' : QuantSt ℝ} {xf : List ℝ} {o : QuantOut ℝ}
    (h : quantRun ne fsInd s xf nbits nbw ntns nltpf = .ok (s', o)) :
    s'.nbitsOffsetOld = nbitsOffset s ∧ s'.nbitsSpecOld = s.nbitsSpecOld := by
  unfold quantRun at h
  split at h
  · cases h
  obtain ⟨spec, hs, h⟩ := Res.bind_eq_ok.1 h
  simp only at h
  split at h
  · cases h
  obtain ⟨⟨reset, ggMin, ggInd⟩, h1, h⟩ := Res.bind_eq_ok.1 h
  simp only at h
  obtain ⟨q0, h2, h⟩ := Res.bind_eq_ok.1 h
  obtain ⟨ggInd', h3, h⟩ := Res.bind_eq_ok.1 h
  obtain ⟨q, h4, h⟩ := Res.bind_eq_ok.1 h
  simp only [Res.ok.injEq, Prod.mk.injEq] at h
  obtain ⟨rfl, -⟩ := h
  exact ⟨rfl, rfl⟩

/-- **C70** (complete run) For every spectrum that is not zero: the transmitted gain index is at least the boundary index of the estimate (for
the energies of the groups of four lines and the budget with the offset of the rate control) minus one, and at most two more,
except where a smaller index would leave the 16-bit range. -/
theorem C70_run {ne fsInd nbits nbw ntns nltpf : Nat} {s s' : QuantSt ℝ} {xf : List ℝ} {o : QuantOut ℝ} (hn : nbits < 32768)
    (hf : fsInd < 5)
    (h : quantRun ne fsInd s xf nbits nbw ntns nltpf = .ok (s', o)) (hx : ∃ x ∈ xf, x ≠ 0) :
    ∃ ind : ℤ, 0 ≤ ind ∧ ind ≤ 255 ∧
      (∀ i : ℤ, 0 ≤ i → i < 255 →
        (TooFine ((List.range (ne / 4)).map (groupEnergy xf)) (min 65535 ⌊(o.nbitsSpec : ℝ) + s'.nbitsOffsetOld + 1 / 2⌋₊)
          ((i : ℝ) + gainOffset nbits fsInd) ↔ i < ind)) ∧
      ind - 1 ≤ o.ggInd ∧
      (o.ggInd ≤ ind + 2 ∨
        ∃ x ∈ xf, 32768 < |x| / (10 : ℝ) ^ (((o.ggInd : ℝ) - 3 + gainOffset nbits fsInd) / 28) + 3 / 8) := by
  obtain ⟨hoff, -⟩ := quantRun_state h
  obtain ⟨hl, -, ind0, reset, ggMin, ggInd, q0, q, h0, h2, -, h3, hq, ho⟩ := quantRun_inv h
  have hen : spectralEnergy (ne / 4) xf = (List.range (ne / 4)).map (groupEnergy xf) := by
    have := spectralEnergy_real xf (ne / 4) 0 (by omega)
    simpa using this
  have hadj : nbitsSpecAdj o.nbitsSpec (nbitsOffset s) = min 65535 ⌊(o.nbitsSpec : ℝ) + s'.nbitsOffsetOld + 1 / 2⌋₊ := by
    rw [hoff]
    unfold nbitsSpecAdj toU16
    rw [real_ofInt]
    show min 65535 (realToUsize (_ + ((1 / 2 : ℚ) : ℝ))) = _
    unfold realToUsize
    push_cast
    omega
  obtain ⟨c0, c1, c2⟩ := C70 (spectralEnergy (ne / 4) xf) (nbitsSpecAdj o.nbitsSpec (nbitsOffset s)) (ggOffEnc nbits fsInd)
  rw [← h0] at c0 c1 c2
  rw [ggOffEnc_rate hn] at c2 h2
  rw [hen, hadj] at c2
  refine ⟨ind0, c0, c1, c2, ?_⟩
  have hneg : gainOffset nbits fsInd < 0 := by
    unfold gainOffset; generalize nbits / (10 * (fsInd + 1)) = d; omega
  have hlo : -32768 < gainOffset nbits fsInd := by
    unfold gainOffset; generalize nbits / (10 * (fsInd + 1)) = d; omega
  have hmz : ¬ eq (maxAbs xf) (zero : ℝ) = true := by
    obtain ⟨x, hx, hne⟩ := hx
    have := (maxAbs_foldl xf 0).2 x hx
    rw [← maxAbs_real] at this
    show ¬ decide (maxAbs xf = ((0 : ℚ) : ℝ)) = true
    have hp : 0 < |x| := abs_pos.2 hne
    simp
    linarith
  unfold ggLimit at h2
  obtain ⟨g, h1, h2⟩ := Res.bind_eq_ok.1 h2
  split at h2
  · rename_i hc
    simp only [Res.ok.injEq, Prod.mk.injEq] at h2
    obtain ⟨-, rfl, rfl⟩ := h2
    rw [Bool.or_eq_true, decide_eq_true_eq] at hc
    rcases hc with hc | hc
    · obtain ⟨n1, n2⟩ := ggAdjust_near (le_refl _) h3
      refine ⟨by omega, .inr ?_⟩
      obtain ⟨x, hx, hb⟩ := ggMin_tight hneg hlo h1 (by omega)
      refine ⟨x, hx, hb.trans_le ?_⟩
      have hle : (10 : ℝ) ^ (((o.ggInd : ℝ) - 3 + gainOffset nbits fsInd) / 28)
          ≤ (10 : ℝ) ^ (((g : ℝ) - 1 + gainOffset nbits fsInd) / 28) := by
        refine Real.rpow_le_rpow_of_exponent_le (by norm_num) ?_
        have : (o.ggInd : ℝ) ≤ g + 2 := by exact_mod_cast n2
        linarith
      have := div_le_div_of_nonneg_left (abs_nonneg x) (by positivity) hle
      linarith
    · exact absurd hc hmz
  · rename_i hc
    simp only [Res.ok.injEq, Prod.mk.injEq] at h2
    obtain ⟨-, rfl, rfl⟩ := h2
    rw [Bool.or_eq_true, decide_eq_true_eq] at hc
    obtain ⟨n1, n2⟩ := ggAdjust_near (by omega) h3
    exact ⟨by omega, .inl (by omega)⟩

/-! ## Rate control -/

/-- the states of the quantiser that a sequence of frames can produce -/
inductive QuantReach (ne fsInd : Nat) : QuantSt ℝ → Prop
  | new : QuantReach ne fsInd QuantSt.new
  | step {s s' : QuantSt ℝ} {xf : List ℝ} {nbits nbw ntns nltpf : Nat} {o : QuantOut ℝ} : QuantReach ne fsInd s →
      quantRun ne fsInd s xf nbits nbw ntns nltpf = .ok (s', o) → QuantReach ne fsInd s'

/-- **C71**, full statement: unless the offset was reset, the offset of the budget follows the recursion of the rate control, with the budget
and the estimate of the previous frame -/
def C71_statement : Prop :=
  ∀ (ne fsInd nbits nbw ntns nltpf nbits' nbw' ntns' nltpf' : Nat) (s s1 s2 : QuantSt ℝ) (xf xf' : List ℝ) (o o' : QuantOut ℝ),
    QuantReach ne fsInd s → quantRun ne fsInd s xf nbits nbw ntns nltpf = .ok (s1, o) → s1.resetOffsetOld = false →
    quantRun ne fsInd s1 xf' nbits' nbw' ntns' nltpf' = .ok (s2, o') →
    s2.nbitsOffsetOld = rateOffset s1.nbitsOffsetOld o.nbitsSpec s1.nbitsEstOld

theorem nbitsOffset_real (s : QuantSt ℝ) :
    nbitsOffset s = if s.resetOffsetOld then 0 else rateOffset s.nbitsOffsetOld s.nbitsSpecOld s.nbitsEstOld := by
  unfold nbitsOffset rateOffset
  rw [real_ofInt, real_ofInt]
  split
  · exact Rat.cast_zero
  · show ((4 / 5 : ℚ) : ℝ) * _ + ((1 / 5 : ℚ) : ℝ) * min ((40 : ℚ) : ℝ) (max ((-40 : ℚ) : ℝ) _) = _
    norm_num

/-- **C71** (the part that holds) In every state a sequence of frames can produce, and for every further frame: the recursion is followed
with the budget zero instead of the one of the previous frame, the offset is between -40 and 0, and the budget
of the estimate is therefore never larger than the real one. Missing: the budget of the previous frame (see `C71_fails`). -/
theorem C71_partial {ne fsInd nbits nbw ntns nltpf : Nat} {s s' : QuantSt ℝ} {xf : List ℝ} {o : QuantOut ℝ}
    (hr : QuantReach ne fsInd s) (h : quantRun ne fsInd s xf nbits nbw ntns nltpf = .ok (s', o)) :
    (s.resetOffsetOld = true → s'.nbitsOffsetOld = 0) ∧
    (s.resetOffsetOld = false → s'.nbitsOffsetOld = rateOffset s.nbitsOffsetOld 0 s.nbitsEstOld) ∧
    -40 ≤ s'.nbitsOffsetOld ∧ s'.nbitsOffsetOld ≤ 0 ∧
    nbitsSpecAdj o.nbitsSpec s'.nbitsOffsetOld ≤ o.nbitsSpec := by
  have key : ∀ s : QuantSt ℝ, s.nbitsSpecOld = 0 → -40 ≤ s.nbitsOffsetOld → s.nbitsOffsetOld ≤ 0 →
      -40 ≤ nbitsOffset s ∧ nbitsOffset s ≤ 0 := by
    intro s h0 h1 h2
    rw [nbitsOffset_real, h0]
    split
    · norm_num
    · unfold rateOffset
      have he : (0 : ℝ) ≤ s.nbitsEstOld := by positivity
      have m1 : min (40 : ℝ) (max (-40) (s.nbitsOffsetOld + (0 : ℕ) - s.nbitsEstOld)) ≤ 0 := by
        refine (min_le_right _ _).trans (max_le (by norm_num) (by push_cast; linarith))
      have m2 : -40 ≤ min (40 : ℝ) (max (-40) (s.nbitsOffsetOld + (0 : ℕ) - s.nbitsEstOld)) :=
        le_min (by norm_num) (le_max_left _ _)
      generalize min (40 : ℝ) (max (-40) (s.nbitsOffsetOld + (0 : ℕ) - s.nbitsEstOld)) = m at m1 m2 ⊢
      constructor <;> linarith
  have inv : ∀ s : QuantSt ℝ, QuantReach ne fsInd s → s.nbitsSpecOld = 0 ∧ -40 ≤ s.nbitsOffsetOld ∧ s.nbitsOffsetOld ≤ 0 := by
    intro s hr
    induction hr with
    | new =>
      refine ⟨rfl, ?_⟩
      show -40 ≤ ((0 : ℚ) : ℝ) ∧ ((0 : ℚ) : ℝ) ≤ 0
      norm_num
    | step _ hrun ih =>
      obtain ⟨h1, h2⟩ := quantRun_state hrun
      rw [h1, h2]
      exact ⟨ih.1, key _ ih.1 ih.2.1 ih.2.2⟩
  obtain ⟨i0, i1, i2⟩ := inv s hr
  obtain ⟨h1, -⟩ := quantRun_state h
  obtain ⟨k1, k2⟩ := key s i0 i1 i2
  rw [h1]
  refine ⟨fun hs => ?_, fun hs => ?_, k1, k2, ?_⟩
  · rw [nbitsOffset_real, if_pos hs]
  · rw [nbitsOffset_real, hs, i0]; simp
  · unfold nbitsSpecAdj toU16
    rw [real_ofInt]
    refine (min_le_right _ _).trans ?_
    show realToUsize (_ + ((1 / 2 : ℚ) : ℝ)) ≤ _
    unfold realToUsize
    refine (min_le_right _ _).trans ?_
    rw [← Nat.lt_add_one_iff]
    apply (Nat.floor_lt' (by omega)).2
    push_cast
    linarith

/-- the witness: a constant spectrum far below the finest gain -/
noncomputable def faintLine : ℝ := (32768 - 3 / 8) * (1 / 10 ^ 15)

theorem faint_max : maxAbs (List.replicate 80 faintLine) = faintLine := by
  have h0 : 0 < faintLine := by unfold faintLine; norm_num
  rw [maxAbs_real]
  have : ∀ n (m : ℝ), m ≤ faintLine → (List.replicate (n + 1) faintLine).foldl (fun m x => max m |x|) m = faintLine := by
    intro n
    induction n with
    | zero => intro m hm; simp [abs_of_pos h0, hm]
    | succ n ih =>
      intro m hm
      rw [List.replicate_succ, List.foldl_cons]
      exact ih _ (by rw [abs_of_pos h0]; exact max_le hm (le_refl _))
  exact this 79 0 h0.le

theorem faint_min : ggMinOf (List.replicate 80 faintLine) (ggOffEnc 320 0) = -278 := by
  have hoff : ggOffEnc 320 0 = -142 := by decide
  have h0 : 0 < faintLine := by unfold faintLine; norm_num
  unfold ggMinOf
  rw [faint_max, hoff, if_pos (by rw [lt_real]; rw [show ((zero : ℝ)) = 0 from Rat.cast_zero]; exact h0)]
  have he : (ceilS ((ofRat 28 : ℝ) * log10 (faintLine / (ofRat 32768 - ofRat (3 / 8))))) = (((-420 : ℤ)) : ℝ) := by
    show ((⌈((28 : ℚ) : ℝ) * Real.logb 10 (faintLine / (((32768 : ℚ) : ℝ) - ((3 / 8 : ℚ) : ℝ)))⌉ : ℤ) : ℝ) = _
    have : faintLine / (((32768 : ℚ) : ℝ) - ((3 / 8 : ℚ) : ℝ)) = (10 : ℝ) ^ (-15 : ℝ) := by
      unfold faintLine
      rw [Real.rpow_neg (by norm_num), show (15 : ℝ) = ((15 : ℕ) : ℝ) by norm_num, Real.rpow_natCast]
      norm_num
    rw [this, Real.logb_rpow (by norm_num) (by norm_num)]
    have : ((28 : ℚ) : ℝ) * (-15) = ((-420 : ℤ) : ℝ) := by push_cast; norm_num
    rw [this, Int.ceil_intCast]
  rw [he]
  have ht : (toI32 (((-420 : ℤ) : ℝ)) : ℤ) = -420 := by
    show realToI32 _ = _
    unfold realToI32
    rw [if_neg (by norm_num), Int.ceil_intCast]
    norm_num
  unfold toI16
  rw [ht]
  norm_num

theorem faint_line {ind : Int} (h : 0 ≤ ind) : quantLine (ggValue ind (-142)) faintLine = 0 := by
  have h0 : 0 < faintLine := by unfold faintLine; norm_num
  have hz : (zero : ℝ) = 0 := Rat.cast_zero
  have hg : (ggValue ind (-142) : ℝ) = (10 : ℝ) ^ (((ind : ℝ) - 142) / 28) := by
    unfold ggValue
    rw [real_ofInt, real_ofInt]
    show (10 : ℝ) ^ (_ / ((28 : ℚ) : ℝ)) = _
    push_cast
    congr 1
  have hge : (10 : ℝ) ^ (-6 : ℝ) ≤ ggValue ind (-142) := by
    rw [hg]
    refine Real.rpow_le_rpow_of_exponent_le (by norm_num) ?_
    have : (0 : ℝ) ≤ ind := by exact_mod_cast h
    rw [le_div_iff₀ (by norm_num)]
    linarith
  have h6 : (10 : ℝ) ^ (-6 : ℝ) = 1 / 10 ^ 6 := by
    rw [Real.rpow_neg (by norm_num), show (6 : ℝ) = ((6 : ℕ) : ℝ) by norm_num, Real.rpow_natCast]
    norm_num
  rw [h6] at hge
  have hp : (0 : ℝ) < ggValue ind (-142) := lt_of_lt_of_le (by norm_num) hge
  have hq : faintLine / ggValue ind (-142) < 1 / 2 := by
    rw [div_lt_iff₀ hp]
    have : faintLine < 1 / 2 * (1 / 10 ^ 6) := by unfold faintLine; norm_num
    linarith
  have hq0 : 0 < faintLine / ggValue ind (-142) := div_pos h0 hp
  unfold quantLine
  rw [if_pos (by rw [geS_real, hz]; exact h0.le)]
  unfold toI16
  have : (toI32 (faintLine / ggValue ind (-142) + (ofRat (3 / 8) : ℝ)) : ℤ) = 0 := by
    show realToI32 (_ + ((3 / 8 : ℚ) : ℝ)) = 0
    unfold realToI32
    push_cast
    rw [if_pos (by linarith), Int.floor_eq_iff.2 (show ((0 : ℤ) : ℝ) ≤ _ ∧ _ < ((0 : ℤ) : ℝ) + 1 from ⟨by push_cast; linarith, by push_cast; linarith⟩)]
    norm_num
  rw [this]
  norm_num

theorem faint_cost (spec : Nat) : ∃ bc, bitConsumption ℝ 80 0 320 spec (List.replicate 80 0) = .ok bc ∧ bc.nbitsEst < 40 := by
  have hl : lastNz 80 (((List.replicate 80 (0 : Int)).take 80).reverse) = 2 := by decide +kernel
  have ht : (List.replicate 80 (0 : Int)).take 2 = [0, 0] := by decide +kernel
  have h1 : ∃ p, idx Tables.AC_SPEC_LOOKUP 512 = .ok p ∧ ∃ row, idx Tables.AC_SPEC_BITS p = .ok row ∧
      ∃ b, idx row 0 = .ok b ∧ b ≤ 20480 := by
    refine ⟨_, idx_eq_ok (by decide +kernel), _, idx_eq_ok (by decide +kernel), _, idx_eq_ok (by decide +kernel), ?_⟩
    decide +kernel
  obtain ⟨p, hp, row, hrow, b, hb, hb2⟩ := h1
  have hbits : bits2048 ℝ b < 40 := by
    unfold bits2048
    rw [real_ofInt]
    show realToUsize ((⌈((b : ℤ) : ℝ) / ((2048 : ℚ) : ℝ)⌉ : ℤ) : ℝ) < 40
    unfold realToUsize
    refine (min_le_right _ _).trans_lt ?_
    rw [Nat.floor_lt' (by norm_num)]
    have : (b : ℝ) ≤ 20480 := by exact_mod_cast hb2
    have hc : ⌈((b : ℤ) : ℝ) / ((2048 : ℚ) : ℝ)⌉ ≤ 10 := by
      rw [Int.ceil_le]
      push_cast
      rw [div_le_iff₀ (by norm_num)]
      linarith
    have : ((⌈((b : ℤ) : ℝ) / ((2048 : ℚ) : ℝ)⌉ : ℤ) : ℝ) ≤ 10 := by exact_mod_cast hc
    exact this.trans_lt (by norm_num)
  unfold bitConsumption
  simp only
  rw [if_neg (by simp), hl, ht, show encRateFlag 320 0 = 512 by decide, show encModeFlag 320 0 = false by decide]
  refine ⟨⟨512, 2, 0, 2, bits2048 ℝ b + 0, bits2048 ℝ 0, false⟩, ?_, by simpa using hbits⟩
  rw [show estPairs ℝ false 512 80 spec [0, 0] 0 ⟨0, 0, 0, 2, 0⟩ = .ok ⟨b, 0, 0, 2, 1⟩ from ?_]
  · rfl
  unfold estPairs
  unfold estEscapes
  simp [hp, hrow, hb, Res.bind_ok]
  unfold estPairs
  rfl

/-- **C71** (the full statement is false) Two frames at 8 kHz with 40 bytes and a spectrum far below the finest gain: the estimate of the
first frame is less than 40 bits, so the recursion raises the budget, but the code lowers it or keeps it,
because `nbits_spec_old` is never written after construction (finding F13). -/
theorem C71_fails : ¬ C71_statement := by
  intro hall
  have hne : (Lc3Config.new .hz8000 .tenMs).ne = 80 := by decide
  have run : ∀ s : QuantSt ℝ, ∃ s' o, quantRun 80 0 s (List.replicate 80 faintLine) 320 0 0 0 = .ok (s', o) := by
    intro s
    have := C44 .hz8000 .tenMs (fsInd := 0) (nbits := 320) (nbw := 0) (ntns := 0) (nltpf := 0) (s := s)
      (xf := List.replicate 80 faintLine) (by norm_num) (by rw [hne]; simp) (by rw [hne]; decide) (by rw [faint_min]; norm_num)
      (by rw [faint_min]; norm_num)
    rwa [hne] at this
  obtain ⟨s1, o1, h1⟩ := run QuantSt.new
  obtain ⟨s2, o2, h2⟩ := run s1
  have hoff : ggOffEnc 320 0 = -142 := by decide
  -- the state after the first frame
  have hst : s1.resetOffsetOld = false ∧ s1.nbitsEstOld < 40 := by
    have h := h1
    unfold quantRun at h
    rw [if_neg (by simp)] at h
    obtain ⟨spec, hs, h⟩ := Res.bind_eq_ok.1 h
    simp only at h
    rw [if_neg (by norm_num)] at h
    obtain ⟨⟨reset, ggMin, ggInd⟩, hlim, h⟩ := Res.bind_eq_ok.1 h
    simp only at h
    obtain ⟨q0, hq, h⟩ := Res.bind_eq_ok.1 h
    obtain ⟨ggInd', h3, h⟩ := Res.bind_eq_ok.1 h
    obtain ⟨q, h4, h⟩ := Res.bind_eq_ok.1 h
    simp only [Res.ok.injEq, Prod.mk.injEq] at h
    obtain ⟨rfl, -⟩ := h
    have hi := (C26_search (spectralEnergy (80 / 4) (List.replicate 80 faintLine))
      (nbitsSpecAdj spec (nbitsOffset (QuantSt.new : QuantSt ℝ))) (ggOffEnc 320 0)).1
    generalize ggSearch (spectralEnergy (80 / 4) (List.replicate 80 faintLine))
      (nbitsSpecAdj spec (nbitsOffset (QuantSt.new : QuantSt ℝ))) (ggOffEnc 320 0) 8 256 255 = ind at hi hlim
    unfold ggLimit at hlim
    rw [faint_min, show i16Chk (-278) = .ok (-278) from rfl, Res.bind_ok, faint_max] at hlim
    have h0 : 0 < faintLine := by unfold faintLine; norm_num
    have hz : eq faintLine (zero : ℝ) = false := by
      show decide (faintLine = ((0 : ℚ) : ℝ)) = false
      simp
      exact h0.ne'
    rw [hz, Bool.or_false, if_neg (by simp; omega)] at hlim
    simp only [Res.ok.injEq, Prod.mk.injEq] at hlim
    obtain ⟨rfl, -, rfl⟩ := hlim
    refine ⟨rfl, ?_⟩
    show q0.bc.nbitsEst < 40
    unfold quantSpectrum at hq
    simp only at hq
    rw [hoff, List.map_replicate, faint_line hi] at hq
    obtain ⟨bc, hbc, hlt⟩ := faint_cost spec
    rw [hbc, Res.bind_ok] at hq
    split at hq
    · simp only [Res.ok.injEq] at hq
      rw [← hq]
      exact hlt
    · cases hq
  have hspec : 0 < o1.nbitsSpec := by
    obtain ⟨-, h, -⟩ := quantRun_inv h1
    have : nbitsFixed 80 320 < 320 := by decide
    omega
  have e2 := hall 80 0 320 0 0 0 320 0 0 0 QuantSt.new s1 s2 _ _ o1 o2 .new h1 hst.1 h2
  obtain ⟨-, p2, -⟩ := C71_partial (.step .new h1) h2
  have p1 : s1.nbitsOffsetOld = 0 := by
    obtain ⟨-, p, -⟩ := C71_partial .new h1
    rw [p rfl]
    show rateOffset ((0 : ℚ) : ℝ) 0 ((0 : ℕ) : ℝ) = 0
    norm_num [rateOffset]
  rw [p2 hst.1, p1] at e2
  unfold rateOffset at e2
  have he : (s1.nbitsEstOld : ℝ) < 40 := by exact_mod_cast hst.2
  have he0 : (0 : ℝ) ≤ s1.nbitsEstOld := by positivity
  have hs : (0 : ℝ) < o1.nbitsSpec := by exact_mod_cast hspec
  rw [max_eq_right (by linarith), min_eq_right (by linarith), max_eq_right (by linarith)] at e2
  have : min (40 : ℝ) (0 + o1.nbitsSpec - s1.nbitsEstOld) = 0 + 0 - s1.nbitsEstOld := by linarith
  rcases min_choice (40 : ℝ) (0 + o1.nbitsSpec - s1.nbitsEstOld) with h | h
  · rw [h] at this; linarith
  · rw [h] at this; linarith

/-- **C71** (consequence) When every frame costs at least 40 bits and none resets the offset, the offset after frame `k + 1` is exactly
`-40 (1 - (4/5)^k)`: the rate control settles 40 bits below the budget whatever the signal is. -/
theorem C71_drift {ne fsInd : Nat} (st : ℕ → QuantSt ℝ) (h0 : st 0 = QuantSt.new)
    (hrun : ∀ k, ∃ xf nbits nbw ntns nltpf o, quantRun ne fsInd (st k) xf nbits nbw ntns nltpf = .ok (st (k + 1), o))
    (hre : ∀ k, (st (k + 1)).resetOffsetOld = false) (hest : ∀ k, 40 ≤ (st (k + 1)).nbitsEstOld) (k : ℕ) :
    (st (k + 1)).nbitsOffsetOld = -40 * (1 - (4 / 5) ^ k) := by
  have hsp : ∀ k, (st k).nbitsSpecOld = 0 := by
    intro k
    induction k with
    | zero => rw [h0]; rfl
    | succ k ih =>
      obtain ⟨_, _, _, _, _, _, h⟩ := hrun k
      rw [(quantRun_state h).2, ih]
  induction k with
  | zero =>
    obtain ⟨_, _, _, _, _, _, h⟩ := hrun 0
    rw [(quantRun_state h).1, h0, nbitsOffset_real]
    show (if false = true then (0 : ℝ) else rateOffset ((0 : ℚ) : ℝ) ((0 : ℕ) : ℝ) ((0 : ℕ) : ℝ)) = _
    norm_num [rateOffset]
  | succ k ih =>
    obtain ⟨_, _, _, _, _, _, h⟩ := hrun (k + 1)
    rw [(quantRun_state h).1, nbitsOffset_real, hre k, hsp, ih]
    simp only [Bool.false_eq_true, if_false]
    unfold rateOffset
    have he : (40 : ℝ) ≤ (st (k + 1)).nbitsEstOld := by exact_mod_cast hest k
    have hp : (4 / 5 : ℝ) ^ k ≤ 1 := pow_le_one₀ (by norm_num) (by norm_num)
    rw [max_eq_left (by push_cast; linarith), min_eq_right (by norm_num), pow_succ]
    ring

/-- the condition of C44 on the side information is needed: otherwise the subtraction of the budget underflows -/
theorem C44_underflow {α : Type} [Scalar α] {ne fsInd nbits nbw ntns nltpf : Nat} {s : QuantSt α} {xf : List α} (hl : xf.length = ne)
    (hb : nbits < nbw + ntns + nltpf + nbitsFixed ne nbits) : quantRun ne fsInd s xf nbits nbw ntns nltpf = .panic := by
  unfold quantRun
  rw [if_neg (by simpa using hl)]
  have : bitBudget ne nbits nbw ntns nltpf = .panic := by
    unfold bitBudget usub
    rw [if_neg (by omega)]
  rw [this]
  rfl

/-- 48 kHz, 10 ms, frames of 7 bytes -/
example : 56 < 3 + 1 + 1 + nbitsFixed 400 56 := by decide

/-! ## Adjustment -/

theorem ggDelta_spec {fsInd est : Nat} (hf : fsInd < 5) {t1 t2 t3 : Nat} (h1 : idx GG_T1 fsInd = .ok t1)
    (h2 : idx GG_T2 fsInd = .ok t2) (h3 : idx GG_T3 fsInd = .ok t3) :
    (ggDelta t1 t2 t3 est : ℝ) = (tolerance fsInd est : ℝ) := by
  have e1 : t1 = 80 + 150 * fsInd := by
    interval_cases fsInd <;> simp [GG_T1, idx] at h1 <;> omega
  have e2 : t2 = 500 + 525 * fsInd := by
    interval_cases fsInd <;> simp [GG_T2, idx] at h2 <;> omega
  have e3 : t3 = 850 * (fsInd + 1) := by
    interval_cases fsInd <;> simp [GG_T3, idx] at h3 <;> omega
  unfold ggDelta tolerance
  show ((⌊ggDelta0 t1 t2 t3 est + ((1 / 2 : ℚ) : ℝ)⌋ : ℤ) : ℝ) = _
  have : (ggDelta0 t1 t2 t3 est : ℝ) = tolerance0 fsInd est := by
    have p1 : (t1 : ℝ) = 80 + 150 * fsInd := by rw [e1]; push_cast; ring
    have p2 : (t2 : ℝ) = 500 + 525 * fsInd := by rw [e2]; push_cast; ring
    have p3 : (t3 : ℝ) = 850 * (fsInd + 1) := by rw [e3]; push_cast; ring
    unfold ggDelta0 tolerance0
    simp only [real_ofInt]
    rw [← p1, ← p2, ← p3]
    simp only [Nat.cast_lt]
    have c48 : (ofRat 48 : ℝ) = 48 := by show ((48 : ℚ) : ℝ) = 48; norm_num
    have c16 : (ofRat 16 : ℝ) = 16 := by show ((16 : ℚ) : ℝ) = 16; norm_num
    have c3 : (ofRat 3 : ℝ) = 3 := by show ((3 : ℚ) : ℝ) = 3; norm_num
    rw [c48, c16, c3]
    push_cast
    have hne : (t2 : ℝ) - t1 ≠ 0 := by
      rw [p1, p2]
      have : (0 : ℝ) ≤ fsInd := by positivity
      have : (0 : ℝ) < 500 + 525 * fsInd - (80 + 150 * fsInd) := by linarith
      exact this.ne'
    split
    · ring
    · split
      · field_simp
        ring
      · rfl
  rw [this]
  push_cast
  rfl

theorem tolerance_nonneg {fs : Nat} (est : Nat) : 0 ≤ tolerance fs est := by
  unfold tolerance
  rw [Int.le_floor]
  have hf : (0 : ℝ) ≤ fs := by positivity
  have he : (0 : ℝ) ≤ est := by positivity
  have : 0 ≤ tolerance0 fs est := by
    unfold tolerance0
    simp only
    split
    · positivity
    · rename_i h1
      split
      · rename_i h2
        have hd : (0 : ℝ) < 500 + 525 * fs - (80 + 150 * fs) := by linarith
        obtain ⟨w, hw⟩ : ∃ w, w = ((est : ℝ) - (80 + 150 * fs)) / (500 + 525 * fs - (80 + 150 * fs)) := ⟨_, rfl⟩
        rw [← hw]
        have w0 : 0 ≤ w := by rw [hw]; apply div_nonneg <;> linarith
        have w1 : w ≤ 1 := by rw [hw, div_le_one hd]; linarith
        have a0 : (0 : ℝ) ≤ 3 + (80 + 150 * fs) / 16 := by positivity
        have b0 : (0 : ℝ) ≤ (500 + 525 * fs) / 48 := by positivity
        nlinarith
      · split <;> positivity
  push_cast
  linarith

/-- **C72** (exact arithmetic) The adjustment of the gain index is the specified one: for every index, bound, budget and estimate. In particular
the index is kept while the estimate is in the window from the budget minus the tolerance minus two up to the budget. -/
theorem C72 {fsInd : Nat} {ggInd ggMin g : Int} {spec est : Nat} (hf : fsInd < 5)
    (h : ggAdjust ℝ fsInd ggInd ggMin spec est = .ok g) : g = adjusted fsInd ggInd ggMin spec est := by
  unfold ggAdjust at h
  obtain ⟨t1, h1, h⟩ := Res.bind_eq_ok.1 h
  obtain ⟨t2, h2, h⟩ := Res.bind_eq_ok.1 h
  obtain ⟨t3, h3, h⟩ := Res.bind_eq_ok.1 h
  simp only at h
  rw [ggDelta_spec hf h1 h2 h3] at h
  have ht := tolerance_nonneg (fs := fsInd) est
  obtain ⟨t, hte⟩ : ∃ t, t = tolerance fsInd est := ⟨_, rfl⟩
  have c2 : (ofRat 2 : ℝ) = 2 := by show ((2 : ℚ) : ℝ) = 2; norm_num
  have hlow : lt (ofInt est : ℝ) (ofInt spec - ((t : ℝ) + ofRat 2)) = decide ((est : ℤ) + t + 2 < spec) := by
    rw [Bool.eq_iff_iff, lt_real, decide_eq_true_eq, real_ofInt, real_ofInt, c2]
    constructor
    · intro h
      have : ((est : ℤ) : ℝ) + t + 2 < ((spec : ℤ) : ℝ) := by linarith
      exact_mod_cast this
    · intro h
      have : ((est : ℤ) : ℝ) + t + 2 < ((spec : ℤ) : ℝ) := by exact_mod_cast h
      linarith
  have hup : lt (ofInt est : ℝ) (ofInt spec + (t : ℝ)) = decide ((est : ℤ) < spec + t) := by
    rw [Bool.eq_iff_iff, lt_real, decide_eq_true_eq, real_ofInt, real_ofInt]
    constructor
    · intro h; exact_mod_cast h
    · intro h; exact_mod_cast h
  unfold adjusted
  rw [← hte] at h ht ⊢
  rw [hlow, hup] at h
  simp only [decide_eq_true_eq] at h
  by_cases hl : (est : ℤ) + t + 2 < spec
  · by_cases hi : 0 < ggInd
    · rw [if_pos (.inr ⟨by omega, hl⟩), if_pos hl] at h
      obtain ⟨g', hg, h⟩ := Res.bind_eq_ok.1 h
      have := i16Chk_inv hg
      simp only [Res.ok.injEq] at h
      rw [if_pos ⟨hi, hl⟩]
      omega
    · rw [if_neg (by omega)] at h
      simp only [Res.ok.injEq] at h
      rw [if_neg (by omega), if_neg (by omega)]
      omega
  · rw [if_neg (fun hc => hl hc.2)]
    by_cases hc : ggInd < 255 ∧ spec < est
    · rw [if_pos (.inl ⟨hc.1, by omega⟩), if_neg hl] at h
      obtain ⟨g', hg, h⟩ := Res.bind_eq_ok.1 h
      simp only [Res.ok.injEq] at h
      rw [if_pos hc]
      split at hg
      · rename_i hd
        rw [if_pos hd]
        have := i16Chk_inv hg
        omega
      · rename_i hd
        rw [if_neg hd]
        have := i16Chk_inv hg
        omega
    · rw [if_neg (by omega)] at h
      simp only [Res.ok.injEq] at h
      rw [if_neg hc]
      omega

/-- index 100, budget 300, estimate 280 at 8 kHz: the tolerance is 9, the estimate is below the budget by 20 bits, the index falls to 99 -/
example : adjusted 0 100 0 300 280 = 99 := by
  have : tolerance 0 280 = 9 := by
    unfold tolerance tolerance0
    norm_num
  unfold adjusted
  rw [this]
  norm_num

end Lc3
