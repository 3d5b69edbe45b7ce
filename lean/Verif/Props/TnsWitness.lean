import Verif.Props.Tns
import Verif.Lemmas.TnsCast
/-! # C15: the two cases in which the decoder does not undo the encoder's noise shaping -/

namespace Lc3
open Scalar

/-! ### the quantiser of the coefficients in exact arithmetic -/

theorem tnsToInt_round {v : ℝ} {m : Int} (h1 : (m : ℝ) - 1 / 2 < v) (h2 : v < m + 1 / 2) (hl : -120 ≤ m) (hu : m ≤ 120) :
    tnsToInt v = m := by
  have hc : ∀ w : ℝ, (if 0 ≤ w then ⌊w⌋ else ⌈w⌉) = m → toI8 w = m := by
    intro w hw
    show max (-128) (min 127 (max (-2147483648) (min 2147483647 (if 0 ≤ w then ⌊w⌋ else ⌈w⌉)))) = m
    rw [hw]
    omega
  have hhalf : (ofRat (1 / 2) : ℝ) = 1 / 2 := by
    show (((1 / 2 : ℚ)) : ℝ) = _
    push_cast; rfl
  have hge : geS v zero = (open Classical in decide ((0 : ℝ) ≤ v)) := by
    show (open Classical in (decide (((0 : ℚ) : ℝ) < v) || decide (v = ((0 : ℚ) : ℝ)))) = _
    rw [Rat.cast_zero]
    by_cases h : (0 : ℝ) ≤ v
    · rcases h.lt_or_eq with h' | h'
      · simp [h', h]
      · simp [← h']
    · simp only [h, decide_false, Bool.or_eq_false_iff, decide_eq_false_iff_not]
      exact ⟨fun h' => h h'.le, fun h' => h (by rw [h'])⟩
  unfold tnsToInt
  rw [hhalf, hge]
  by_cases h : (0 : ℝ) ≤ v
  · rw [if_pos (by simpa using h)]
    apply hc
    rw [if_pos (by linarith), Int.floor_eq_iff]
    constructor <;> linarith
  · rw [if_neg (by simpa using h)]
    apply hc
    rw [if_neg (by linarith), Int.ceil_eq_iff]
    constructor <;> linarith

/-- the index of a coefficient whose arc sine is within half a step of `m` steps -/
theorem tnsIndex_round {q : ℝ} {m : Int} (h1 : (m - 1 / 2) * (Real.pi / 17) < Real.arcsin q)
    (h2 : Real.arcsin q < (m + 1 / 2) * (Real.pi / 17)) (hl : -8 ≤ m) (hu : m ≤ 8) : tnsIndex q = .ok (m + 8).toNat := by
  have hp := Real.pi_pos
  unfold tnsIndex
  have e : tnsToInt (asin q / piOver17) = m := by
    apply tnsToInt_round _ _ (by omega) (by omega)
    · show (m : ℝ) - 1 / 2 < Real.arcsin q / (Real.pi / 17)
      rw [lt_div_iff₀ (by positivity)]; exact h1
    · show Real.arcsin q / (Real.pi / 17) < (m : ℝ) + 1 / 2
      rw [div_lt_iff₀ (by positivity)]; exact h2
  rw [e]
  unfold i8Chk
  rw [if_pos (by omega), Res.bind_ok]
  unfold i32AsUsize
  rw [Int.emod_eq_of_lt (by omega) (by omega)]

/-- a coefficient below 0.058 has the index 8 -/
theorem tnsIndex_small {q : ℝ} (h : |q| < 58 / 1000) : tnsIndex q = .ok 8 := by
  have hp := Real.pi_pos
  have hs : (58 / 1000 : ℝ) < Real.sin (Real.pi / 34) := by
    have := Real.mul_le_sin (x := Real.pi / 34) (by positivity) (by linarith)
    have e : 2 / Real.pi * (Real.pi / 34) = 1 / 17 := by field_simp; norm_num
    rw [e] at this
    linarith
  obtain ⟨h1, h2⟩ := abs_lt.1 h
  have hs1 := Real.sin_le_one (Real.pi / 34)
  have := @tnsIndex_round q 0 (by
    rw [show ((0 : Int) : ℝ) = 0 by norm_num]
    rw [Real.lt_arcsin_iff_sin_lt ⟨by linarith, by linarith⟩ ⟨by linarith, by linarith⟩]
    rw [show (0 - 1 / 2) * (Real.pi / 17) = -(Real.pi / 34) by ring, Real.sin_neg]
    linarith) (by
    rw [show ((0 : Int) : ℝ) = 0 by norm_num]
    rw [Real.arcsin_lt_iff_lt_sin ⟨by linarith, by linarith⟩ ⟨by linarith, by linarith⟩]
    rw [show (0 + 1 / 2) * (Real.pi / 17) = Real.pi / 34 by ring]
    linarith) (by omega) (by omega)
  exact this

/-- coefficients around -0.67 have the index 4 -/
theorem tnsIndex_four {q : ℝ} (h1 : -(68 / 100) < q) (h2 : q < -(65 / 100)) : tnsIndex q = .ok 4 := by
  have hp := Real.pi_gt_d2
  have hp2 := Real.pi_lt_d2
  have hs : (68 / 100 : ℝ) < Real.sin (9 / 2 * (Real.pi / 17)) := by
    have := Real.sin_gt_sub_cube (x := 9 / 2 * (Real.pi / 17)) (by linarith)
    have hx1 : (83 / 100 : ℝ) < 9 / 2 * (Real.pi / 17) := by linarith
    have hx2 : 9 / 2 * (Real.pi / 17) < (834 / 1000 : ℝ) := by linarith
    have hc : (9 / 2 * (Real.pi / 17)) ^ 3 < (834 / 1000 : ℝ) ^ 3 := pow_lt_pow_left₀ hx2 (by linarith) (by norm_num)
    norm_num at hc
    linarith
  have hs2 : Real.sin (7 / 2 * (Real.pi / 17)) < 65 / 100 := by
    have := Real.sin_lt (x := 7 / 2 * (Real.pi / 17)) (by linarith)
    linarith
  have := @tnsIndex_round q (-4) (by
    rw [show (((-4 : Int) : ℝ) - 1 / 2) * (Real.pi / 17) = -(9 / 2 * (Real.pi / 17)) by push_cast; ring]
    rw [Real.lt_arcsin_iff_sin_lt ⟨by linarith, by linarith⟩ ⟨by linarith, by linarith⟩, Real.sin_neg]
    linarith) (by
    rw [show (((-4 : Int) : ℝ) + 1 / 2) * (Real.pi / 17) = -(7 / 2 * (Real.pi / 17)) by push_cast; ring]
    rw [Real.arcsin_lt_iff_lt_sin ⟨by linarith, by linarith⟩ ⟨by linarith, by linarith⟩, Real.sin_neg]
    linarith) (by omega) (by omega)
  exact this

/-! ### 10 ms frames with bandwidth index 2 -/

/-- the coefficients of the analysis in rational numbers; empty if it panics -/
def tnsRcQ (x : List ℚ) (sub : List (Nat × Nat)) : List ℚ :=
  match @tnsCorr ℚ ratTns x sub with
  | .ok r => @tnsAnalysis ℚ ratTns r false 0
  | _ => []

theorem mapM_ok_of_forall₂ {β γ : Type} {f : β → Res γ} {l : List β} {r : List γ}
    (h : List.Forall₂ (fun a b => f a = .ok b) l r) : l.mapM f = .ok r := by
  induction h with
  | nil => rfl
  | cons h1 _ ih => rw [List.mapM_cons, h1, Res.bind_ok, ih]; rfl

/-- spectra whose first coefficient is around -0.67 and whose other coefficients are small -/
theorem tnsFilterInts_pulse {x : List ℚ} {sub : List (Nat × Nat)} (h : (tnsRcQ x sub).length = 8 ∧
    (-(68 / 100) < (tnsRcQ x sub).getD 0 0 ∧ (tnsRcQ x sub).getD 0 0 < -(65 / 100)) ∧
    ∀ q ∈ (tnsRcQ x sub).drop 1, -(58 / 1000) < q ∧ q < 58 / 1000) :
    tnsFilterInts (castL x) false 0 sub = .ok [4, 8, 8, 8, 8, 8, 8, 8] := by
  obtain ⟨g1, g2, g3⟩ := h
  unfold tnsRcQ at g1 g2 g3
  unfold tnsFilterInts tnsCorr
  cases h1 : @tnsCorr ℚ ratTns x sub with
  | err | panic => rw [h1] at g1; simp at g1
  | ok r =>
  rw [h1] at g1 g2 g3
  simp only at g1 g2 g3
  rw [tnsCorrFrom_cast _ _ _ _ _ h1, Res.bind_ok, tnsAnalysis_cast]
  apply mapM_ok_of_forall₂
  obtain ⟨q0, qs, hq⟩ : ∃ q0 qs, @tnsAnalysis ℚ ratTns r false 0 = q0 :: qs := by
    cases h : @tnsAnalysis ℚ ratTns r false 0 with
    | nil => rw [h] at g1; simp at g1
    | cons a l => exact ⟨a, l, rfl⟩
  rw [hq] at g1 g2 g3 ⊢
  simp only [List.getD_cons_zero, List.drop_succ_cons, List.drop_zero] at g2 g3
  have hs : ∀ q ∈ qs, tnsIndex (q : ℝ) = .ok 8 := fun q hqm => by
    obtain ⟨a, b⟩ := g3 q hqm
    apply tnsIndex_small
    rw [abs_lt]
    constructor
    · have : ((-(58 / 1000) : ℚ) : ℝ) < (q : ℝ) := Rat.cast_lt.2 a
      push_cast at this
      exact this
    · have : (q : ℝ) < ((58 / 1000 : ℚ) : ℝ) := Rat.cast_lt.2 b
      push_cast at this
      exact this
  refine .cons ?_ ?_
  · apply tnsIndex_four
    · have : ((-(68 / 100) : ℚ) : ℝ) < (q0 : ℝ) := Rat.cast_lt.2 g2.1
      push_cast at this
      exact this
    · have : (q0 : ℝ) < ((-(65 / 100) : ℚ) : ℝ) := Rat.cast_lt.2 g2.2
      push_cast at this
      exact this
  · have hl : qs.length = 7 := by simpa using g1
    rw [show [8, 8, 8, 8, 8, 8, 8] = List.replicate 7 8 by rfl, ← hl]
    clear hq g1 g3 hl
    induction qs with
    | nil => exact .nil
    | cons a l ih => exact .cons (hs a (by simp)) (ih fun q hq => hs q (by simp [hq]))

/-- the decaying pulse used in the concrete spectra -/
def tnsPulse : List ℚ := [32, 48, 72, 108, 162, 243]

/-- three decaying pulses in the three parts of the band; the last one ends on line 199 -/
def bandWitness : List ℚ :=
  List.replicate 12 0 ++ tnsPulse ++ List.replicate 70 0 ++ tnsPulse ++ List.replicate 100 0 ++ tnsPulse ++ List.replicate 40 0

set_option maxRecDepth 20000 in
/-- the indices of the filter -/
theorem bandWitness_ints : tnsFilterInts (castL bandWitness) false 0 [(12, 88), (88, 164), (164, 240)] = .ok [4, 8, 8, 8, 8, 8, 8, 8] :=
  tnsFilterInts_pulse (by decide +kernel)

theorem encLatticeLine_one (r x : ℝ) (st : List ℝ) : encLatticeLine [r] x st = (x + r * at0 st 0, x :: st.drop 1) := rfl

theorem encLatticeBand_one (r y : ℝ) : ∀ (xs st : List ℝ), (encLatticeBand [r] (xs ++ [y]) st).2.head? = some y
  | [], st => rfl
  | x :: xs, st => by
    rw [List.cons_append]
    unfold encLatticeBand
    simp only
    exact encLatticeBand_one r y xs _

/-- 24 kHz, 10 ms -/
def witnessCfg : Lc3Config := Lc3Config.new .hz24000 .tenMs

/-- the encoder's noise shaping of `bandWitness`: one filter of order 1 with the index 4 -/
theorem bandWitness_run : ∃ n, tnsEncRun witnessCfg (castL bandWitness) 2 800 false = .ok ⟨n, 0, 1, [1, 0],
    [4, 8, 8, 8, 8, 8, 8, 8] ++ List.replicate 8 8,
    (castL bandWitness).take 12 ++ (encLatticeBand [tnsQuant 4] (((castL bandWitness).take 200).drop 12) (List.replicate 8 zero)).1
      ++ (castL bandWitness).drop 200⟩ := by
  have hl : (castL bandWitness).length = 240 := by rw [castL_length]; rfl
  obtain ⟨n, hn⟩ : ∃ n, tnsFilterBits ℝ 0 [4, 8, 8, 8, 8, 8, 8, 8] = .ok n := ⟨_, rfl⟩
  refine ⟨n + 0, ?_⟩
  unfold tnsEncRun
  rw [if_neg (by rw [hl]; decide)]
  have hp : tnsParams witnessCfg.nMs 2 = .ok ⟨1, [(12, 200)], [[(12, 88), (88, 164), (164, 240)]]⟩ := rfl
  have hw : lpcWeightingOf witnessCfg.nMs 800 = 0 := rfl
  rw [hp, Res.bind_ok]
  simp only
  rw [hw, List.mapM_cons, bandWitness_ints, Res.bind_ok, List.mapM_nil]
  generalize castL bandWitness = x at hl ⊢
  show (do
    let bits ← [[4, 8, 8, 8, 8, 8, 8, 8]].mapM (tnsFilterBits ℝ 0)
    let lines ← tnsFilterLoop [(12, 200)] [[tnsQuant 4]] x (List.replicate 8 zero)
    Res.ok (⟨bits.sum, 0, 1, [1, 0], [4, 8, 8, 8, 8, 8, 8, 8] ++ List.replicate 8 8, lines⟩ : TnsResult ℝ)) = _
  rw [List.mapM_cons, hn, Res.bind_ok, List.mapM_nil]
  show (do
    let lines ← tnsFilterLoop [(12, 200)] [[tnsQuant 4]] x (List.replicate 8 zero)
    Res.ok (⟨n + 0, 0, 1, [1, 0], [4, 8, 8, 8, 8, 8, 8, 8] ++ List.replicate 8 8, lines⟩ : TnsResult ℝ)) = _
  unfold tnsFilterLoop
  rw [if_pos (by decide), sliceR_ok (by omega) (by omega)]
  rfl

theorem sin_four_ne : (tnsQuant 4 : ℝ) < 0 := by
  have hp := Real.pi_pos
  have h : Real.sin (4 * (Real.pi / 17)) > 0 := Real.sin_pos_of_pos_of_lt_pi (by positivity) (by linarith)
  show Real.sin (Real.pi / 17 * ((((4 : Nat) : Int) : ℚ) - ((8 : ℚ) : ℝ))) < 0
  have : Real.pi / 17 * ((((4 : Nat) : Int) : ℚ) - ((8 : ℚ) : ℝ)) = -(4 * (Real.pi / 17)) := by push_cast; ring
  rw [this, Real.sin_neg]
  linarith

theorem castL_bandWitness_split : ∃ l : List ℝ, ((castL bandWitness).take 200).drop 12 = l ++ [243] ∧
    ((castL bandWitness).take 240).drop 200 = 0 :: List.replicate 39 0 ∧ (castL bandWitness)[200]? = some 0 := by
  refine ⟨castL (((bandWitness).take 199).drop 12), ?_, ?_, ?_⟩
  · have : (bandWitness.take 200).drop 12 = (bandWitness.take 199).drop 12 ++ [243] := by decide +kernel
    unfold castL
    rw [← List.map_take, ← List.map_drop, this, List.map_append]
    simp
  · have : (bandWitness.take 240).drop 200 = List.replicate 40 0 := by decide +kernel
    unfold castL
    rw [← List.map_take, ← List.map_drop, this, List.map_replicate]
    simp [List.replicate]
  · have : bandWitness[200]? = some 0 := by decide +kernel
    unfold castL
    rw [List.getElem?_map, this]
    simp

/-- **C15 is false**: 24 kHz, 10 ms, bandwidth index 2. The encoder leaves line 200 alone, the decoder changes it. -/
theorem C15_fails : ¬ C15_statement := by
  intro h
  obtain ⟨n, hn⟩ := bandWitness_run
  have hd := h _ _ _ _ _ _ ([4, 8, 8, 8, 8, 8, 8, 8] ++ List.replicate 8 8) hn (by
    intro f o k hf hk
    match f with
    | 0 =>
      simp only [List.getElem?_cons_zero, Option.some.injEq] at hf
      obtain rfl : k = 0 := by omega
      exact ⟨4, rfl, rfl⟩
    | 1 =>
      simp only [List.getElem?_cons_succ, List.getElem?_cons_zero, Option.some.injEq] at hf
      omega
    | f + 2 => simp at hf)
  have hl : (castL bandWitness).length = 240 := by rw [castL_length]; rfl
  unfold tnsDecode at hd
  simp only at hd
  split at hd
  · simp at hd
  split at hd
  · simp at hd
  have hrc : ∀ j, j < [(tnsQuant 4 : ℝ)].length →
      (rcQuant ([4, 8, 8, 8, 8, 8, 8, 8] ++ List.replicate 8 8))[j + 0 * 8]? = [(tnsQuant 4 : ℝ)][j]? := by
    intro j hj
    obtain rfl : j = 0 := by simpa using hj
    rw [rcQuant_getElem (v := 4) (by omega) rfl, rcQuantOf_eq (by omega)]
    rfl
  obtain ⟨v, st', hr, hv, hb⟩ := bw2_decode (by simp) (by simp) hrc (by omega) hd
  obtain ⟨l, e1, e2, e3⟩ := castL_bandWitness_split
  rw [e1, e2] at hb
  unfold latticeBand at hb
  rw [Res.bind_eq_ok] at hb
  obtain ⟨⟨t, st1⟩, ht, hb⟩ := hb
  simp only at hb
  rw [Res.bind_eq_ok] at hb
  obtain ⟨⟨v', st2⟩, _, hb⟩ := hb
  simp only [Res.ok.injEq, Prod.mk.injEq] at hb
  -- the line that the decoder puts at 200
  have hst := encLatticeBand_one (tnsQuant 4) 243 l (List.replicate 8 zero)
  generalize (encLatticeBand [(tnsQuant 4 : ℝ)] (l ++ [243]) (List.replicate 8 zero)).2 = st at ht hst
  have hst0 : st[0]? = some 243 := by rw [← List.head?_eq_getElem?]; exact hst
  unfold latticeLine at ht
  simp only [List.length_cons, List.length_nil, Nat.zero_add, Nat.sub_self] at ht
  have hr0 := hrc 0 (by simp)
  simp only [Nat.zero_mul, Nat.add_zero] at ht hr0
  rw [idx_ok_iff.2 (hr0.trans rfl), Res.bind_ok, idx_ok_iff.2 hst0, Res.bind_ok] at ht
  unfold latticeLoop at ht
  rw [Res.bind_ok] at ht
  simp only at ht
  rw [Res.bind_eq_ok] at ht
  obtain ⟨s, _, ht⟩ := ht
  simp only [Res.ok.injEq, Prod.mk.injEq] at ht
  have ht0 : t = 0 - tnsQuant 4 * 243 := ht.1.symm
  have hx200 : (List.take 200 (castL bandWitness)).length = 200 := by rw [List.length_take]; omega
  rw [hr, ← hb.1, List.append_assoc, List.getElem?_append_right (by omega), hx200] at e3
  simp only [Nat.sub_self, List.cons_append, List.getElem?_cons_zero, Option.some.injEq] at e3
  have := sin_four_ne
  rw [e3] at ht0
  linarith

/-- 16 kHz, bandwidth index 1: three decaying pulses in the three parts of the band -/
def goodWitness : List ℚ :=
  List.replicate 12 0 ++ tnsPulse ++ List.replicate 43 0 ++ tnsPulse ++ List.replicate 43 0 ++ tnsPulse ++ List.replicate 44 0

set_option maxRecDepth 20000 in
/-- the hypotheses of `C15_partial` are met by an active filter: 16 kHz, 10 ms, bandwidth index 1, order 1, index 4 -/
example : ∃ res, tnsEncRun (Lc3Config.new .hz16000 .tenMs) (castL goodWitness) 1 800 false = .ok res ∧ res.rcOrder = [1, 0] ∧
    Spec.TnsSent res.rcOrder res.rcI [4, 0, 0, 0, 0, 0, 0, 0] ∧ ¬ ((Lc3Config.new .hz16000 .tenMs).nMs = .tenMs ∧ 1 = 2) ∧
    Spec.TnsNoZero res.rcOrder [4, 0, 0, 0, 0, 0, 0, 0] := by
  have hl : (castL goodWitness).length = 160 := by rw [castL_length]; rfl
  have hi : tnsFilterInts (castL goodWitness) false 0 [(12, 61), (61, 110), (110, 160)] = .ok [4, 8, 8, 8, 8, 8, 8, 8] :=
    tnsFilterInts_pulse (by decide +kernel)
  obtain ⟨n, hn⟩ : ∃ n, tnsFilterBits ℝ 0 [4, 8, 8, 8, 8, 8, 8, 8] = .ok n := ⟨_, rfl⟩
  refine ⟨⟨n + 0, 0, 1, [1, 0], [4, 8, 8, 8, 8, 8, 8, 8] ++ List.replicate 8 8,
    (castL goodWitness).take 12 ++ (encLatticeBand [tnsQuant 4] (((castL goodWitness).take 160).drop 12) (List.replicate 8 zero)).1
      ++ (castL goodWitness).drop 160⟩, ?_, rfl, ?_, by omega, ?_⟩
  · unfold tnsEncRun
    rw [if_neg (by rw [hl]; decide)]
    have hp : tnsParams (Lc3Config.new .hz16000 .tenMs).nMs 1 = .ok ⟨1, [(12, 160)], [[(12, 61), (61, 110), (110, 160)]]⟩ := rfl
    have hw : lpcWeightingOf (Lc3Config.new .hz16000 .tenMs).nMs 800 = 0 := rfl
    rw [hp, Res.bind_ok]
    simp only
    rw [hw, List.mapM_cons, hi, Res.bind_ok, List.mapM_nil]
    generalize castL goodWitness = x at hl ⊢
    show (do
      let bits ← [[4, 8, 8, 8, 8, 8, 8, 8]].mapM (tnsFilterBits ℝ 0)
      let lines ← tnsFilterLoop [(12, 160)] [[tnsQuant 4]] x (List.replicate 8 zero)
      Res.ok (⟨bits.sum, 0, 1, [1, 0], [4, 8, 8, 8, 8, 8, 8, 8] ++ List.replicate 8 8, lines⟩ : TnsResult ℝ)) = _
    rw [List.mapM_cons, hn, Res.bind_ok, List.mapM_nil]
    show (do
      let lines ← tnsFilterLoop [(12, 160)] [[tnsQuant 4]] x (List.replicate 8 zero)
      Res.ok (⟨n + 0, 0, 1, [1, 0], [4, 8, 8, 8, 8, 8, 8, 8] ++ List.replicate 8 8, lines⟩ : TnsResult ℝ)) = _
    unfold tnsFilterLoop
    rw [if_pos (by decide), sliceR_ok (by omega) (by omega)]
    rfl
  · intro f o k hf hk
    match f with
    | 0 =>
      simp only [List.getElem?_cons_zero, Option.some.injEq] at hf
      obtain rfl : k = 0 := by omega
      exact ⟨4, rfl, rfl⟩
    | 1 =>
      simp only [List.getElem?_cons_succ, List.getElem?_cons_zero, Option.some.injEq] at hf
      omega
    | f + 2 => simp at hf
  · intro f o k hf hk
    match f with
    | 0 =>
      simp only [List.getElem?_cons_zero, Option.some.injEq] at hf
      obtain rfl : k = 0 := by omega
      decide
    | 1 =>
      simp only [List.getElem?_cons_succ, List.getElem?_cons_zero, Option.some.injEq] at hf
      omega
    | f + 2 => simp at hf

/-! ### index 0 -/

/-- the encoder's quantiser does produce the index 0 -/
theorem tnsIndex_zero : tnsIndex (-(99 / 100) : ℝ) = .ok 0 := by
  have hp := Real.pi_pos
  have hp2 := Real.pi_gt_d2
  have hs : Real.sin (15 / 2 * (Real.pi / 17)) < 99 / 100 := by
    rw [show 15 / 2 * (Real.pi / 17) = Real.pi / 2 - Real.pi / 17 by ring, Real.sin_pi_div_two_sub]
    have := Real.cos_lt_one_div_sqrt_sq_add_one (x := Real.pi / 17) (by linarith) (by linarith) (by positivity)
    have h2 : (1 : ℝ) / Real.sqrt ((Real.pi / 17) ^ 2 + 1) < 99 / 100 := by
      rw [div_lt_iff₀ (by positivity)]
      have : (100 / 99 : ℝ) < Real.sqrt ((Real.pi / 17) ^ 2 + 1) := by
        apply Real.lt_sqrt_of_sq_lt
        have h3 : (18 / 100 : ℝ) ^ 2 < (Real.pi / 17) ^ 2 := pow_lt_pow_left₀ (by linarith) (by norm_num) (by norm_num)
        norm_num at h3 ⊢
        linarith
      linarith
    linarith
  have h99 : Real.arcsin (-(99 / 100)) ≥ -(Real.pi / 2) := Real.neg_pi_div_two_le_arcsin _
  have := @tnsIndex_round (-(99 / 100)) (-8) (by
    rw [show (((-8 : Int) : ℝ) - 1 / 2) * (Real.pi / 17) = -(Real.pi / 2) by push_cast; ring]
    rw [Real.lt_arcsin_iff_sin_lt ⟨by linarith, by linarith⟩ ⟨by norm_num, by norm_num⟩, Real.sin_neg, Real.sin_pi_div_two]
    norm_num) (by
    rw [show (((-8 : Int) : ℝ) + 1 / 2) * (Real.pi / 17) = -(15 / 2 * (Real.pi / 17)) by push_cast; ring]
    rw [Real.arcsin_lt_iff_lt_sin ⟨by norm_num, by norm_num⟩ ⟨by linarith, by linarith⟩, Real.sin_neg]
    linarith) (by omega) (by omega)
  exact this

/-- **C15** The second case in which the statement fails: with a coefficient index 0 the two sides use different coefficients,
`sin (-8π/17)` in the encoder and 0 in the decoder. The encoder's filter of order 1 with index 0 changes the line 13 of a spectrum,
the decoder does not change it back. -/
theorem C15_index_fails : ∃ x y : List ℝ,
    tnsFilterLoop [(12, 80)] [[tnsQuant 0]] x (List.replicate 8 zero) = .ok y ∧
    tnsDecode .tenMs 0 1 [1, 0] (0 :: List.replicate 15 8) y ≠ .ok x := by
  let x : List ℝ := List.replicate 12 0 ++ [1] ++ List.replicate 67 0
  have hx : x = List.replicate 12 0 ++ [1] ++ List.replicate 67 0 := rfl
  refine ⟨x, x.take 12 ++ (encLatticeBand [tnsQuant 0] ((x.take 80).drop 12) (List.replicate 8 zero)).1 ++ x.drop 80, ?_, ?_⟩
  · unfold tnsFilterLoop
    rw [if_pos (by decide), sliceR_ok (by omega) (by rw [hx]; simp)]
    rfl
  · intro h
    have hq : (tnsQuant 0 : ℝ) < 0 := by
      have hp := Real.pi_pos
      have h : Real.sin (8 * (Real.pi / 17)) > 0 := Real.sin_pos_of_pos_of_lt_pi (by positivity) (by linarith)
      show Real.sin (Real.pi / 17 * ((((0 : Nat) : Int) : ℚ) - ((8 : ℚ) : ℝ))) < 0
      have : Real.pi / 17 * ((((0 : Nat) : Int) : ℚ) - ((8 : ℚ) : ℝ)) = -(8 * (Real.pi / 17)) := by push_cast; ring
      rw [this, Real.sin_neg]
      linarith
    have hsl : (x.take 80).drop 12 = 1 :: 0 :: List.replicate 66 0 := by rw [hx]; simp [List.replicate]
    have hx12 : x.take 12 = List.replicate 12 0 := by rw [hx]; simp [List.replicate]
    have hx80 : x.drop 80 = [] := by rw [hx]; simp [List.replicate]
    rw [hsl, hx12, hx80, List.append_nil] at h
    -- the first two lines the encoder writes
    obtain ⟨zs, hz⟩ : ∃ zs : List ℝ, zs = List.replicate 66 0 := ⟨_, rfl⟩
    have hzl : zs.length = 66 := by rw [hz]; simp
    rw [← hz] at h
    obtain ⟨ys, hys, hyl⟩ : ∃ ys : List ℝ, (encLatticeBand [tnsQuant 0] (1 :: 0 :: zs) (List.replicate 8 (zero : ℝ))).1
        = (1 + tnsQuant 0 * zero) :: (0 + tnsQuant 0 * 1) :: ys ∧ ys.length = 66 :=
      ⟨_, rfl, by rw [encLatticeBand_length, hzl]⟩
    rw [hys] at h
    unfold tnsDecode at h
    simp only at h
    split at h
    · simp at h
    split at h
    · simp at h
    rw [show ([1, 0] : List Nat).take 1 = [1] by rfl] at h
    simp only [tnsBandsDec, tnsLoop] at h
    rw [if_pos (by omega), Res.bind_eq_ok] at h
    obtain ⟨⟨m, st⟩, hm, h⟩ := h
    simp only [Res.ok.injEq] at h
    have hband : ((List.replicate 12 (0 : ℝ) ++ (1 + tnsQuant 0 * zero) :: (0 + tnsQuant 0 * 1) :: ys).take 80).drop 12
        = (1 + tnsQuant 0 * zero) :: (0 + tnsQuant 0 * 1) :: ys := by
      rw [List.take_of_length_le (by simp [hyl]), List.drop_append]
      simp
    rw [hband] at hm
    have hrc : (rcQuant (0 :: List.replicate 15 8) : List ℝ)[0]? = some 0 := by
      rw [rcQuant_getElem (v := 0) (by omega) rfl]
      unfold rcQuantOf
      rw [if_neg (by simp)]
      show some ((0 : ℚ) : ℝ) = _
      simp
    have hline : ∀ (a s : ℝ) (ss : List ℝ), latticeLine (rcQuant (0 :: List.replicate 15 8)) (0 * 8) 1 a (s :: ss) = .ok (a, a :: ss) := by
      intro a s ss
      unfold latticeLine
      have e0 : idx (s :: ss) (1 - 1) = .ok s := rfl
      rw [idx_ok_iff.2 hrc, Res.bind_ok, e0]
      rw [Res.bind_ok]
      have e : a - (0 : ℝ) * s = a := by ring
      change (setIdx (s :: ss) 0 (a - (0 : ℝ) * s) >>= fun st => .ok (a - (0 : ℝ) * s, st)) = _
      rw [e]
      rfl
    rw [show List.replicate 8 (zero : ℝ) = zero :: List.replicate 7 zero by rfl] at hm
    unfold latticeBand at hm
    rw [hline, Res.bind_ok] at hm
    simp only at hm
    unfold latticeBand at hm
    rw [hline, Res.bind_ok] at hm
    simp only at hm
    rw [Res.bind_eq_ok] at hm
    obtain ⟨⟨m1, st1⟩, hm1, hm⟩ := hm
    simp only [Res.ok.injEq, Prod.mk.injEq] at hm
    rw [Res.bind_eq_ok] at hm1
    obtain ⟨⟨m2, st2⟩, _, hm1⟩ := hm1
    simp only [Res.ok.injEq, Prod.mk.injEq] at hm1
    have h13 : x[13]? = some 0 := by rw [hx]; rfl
    rw [← h, ← hm.1, ← hm1.1, List.append_assoc, List.getElem?_append_right (by simp)] at h13
    simp only [List.take_left', List.length_replicate, List.length_take, List.length_append] at h13
    simp at h13
    linarith

end Lc3
