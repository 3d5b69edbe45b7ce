import Verif.Spec.TnsFilter
import Verif.Props.Levinson
import Verif.Props.TnsStable
import Verif.Props.Bandwidth
import Verif.Props.TnsWitness
import Mathlib.Tactic.IntervalCases
import Mathlib.Analysis.SpecialFunctions.Trigonometric.Bounds
/-!
# C120: the filter of temporal noise shaping is the specified predictor

In exact arithmetic: when the encoder filters, with which filter, how the filter is quantised and what the lattice computes.
-/

namespace Lc3
open Scalar Spec Finset

theorem ladder_beyond (c : ℕ → ℝ) : ∀ k n, k < n → ladder c k n = 0
  | 0, n, h => by unfold ladder; rw [if_neg (by omega)]
  | k + 1, n, h => by
    unfold ladder
    rw [ladder_beyond c k n (by omega), if_neg (by omega), add_zero]

theorem ladder_zero (c : ℕ → ℝ) : ∀ k, ladder c k 0 = 1
  | 0 => by unfold ladder; rw [if_pos rfl]
  | k + 1 => by
    unfold ladder
    rw [ladder_zero c k, if_pos (by omega), Nat.sub_zero, ladder_beyond c k _ (by omega)]
    ring

theorem ladder_congr {c d : ℕ → ℝ} : ∀ k, (∀ j < k, c j = d j) → ∀ n, ladder c k n = ladder d k n
  | 0, _, n => rfl
  | k + 1, h, n => by
    unfold ladder
    rw [ladder_congr k (fun j hj => h j (by omega)), ladder_congr k (fun j hj => h j (by omega)), h k (by omega)]

/-- the step down recursion finds the reflection coefficients of the filter -/
theorem stepDown_ladder : ∀ (k : Nat) (a acc : List ℝ), at0 a 0 = 1 → NoZero k (at0 a) →
    ∃ l, stepDown k a acc = l ++ acc ∧ l.length = k ∧ ∀ n ≤ k, ladder (at0 l) k n = at0 a n
  | 0, a, acc, h0, _ => ⟨[], rfl, rfl, fun n hn => by
      have : n = 0 := by omega
      subst this
      rw [ladder_zero, h0]⟩
  | k + 1, a, acc, h0, hz => by
    have ho : (one : ℝ) = 1 := Rat.cast_one
    have hl := last_lt h0 hz
    unfold stepDown
    simp only
    obtain ⟨rc, hrc⟩ : ∃ rc, rc = at0 a (k + 1) := ⟨_, rfl⟩
    rw [← hrc] at hl ⊢
    have h1 : 0 < 1 - rc * rc := by
      have : rc ^ 2 < 1 := by rw [← sq_abs]; exact pow_lt_one₀ (abs_nonneg _) hl (by norm_num)
      nlinarith
    obtain ⟨b, hb⟩ : ∃ b : List ℝ, b = one :: (List.range k).map fun n => (at0 a (n + 1) - rc * at0 a (k + 1 - (n + 1))) / (one - rc * rc) :=
      ⟨_, rfl⟩
    rw [← hb]
    have hbn : ∀ n ≤ k + 1, at0 b n = (1 / (1 - rc * rc)) * (at0 a n + (-rc) * at0 a (k + 1 - n)) := by
      intro n hn
      rcases n with _ | n
      · rw [Nat.sub_zero, ← hrc, h0, hb]
        simp only [at0, List.getD_cons_zero, ho]
        rw [one_div, show 1 + -rc * rc = 1 - rc * rc by ring, inv_mul_cancel₀ h1.ne']
      · by_cases hnk : n = k
        · subst hnk
          rw [at0_beyond (by rw [hb]; simp), Nat.sub_self, h0, ← hrc]
          ring
        · have hnk' : n < k := by omega
          rw [hb]
          have : at0 (one :: (List.range k).map fun n => (at0 a (n + 1) - rc * at0 a (k + 1 - (n + 1))) / (one - rc * rc)) (n + 1)
              = (at0 a (n + 1) - rc * at0 a (k + 1 - (n + 1))) / (one - rc * rc) := by
            simp [at0, hnk']
          rw [this, ho]
          field_simp
          ring
    have hb0 : at0 b 0 = 1 := by rw [hb]; simp [at0, ho]
    have hbk : at0 b (k + 1) = 0 := at0_beyond (by rw [hb]; simp)
    obtain ⟨l, e1, e2, e3⟩ := stepDown_ladder k b (rc :: acc) hb0 (by
      intro w hw
      rw [← pol_extend hbk, (pol_combine hbn w).1]
      refine mul_ne_zero ?_ ?_
      · rw [Ne, Complex.ofReal_eq_zero]
        positivity
      · exact lattice_ne (by rwa [abs_neg]) (rev_le hz hw) (hz w hw))
    refine ⟨l ++ [rc], by rw [e1]; simp, by simp [e2], fun n hn => ?_⟩
    have hlast : at0 (l ++ [rc]) k = rc := by
      unfold at0
      rw [List.getD_eq_getElem?_getD, List.getElem?_append_right (by omega), e2, Nat.sub_self]
      rfl
    have hinit : ∀ m, ladder (at0 (l ++ [rc])) k m = ladder (at0 l) k m := by
      refine ladder_congr k fun j hj => ?_
      unfold at0
      rw [List.getD_eq_getElem?_getD, List.getD_eq_getElem?_getD, List.getElem?_append_left (by omega)]
    have e3' : ∀ m ≤ k + 1, ladder (at0 l) k m = at0 b m := by
      intro m hm
      rcases Nat.lt_or_ge k m with h | h
      · rw [ladder_beyond _ _ _ h, show m = k + 1 by omega, hbk]
      · exact e3 m h
    unfold ladder
    rw [if_pos hn, hlast, hinit, hinit, e3' n hn, e3' _ (by omega), hbn n hn, hbn _ (by omega), show k + 1 - (k + 1 - n) = n by omega]
    have h1' : 1 - rc ^ 2 ≠ 0 := by rw [pow_two]; exact h1.ne'
    have e : ∀ A B D : ℝ, D * (1 - rc * rc) = 1 → D * (A + -rc * B) + rc * (D * (B + -rc * A)) = A := by
      intro A B D hD
      linear_combination A * hD
    exact e _ _ _ (by field_simp)

/-- **C120** (decision and weighting) For every autocorrelation that no filter of order 8 cancels there is the best predictor `a`
with the remaining energy `e` (the one solution of the normal equations, C73); with the prediction gain `g = r₀ / e` the encoder does not
filter if `g ≤ 1.5` or the spectrum is near the Nyquist frequency. Otherwise it uses the reflection coefficients of the predictor with
its coefficients weighted by the powers of the factor of `weightOf`. -/
theorem C120 {r : List ℝ} (hr : Nonsingular (at0 r)) (nn : Bool) (w : Nat) :
    ∃ (a : ℕ → ℝ) (e : ℝ), a 0 = 1 ∧ NormalEquations (at0 r) a e ∧ 0 < e ∧
      (nn = true ∨ at0 r 0 / e ≤ 3 / 2 → tnsAnalysis r nn w = List.replicate 8 0) ∧
      (nn = false → 3 / 2 < at0 r 0 / e → (tnsAnalysis r nn w).length = 8 ∧
        ∀ n ≤ 8, ladder (at0 (tnsAnalysis r nn w)) 8 n = a n * weightOf (decide (0 < w)) (at0 r 0 / e) ^ n) := by
  obtain ⟨a, e, hs, hi, hz, -⟩ := levinson_steps hr 8 (le_refl _)
  have hl : levinson r = (a, e) := hs
  have ho : (one : ℝ) = 1 := Rat.cast_one
  obtain ⟨c1, c2, -, c4, -⟩ := C73 hr
  rw [hl] at c1 c2 c4
  simp only at c1 c2 c4
  refine ⟨at0 a, e, c1, c2, c4, ?_⟩
  have hpg : (if Scalar.eq e (zero : ℝ) = true then at0 r 0 else at0 r 0 / e) = at0 r 0 / e := by
    rw [if_neg]
    show ¬ decide (e = (zero : ℝ)) = true
    rw [decide_eq_true_eq, show (zero : ℝ) = 0 from Rat.cast_zero]
    exact c4.ne'
  have hcond : ∀ g : ℝ, (lt (ofRat (3 / 2)) g && !nn) = true ↔ 3 / 2 < g ∧ nn = false := by
    intro g
    rw [Bool.and_eq_true, Bool.not_eq_true']
    refine and_congr ?_ Iff.rfl
    show decide (((3 / 2 : ℚ) : ℝ) < g) = true ↔ _
    rw [decide_eq_true_eq]
    norm_num
  unfold tnsAnalysis
  rw [hl]
  simp only [hpg]
  generalize at0 r 0 / e = pg
  constructor
  · intro h
    rw [if_neg]
    · rw [show (zero : ℝ) = 0 from Rat.cast_zero]
    · rw [hcond]
      rintro ⟨h1, h2⟩
      rcases h with h | h
      · rw [h] at h2; cases h2
      · linarith
  · intro hn hp
    rw [if_pos ((hcond pg).2 ⟨hp, hn⟩)]
    obtain ⟨g, hg⟩ : ∃ g : ℝ, g = (if (decide (w > 0) && lt pg (ofRat 2)) = true then
        one - (one - ofRat (85 / 100)) * (ofRat 2 - pg) / (ofRat 2 - ofRat (3 / 2)) else one) := ⟨_, rfl⟩
    rw [← hg]
    have hgw : g = weightOf (decide (0 < w)) pg := by
      rw [hg]
      unfold weightOf
      have h2 : (decide (w > 0) && lt pg (ofRat 2)) = true ↔ decide (0 < w) = true ∧ pg < 2 := by
        rw [Bool.and_eq_true]
        refine and_congr Iff.rfl ?_
        show decide (pg < ((2 : ℚ) : ℝ)) = true ↔ _
        rw [decide_eq_true_eq]
        norm_num
      by_cases hc : decide (0 < w) = true ∧ pg < 2
      · rw [if_pos (h2.2 hc), if_pos hc, ho]
        show 1 - (1 - ((85 / 100 : ℚ) : ℝ)) * (((2 : ℚ) : ℝ) - pg) / (((2 : ℚ) : ℝ) - ((3 / 2 : ℚ) : ℝ)) = _
        push_cast
        ring
      · rw [if_neg (fun h => hc (h2.1 h)), if_neg hc, ho]
    have hg01 : 0 < g ∧ g ≤ 1 := by
      rw [hgw]
      unfold weightOf
      split
      · rename_i h
        have e : (pg - 3 / 2) / (2 - 3 / 2) = 2 * pg - 3 := by ring
        rw [e]
        constructor <;> linarith [h.2]
      · norm_num
    have hat : ∀ n ≤ 8, at0 (a.zipIdx.map fun p => p.1 * powi g p.2) n = at0 a n * g ^ n := by
      intro n hn
      have hn' : n < a.length := by rw [hi.len]; omega
      unfold at0
      rw [List.getD_eq_getElem _ _ (by simpa using hn'), List.getD_eq_getElem _ _ hn']
      simp only [List.getElem_map, List.getElem_zipIdx, Nat.zero_add]
      show a[n] * g ^ ((n : ℕ) : ℤ) = _
      rw [zpow_natCast]
    obtain ⟨l, e1, e2, e3⟩ := stepDown_ladder 8 (a.zipIdx.map fun p => p.1 * powi g p.2) [] (by rw [hat 0 (by omega), hi.first]; norm_num) (by
      intro z hz1
      have : pol 8 (at0 (a.zipIdx.map fun p => p.1 * powi g p.2)) z = pol 8 (at0 a) (g * z) := by
        unfold pol
        refine Finset.sum_congr rfl fun n hn => ?_
        rw [hat n (by have : n < 9 := by simpa using hn
                      omega), mul_pow]
        push_cast
        ring
      rw [this]
      apply hz
      rw [norm_mul, Complex.norm_real, Real.norm_eq_abs, abs_of_pos hg01.1]
      calc g * ‖z‖ ≤ 1 * 1 := mul_le_mul hg01.2 hz1 (norm_nonneg _) (by norm_num)
        _ = 1 := one_mul 1)
    rw [List.append_nil] at e1
    rw [e1]
    refine ⟨e2, fun n hn => ?_⟩
    rw [e3 n hn, hat n hn, hgw]

/-! ## Quantisation -/

theorem toI8_trunc {w : ℝ} (h1 : -120 < w) (h2 : w < 120) : (toI8 w : ℤ) = if 0 ≤ w then ⌊w⌋ else ⌈w⌉ := by
  show max (-128) (min 127 (max (-2147483648) (min 2147483647 (if 0 ≤ w then ⌊w⌋ else ⌈w⌉)))) = _
  have f1 : ⌊w⌋ < 120 := Int.floor_lt.2 (by exact_mod_cast h2)
  have c1 : -120 < ⌈w⌉ := Int.lt_ceil.2 (by exact_mod_cast h1)
  split
  · rename_i h0
    have := Int.floor_nonneg.2 h0
    omega
  · rename_i h0
    have : ⌈w⌉ ≤ 0 := Int.ceil_le.2 (by push_cast; linarith)
    omega

/-- the rounding of the code rounds to a nearest integer -/
theorem tnsToInt_near {v : ℝ} (h : |v| < 100) : |(tnsToInt v : ℝ) - v| ≤ 1 / 2 := by
  have hhalf : (ofRat (1 / 2) : ℝ) = 1 / 2 := by
    show (((1 / 2 : ℚ)) : ℝ) = _
    push_cast; rfl
  have hz0 : (zero : ℝ) = 0 := Rat.cast_zero
  obtain ⟨b1, b2⟩ := abs_lt.1 h
  unfold tnsToInt
  rw [hhalf]
  by_cases h0 : 0 ≤ v
  · rw [if_pos ((geS_real _ _).2 (by rw [hz0]; exact h0)), toI8_trunc (by linarith) (by linarith), if_pos (by linarith)]
    have f1 := Int.floor_le (v + 1 / 2)
    have f2 := Int.lt_floor_add_one (v + 1 / 2)
    rw [abs_le]
    constructor <;> linarith
  · rw [if_neg (by rw [geS_real, hz0]; exact h0)]
    rw [show -(-v + 1 / 2) = v - 1 / 2 by ring, toI8_trunc (by linarith) (by linarith), if_neg (by linarith)]
    have f1 := Int.le_ceil (v - 1 / 2)
    have f2 := Int.ceil_lt_add_one (v - 1 / 2)
    rw [abs_le]
    constructor <;> linarith

/-- **C120** (quantisation) A reflection coefficient below one gets one of 17 indices, the one whose angle is nearest to its own; the
quantised coefficient is the sine of that angle and differs by at most `π / 34`. -/
theorem C120_index {q : ℝ} (h : |q| < 1) : ∃ i, tnsIndex q = .ok i ∧ i ≤ 16 ∧
    |Real.arcsin q - ((i : ℝ) - 8) * (Real.pi / 17)| ≤ Real.pi / 34 ∧ (tnsQuant i : ℝ) = Real.sin (((i : ℝ) - 8) * (Real.pi / 17)) ∧
    |q - tnsQuant i| ≤ Real.pi / 34 := by
  obtain ⟨i, hi, h17⟩ := tnsIndex_returns h
  have hp := Real.pi_pos
  have hq : (tnsQuant i : ℝ) = Real.sin (((i : ℝ) - 8) * (Real.pi / 17)) := by
    show Real.sin (Real.pi / 17 * (((((i : ℕ) : ℤ) : ℚ) : ℝ) - ((8 : ℚ) : ℝ))) = _
    congr 1
    push_cast
    ring
  have hang : |Real.arcsin q - ((i : ℝ) - 8) * (Real.pi / 17)| ≤ Real.pi / 34 := by
    have hv : |Real.arcsin q / (Real.pi / 17)| < 100 := by
      have a1 := Real.neg_pi_div_two_le_arcsin q
      have a2 := Real.arcsin_le_pi_div_two q
      rw [abs_lt, lt_div_iff₀ (by positivity), div_lt_iff₀ (by positivity)]
      constructor <;> linarith
    have hn := tnsToInt_near hv
    have hit : (i : ℤ) = tnsToInt (Real.arcsin q / (Real.pi / 17)) + 8 := by
      unfold tnsIndex at hi
      change (i8Chk (tnsToInt (Real.arcsin q / (Real.pi / 17)) + 8) >>= fun v => Res.ok (i32AsUsize v)) = .ok i at hi
      unfold i8Chk at hi
      split at hi
      · rw [Res.bind_ok] at hi
        simp only [Res.ok.injEq] at hi
        unfold i32AsUsize at hi
        omega
      · cases hi
    have hir : (i : ℝ) - 8 = (tnsToInt (Real.arcsin q / (Real.pi / 17)) : ℝ) := by
      have : ((i : ℤ) : ℝ) = ((tnsToInt (Real.arcsin q / (Real.pi / 17)) + 8 : ℤ) : ℝ) := by rw [hit]
      push_cast at this
      linarith
    rw [hir]
    have e : Real.arcsin q = Real.arcsin q / (Real.pi / 17) * (Real.pi / 17) := by field_simp
    rw [e]
    generalize Real.arcsin q / (Real.pi / 17) = v at *
    have hpp : (Real.pi / 17) ≠ 0 := by positivity
    rw [mul_div_assoc, div_self hpp, mul_one, ← sub_mul, abs_mul, abs_of_pos (by positivity : 0 < Real.pi / 17), abs_sub_comm]
    calc _ ≤ 1 / 2 * (Real.pi / 17) := mul_le_mul_of_nonneg_right hn (by positivity)
      _ = _ := by ring
  refine ⟨i, hi, by omega, hang, hq, ?_⟩
  rw [hq]
  obtain ⟨h1, h2⟩ := abs_lt.1 h
  have hs : q = Real.sin (Real.arcsin q) := (Real.sin_arcsin h1.le h2.le).symm
  calc |q - Real.sin (((i : ℝ) - 8) * (Real.pi / 17))| = |Real.sin (Real.arcsin q) - Real.sin (((i : ℝ) - 8) * (Real.pi / 17))| := by rw [← hs]
    _ ≤ |Real.arcsin q - ((i : ℝ) - 8) * (Real.pi / 17)| := Real.abs_sin_sub_sin_le _ _
    _ ≤ _ := hang

/-- **C120** (order) The order is the number of coefficients up to the last one that is not 8. -/
theorem C120_order : ∀ l : List Nat, (∀ i, tnsOrder l ≤ i → l.getD i 8 = 8) ∧ (0 < tnsOrder l → l.getD (tnsOrder l - 1) 8 ≠ 8)
  | [] => by simp [tnsOrder]
  | a :: l => by
    obtain ⟨h1, h2⟩ := C120_order l
    unfold tnsOrder
    simp only
    by_cases h0 : tnsOrder l = 0
    · rw [if_pos h0]
      by_cases ha : a = 8
      · rw [if_pos ha]
        refine ⟨fun i _ => ?_, by omega⟩
        cases i with
        | zero => simpa using ha
        | succ i => rw [List.getD_cons_succ]; exact h1 i (by omega)
      · rw [if_neg ha]
        refine ⟨fun i hi => ?_, fun _ => by simpa using ha⟩
        cases i with
        | zero => omega
        | succ i => rw [List.getD_cons_succ]; exact h1 i (by omega)
    · rw [if_neg h0]
      refine ⟨fun i hi => ?_, fun _ => ?_⟩
      · cases i with
        | zero => omega
        | succ i => rw [List.getD_cons_succ]; exact h1 i (by omega)
      · have := h2 (by omega)
        rw [Nat.add_sub_cancel]
        obtain ⟨m, hm⟩ : ∃ m, tnsOrder l = m + 1 := ⟨tnsOrder l - 1, by omega⟩
        rw [hm] at this ⊢
        rw [List.getD_cons_succ]
        exact this

/-! ## The lattice -/

/-- forward and backward values of the lattice in terms of the samples -/
noncomputable def latFwd (c : ℕ → ℝ) (X : ℤ → ℝ) (j : ℕ) (t : ℤ) : ℝ := ∑ i ∈ range (j + 1), ladder c j i * X (t - i)
noncomputable def latBwd (c : ℕ → ℝ) (X : ℤ → ℝ) (j : ℕ) (t : ℤ) : ℝ := ∑ i ∈ range (j + 1), ladder c j (j - i) * X (t - i)

theorem latBwd_shift (c : ℕ → ℝ) (X : ℤ → ℝ) (j : ℕ) (t : ℤ) :
    ∑ i ∈ range (j + 2), ladder c j (j + 1 - i) * X (t - i) = latBwd c X j (t - 1) := by
  rw [Finset.sum_range_succ', Nat.sub_zero, ladder_beyond c j _ (by omega), zero_mul, add_zero]
  unfold latBwd
  refine Finset.sum_congr rfl fun i hi => ?_
  rw [show j + 1 - (i + 1) = j - i by omega, show t - ((i + 1 : ℕ) : ℤ) = t - 1 - i by push_cast; ring]

theorem latFwd_extend (c : ℕ → ℝ) (X : ℤ → ℝ) (j : ℕ) (t : ℤ) :
    ∑ i ∈ range (j + 2), ladder c j i * X (t - i) = latFwd c X j t := by
  rw [Finset.sum_range_succ, ladder_beyond c j _ (by omega), zero_mul, add_zero]
  rfl

theorem latFwd_succ (c : ℕ → ℝ) (X : ℤ → ℝ) (j : ℕ) (t : ℤ) :
    latFwd c X (j + 1) t = latFwd c X j t + c j * latBwd c X j (t - 1) := by
  rw [← latBwd_shift, ← latFwd_extend c X j t, Finset.mul_sum, ← Finset.sum_add_distrib]
  unfold latFwd
  refine Finset.sum_congr rfl fun i hi => ?_
  have : i < j + 2 := by simpa using hi
  show (ladder c j i + if i ≤ j + 1 then c j * ladder c j (j + 1 - i) else 0) * _ = _
  rw [if_pos (by omega)]
  ring

theorem latBwd_succ (c : ℕ → ℝ) (X : ℤ → ℝ) (j : ℕ) (t : ℤ) :
    latBwd c X (j + 1) t = c j * latFwd c X j t + latBwd c X j (t - 1) := by
  rw [← latBwd_shift, ← latFwd_extend, Finset.mul_sum, ← Finset.sum_add_distrib]
  unfold latBwd
  refine Finset.sum_congr rfl fun i hi => ?_
  have : i < j + 2 := by simpa using hi
  show (ladder c j (j + 1 - i) + if j + 1 - i ≤ j + 1 then c j * ladder c j (j + 1 - (j + 1 - i)) else 0) * _ = _
  rw [if_pos (by omega), show j + 1 - (j + 1 - i) = i by omega]
  ring

theorem lat_values {c s : ℕ → ℝ} {X : ℤ → ℝ} {t : ℤ} {o : ℕ} (hs : ∀ j < o, s j = latBwd c X j (t - 1)) : ∀ j ≤ o,
    latF c s (X t) j = latFwd c X j t ∧ latB c s (X t) j = latBwd c X j t
  | 0, _ => by
    constructor
    · simp [latF, latFwd, ladder]
    · simp [latB, latBwd, ladder]
  | j + 1, h => by
    obtain ⟨h1, h2⟩ := lat_values hs j (by omega)
    constructor
    · rw [latFwd_succ]
      show latF c s (X t) j + c j * s j = _
      rw [h1, hs j (by omega)]
    · rw [latBwd_succ]
      show c j * latF c s (X t) j + s j = _
      rw [h1, hs j (by omega)]

theorem encLatticeLine_eq {rc st : List ℝ} {x : ℝ} {k : ℕ} (hk : rc.length = k + 1) (h8 : k + 1 ≤ st.length) :
    encLatticeLine rc x st = (latF (at0 rc) (at0 st) x (k + 1),
      (List.range (k + 1)).map (fun j => latB (at0 rc) (at0 st) x j) ++ st.drop (k + 1)) := by
  have hrE : ∀ j, j < k + 1 → rc[j]? = some (at0 rc j) := fun j hj => by
    show _ = some (rc.getD j _)
    rw [List.getD_eq_getElem?_getD, List.getElem?_eq_getElem (by omega)]; rfl
  have hsE : ∀ j, j < k + 1 → st[j]? = some (at0 st j) := fun j hj => by
    show _ = some (st.getD j _)
    rw [List.getD_eq_getElem?_getD, List.getElem?_eq_getElem (by omega)]; rfl
  have hl : (rc.take k).length = k := by rw [List.length_take]; omega
  have hl2 : (st.take k).length = k := by rw [List.length_take]; omega
  have hE := encLattice_eq (rc.take k) (st.take k) (by rw [hl, hl2]) 0 (at0 rc) (at0 st) x (fun j hj => by
    rw [hl] at hj
    rw [List.getElem?_take_of_lt hj, List.getElem?_take_of_lt hj, Nat.zero_add]
    exact ⟨hrE j (by omega), hsE j (by omega)⟩)
  rw [hl] at hE
  simp only [Nat.zero_add] at hE
  unfold encLatticeLine
  have : rc.length - 1 = k := by omega
  simp only [this]
  have e := hE
  change encLattice (rc.take k) (st.take k) x x = _ at e
  rw [e]
  simp only [List.range_succ, List.map_append, List.map_cons, List.map_nil, List.append_assoc, List.cons_append, List.nil_append]
  rfl

theorem encLatticeBand_fir {rc : List ℝ} {k : ℕ} (hk : rc.length = k + 1) (X : ℤ → ℝ) : ∀ (xs st : List ℝ) (t : ℤ), k + 1 ≤ st.length →
    (∀ j < k + 1, at0 st j = latBwd (at0 rc) X j (t - 1)) → (∀ i < xs.length, X (t + i) = xs.getD i 0) →
    (encLatticeBand rc xs st).1 = (List.range xs.length).map fun i : ℕ => latFwd (at0 rc) X (k + 1) (t + i)
  | [], st, t, _, _, _ => rfl
  | x :: xs, st, t, h8, hs, hx => by
    have hx0 : X t = x := by simpa using hx 0 (by simp)
    have hv := lat_values hs
    rw [hx0] at hv
    have key := encLatticeBand_fir hk X xs ((List.range (k + 1)).map (fun j => latB (at0 rc) (at0 st) x j) ++ st.drop (k + 1)) (t + 1)
      (by simp) (by
        intro j hj
        rw [show t + 1 - 1 = t by ring, ← (hv j (by omega)).2]
        unfold at0
        rw [List.getD_eq_getElem?_getD, List.getElem?_append_left (by simpa using hj), List.getElem?_map, List.getElem?_range hj]
        rfl) (by
        intro i hi
        have := hx (i + 1) (by simpa using hi)
        rw [List.getD_cons_succ] at this
        rw [← this]
        congr 1
        push_cast
        ring)
    unfold encLatticeBand
    rw [encLatticeLine_eq hk h8]
    simp only
    rw [key, (hv (k + 1) (le_refl _)).1, List.length_cons, List.range_succ_eq_map, List.map_cons, List.map_map]
    congr 1
    · simp
    · apply List.map_congr_left
      intro i _
      show _ = latFwd (at0 rc) X (k + 1) (t + ((i + 1 : ℕ) : ℤ))
      congr 1
      push_cast
      ring

/-- **C120** (filter) Started with zero states, the lattice of the encoder is the filter with the coefficients that belong to the
reflection coefficients: every line gets the weighted sum of itself and the lines before it in the band. -/
theorem C120_filter {rc : List ℝ} (h0 : rc ≠ []) (h8 : rc.length ≤ 8) (xs : List ℝ) :
    (encLatticeBand rc xs (List.replicate 8 zero)).1 = (List.range xs.length).map (convolve (ladder (at0 rc) rc.length) rc.length xs) := by
  obtain ⟨k, hk⟩ : ∃ k, rc.length = k + 1 := ⟨rc.length - 1, by have := List.length_pos_iff.2 h0; omega⟩
  rw [encLatticeBand_fir hk (fun t => if t < 0 then 0 else xs.getD t.toNat 0) xs (List.replicate 8 zero) 0 (by simp; omega)]
  · apply List.map_congr_left
    intro n _
    unfold latFwd convolve
    rw [hk]
    refine Finset.sum_congr rfl fun i _ => ?_
    congr 1
    show (if (0 : ℤ) + n - i < 0 then (0 : ℝ) else xs.getD ((0 : ℤ) + n - i).toNat 0) = _
    by_cases h : i ≤ n
    · rw [if_pos h, if_neg (by omega)]
      congr 1
      omega
    · rw [if_neg h, if_pos (by omega)]
  · intro j hj
    unfold latBwd
    rw [Finset.sum_eq_zero]
    · unfold at0
      rw [List.getD_eq_getElem?_getD, List.getElem?_replicate]
      split <;> exact Rat.cast_zero
    · intro i _
      show _ * (if (0 : ℤ) - 1 - i < 0 then (0 : ℝ) else xs.getD ((0 : ℤ) - 1 - i).toNat 0) = _
      rw [if_pos (by omega), mul_zero]
  · intro i hi
    show (if (0 : ℤ) + i < 0 then (0 : ℝ) else xs.getD ((0 : ℤ) + i).toNat 0) = _
    rw [if_neg (by omega)]
    congr 1
    omega

/-! ## The lag window -/

theorem exp_near {q : ℝ} (h1 : |q| ≤ 13 / 100) : |Real.exp q - ∑ m ∈ Finset.range 9, q ^ m / m.factorial| ≤ 1 / 10 ^ 13 := by
  refine (Real.exp_bound (le_trans h1 (by norm_num)) (n := 9) (by norm_num)).trans ?_
  calc |q| ^ 9 * _ ≤ (13 / 100) ^ 9 * (((9 : ℕ).succ : ℝ) / (((9 : ℕ).factorial : ℝ) * (9 : ℕ))) :=
        mul_le_mul_of_nonneg_right (pow_le_pow_left₀ (abs_nonneg _) h1 9) (by positivity)
    _ ≤ _ := by norm_num [Nat.factorial]

/-- **C120** (window) The lag window of the code is a Gaussian. -/
theorem C120_window : ∀ k < 9, |((LAG_WINDOW.getD k 0 : ℚ) : ℝ) - lagGauss k| ≤ 1 / 10 ^ 12 := by
  have p1 := Real.pi_gt_d20
  have p2 := Real.pi_lt_d20
  have hp := Real.pi_pos
  have u1 : (9869604401089358 / 10 ^ 15 : ℝ) ≤ Real.pi ^ 2 :=
    le_trans (by norm_num) (pow_le_pow_left₀ (by norm_num) p1.le 2)
  have u2 : Real.pi ^ 2 ≤ (9869604401089359 / 10 ^ 15 : ℝ) :=
    le_trans (pow_le_pow_left₀ hp.le p2.le 2) (by norm_num)
  intro k hk
  have e1 : lagGauss k ≤ Real.exp (-(1 / 2) * (9869604401089358 / 10 ^ 15 * k ^ 2 / 2500)) := by
    unfold lagGauss
    refine Real.exp_le_exp.2 ?_
    have : (Real.pi * k / 50) ^ 2 = Real.pi ^ 2 * k ^ 2 / 2500 := by ring
    rw [this]
    have := mul_le_mul_of_nonneg_right u1 (sq_nonneg (k : ℝ))
    linarith
  have e2 : Real.exp (-(1 / 2) * (9869604401089359 / 10 ^ 15 * k ^ 2 / 2500)) ≤ lagGauss k := by
    unfold lagGauss
    refine Real.exp_le_exp.2 ?_
    have : (Real.pi * k / 50) ^ 2 = Real.pi ^ 2 * k ^ 2 / 2500 := by ring
    rw [this]
    have := mul_le_mul_of_nonneg_right u2 (sq_nonneg (k : ℝ))
    linarith
  have hk2 : (k : ℝ) ^ 2 ≤ 64 := by
    have : (k : ℝ) ≤ 8 := by exact_mod_cast (by omega : k ≤ 8)
    nlinarith [(Nat.cast_nonneg k : (0 : ℝ) ≤ k)]
  have n1 := abs_le.1 (exp_near (q := -(1 / 2) * (9869604401089358 / 10 ^ 15 * (k : ℝ) ^ 2 / 2500)) (by
    rw [abs_of_nonpos (by nlinarith [sq_nonneg (k : ℝ)])]; linarith))
  have n2 := abs_le.1 (exp_near (q := -(1 / 2) * (9869604401089359 / 10 ^ 15 * (k : ℝ) ^ 2 / 2500)) (by
    rw [abs_of_nonpos (by nlinarith [sq_nonneg (k : ℝ)])]; linarith))
  have b1 := n1.2
  have b2 := n2.1
  clear n1 n2
  generalize Real.exp (-(1 / 2) * (9869604401089358 / 10 ^ 15 * (k : ℝ) ^ 2 / 2500)) = E1 at e1 b1
  generalize Real.exp (-(1 / 2) * (9869604401089359 / 10 ^ 15 * (k : ℝ) ^ 2 / 2500)) = E2 at e2 b2
  generalize lagGauss k = G at *
  clear p1 p2 hp u1 u2 hk2
  rw [abs_le]
  interval_cases k <;>
  · simp only [Finset.sum_range_succ, Finset.sum_range_zero, Nat.factorial, LAG_WINDOW, List.getD_cons_zero, List.getD_cons_succ] at b1 b2 ⊢
    norm_num at b1 b2 ⊢
    constructor <;> linarith

/-! ## From the lines to the indices -/

theorem partCorr_auto (x : List ℝ) (p : ℕ × ℕ) (k : ℕ) : partCorr x p k = partAuto x p k := by
  unfold partCorr partAuto
  have hz : ∀ s ∈ range (p.2 - p.1), s ∉ range (p.2 - p.1 - k) → partFn x p s * partFn x p (s + k) = 0 := by
    intro s _ hn
    have : partFn x p (s + k) = 0 := by unfold partFn; rw [if_neg (by simp at hn ⊢; omega)]
    rw [this, mul_zero]
  rw [← Finset.sum_subset (s₁ := range (p.2 - p.1 - k)) (fun s hs => by simp at hs ⊢; omega) hz]
  refine Finset.sum_congr rfl fun s hs => ?_
  have hs' : s < p.2 - p.1 - k := by simpa using hs
  unfold partFn
  rw [if_pos (by omega), if_pos (by omega), show p.1 + (s + k) = p.1 + s + k by omega]

/-- **C120** (autocorrelation) The autocorrelation of the encoder is the one of the range times the lag window. -/
theorem C120_corr {x : List ℝ} {sub : List (ℕ × ℕ)} (hp : ∀ p ∈ sub, p.1 ≤ p.2 ∧ p.2 ≤ x.length) {r : List ℝ} (h : tnsCorr x sub = .ok r) :
    r.length = 9 ∧ ∀ k < 9, at0 r k = rangeAuto x sub k * ((LAG_WINDOW.getD k 0 : ℚ) : ℝ) := by
  obtain ⟨hl, hr⟩ := tnsCorrFrom_real x sub hp LAG_WINDOW 0 r h
  refine ⟨hl, fun k hk => ?_⟩
  have := hr k hk
  unfold at0
  rw [show ((zero : ℝ)) = 0 from Rat.cast_zero, this, Nat.zero_add]
  unfold rangeAuto
  have hc : (sub.map (partEnergy x)).prod = 0 ↔ ∃ p ∈ sub, partEnergy x p = 0 := by
    rw [List.prod_eq_zero_iff, List.mem_map]
  simp only [hc, partCorr_auto]

/-- **C120** (analysis) For every spectrum that is not too smooth in a range of a filter (C75), the indices of the filter are those of
the reflection coefficients of the weighted best predictor for the windowed autocorrelation of the range, each with the nearest
angle; they are all 8 if the prediction gain is at most 1.5 or the spectrum is near the Nyquist frequency. -/
theorem C120_analysis {x : List ℝ} {sub : List (ℕ × ℕ)} (hp : ∀ p ∈ sub, p.1 ≤ p.2 ∧ p.2 ≤ x.length) (h3 : sub.length = 3)
    (hs : (∀ p ∈ sub, partEnergy x p ≠ 0) → NotSmooth x sub) {nn : Bool} {w : Nat} {ints : List Nat}
    (h : tnsFilterInts x nn w sub = .ok ints) :
    ∃ (r a : ℕ → ℝ) (e : ℝ), (∀ k < 9, r k = rangeAuto x sub k * ((LAG_WINDOW.getD k 0 : ℚ) : ℝ)) ∧ a 0 = 1 ∧ NormalEquations r a e ∧ 0 < e ∧
      (nn = true ∨ r 0 / e ≤ 3 / 2 → ints = List.replicate 8 8) ∧
      (nn = false → 3 / 2 < r 0 / e → ints.length = 8 ∧ ∃ c : ℕ → ℝ,
        (∀ n ≤ 8, ladder c 8 n = a n * weightOf (decide (0 < w)) (r 0 / e) ^ n) ∧
        ∀ k < 8, ints.getD k 0 ≤ 16 ∧ |Real.arcsin (c k) - ((ints.getD k 0 : ℝ) - 8) * (Real.pi / 17)| ≤ Real.pi / 34) := by
  unfold tnsFilterInts at h
  rw [Res.bind_eq_ok] at h
  obtain ⟨r, h1, h⟩ := h
  have hns := tnsCorr_nonsingular hp h3 hs h1
  obtain ⟨-, hr⟩ := C120_corr hp h1
  obtain ⟨a, e, a1, a2, a3, a4, a5⟩ := C120 hns nn w
  have hlt := C74 hns nn w
  have hf := mapM_forall₂ h
  refine ⟨at0 r, a, e, hr, a1, a2, a3, fun hc => ?_, fun hn hg => ?_⟩
  · rw [a4 hc] at hf
    have h0 : tnsIndex (0 : ℝ) = .ok 8 := tnsIndex_small (by norm_num)
    refine List.eq_replicate_iff.2 ⟨by rw [← hf.length_eq, List.length_replicate], fun v hv => ?_⟩
    obtain ⟨i, hi, rfl⟩ := List.getElem_of_mem hv
    have := (List.forall₂_iff_get.1 hf).2 i (by rw [hf.length_eq]; exact hi) hi
    simp only [List.get_eq_getElem, List.getElem_replicate] at this
    rw [h0] at this
    injection this with this
    exact this.symm
  · obtain ⟨b1, b2⟩ := a5 hn hg
    have hl8 : ints.length = 8 := by rw [← hf.length_eq, b1]
    refine ⟨hl8, at0 (tnsAnalysis r nn w), b2, fun k hk => ?_⟩
    have hk1 : k < (tnsAnalysis r nn w).length := by omega
    have hk2 : k < ints.length := by omega
    have hi := (List.forall₂_iff_get.1 hf).2 k hk1 hk2
    simp only [List.get_eq_getElem] at hi
    have hq : |(tnsAnalysis r nn w)[k]| < 1 := hlt _ (List.getElem_mem hk1)
    obtain ⟨i, i1, i2, i3, -⟩ := C120_index hq
    rw [hi] at i1
    injection i1 with i1
    unfold at0
    rw [List.getD_eq_getElem _ _ hk1, List.getD_eq_getElem _ _ hk2, i1]
    exact ⟨i2, i3⟩

/-- **C120** (lines) The lines of a spectrum after temporal noise shaping: the lines before the first range are left alone, those of the
first range are filtered with the quantised coefficients up to the last index that is not 8. -/
theorem C120_lines {cfg : Lc3Config} {x : List ℝ} {bw nbits : Nat} {nn : Bool} {res : TnsResult ℝ}
    (h : tnsEncRun cfg x bw nbits nn = .ok res) : ∃ (p : TnsParams) (lo hi : ℕ) (more : List (ℕ × ℕ)) (sub : List (ℕ × ℕ)) (subs : List (List (ℕ × ℕ)))
      (ints : List ℕ), tnsParams cfg.nMs bw = .ok p ∧ p.bands = (lo, hi) :: more ∧ p.subs = sub :: subs ∧
      tnsFilterInts x nn (lpcWeightingOf cfg.nMs nbits) sub = .ok ints ∧ res.rcOrder.getD 0 0 = tnsOrder ints ∧
      (∀ n < lo, res.lines.getD n 0 = x.getD n 0) ∧
      ∀ n, lo ≤ n → n < hi → res.lines.getD n 0 =
        convolve (ladder (fun j => Real.sin (((ints.getD j 0 : ℝ) - 8) * (Real.pi / 17))) (tnsOrder ints)) (tnsOrder ints) (x.drop lo) (n - lo) := by
  unfold tnsEncRun at h
  split at h
  · simp at h
  rw [Res.bind_eq_ok] at h
  obtain ⟨p, h1, h⟩ := h
  simp only at h
  rw [Res.bind_eq_ok] at h
  obtain ⟨intss, h2, h⟩ := h
  rw [Res.bind_eq_ok] at h
  obtain ⟨bits, _, h⟩ := h
  rw [Res.bind_eq_ok] at h
  obtain ⟨lines, h4, h⟩ := h
  injection h with h
  subst h
  obtain ⟨_, g2, _, g4, g5, -⟩ := tnsParams_shape h1
  have hf := mapM_forall₂ h2
  have hne : p.numFilters ≠ 0 := by
    match hd : cfg.nMs, bw, h1 with
    | .tenMs, 0, h1 | .tenMs, 1, h1 | .tenMs, 2, h1 | .tenMs, 3, h1 | .tenMs, 4, h1 | .sevenPointFiveMs, 0, h1 | .sevenPointFiveMs, 1, h1
    | .sevenPointFiveMs, 2, h1 | .sevenPointFiveMs, 3, h1 | .sevenPointFiveMs, 4, h1 =>
      injection h1 with h1
      subst h1
      decide
    | .tenMs, n + 5, h1 | .sevenPointFiveMs, n + 5, h1 => cases h1
  obtain ⟨sub, subs, hsub⟩ : ∃ sub subs, p.subs = sub :: subs := by
    cases hq : p.subs with
    | nil => rw [hq] at g2; exact absurd g2 (by simpa using hne)
    | cons a b => exact ⟨a, b, rfl⟩
  obtain ⟨⟨lo, hi⟩, more, hband⟩ : ∃ b more, p.bands = b :: more := by
    cases hq : p.bands with
    | nil => rw [hq] at g4; exact absurd g4.symm (by simpa using hne)
    | cons a b => exact ⟨a, b, rfl⟩
  rw [hsub, List.forall₂_cons_left_iff] at hf
  obtain ⟨ints, rest, hf0, hft, rfl⟩ := hf
  rw [hband] at g5 h4
  obtain ⟨k1, k2, k3⟩ := g5
  refine ⟨p, lo, hi, more, sub, subs, ints, h1, hband, hsub, hf0, by simp, ?_⟩
  have hq8 : ints.length = 8 := (tnsFilterInts_facts hf0).1
  obtain ⟨rc, hrc⟩ : ∃ rc : List ℝ, rc = (ints.take (tnsOrder ints)).map tnsQuant := ⟨_, rfl⟩
  have hol := tnsOrder_le ints
  have hrl : rc.length = tnsOrder ints := by rw [hrc, List.length_map, List.length_take]; omega
  rw [List.map_cons, ← hrc] at h4
  have hlad : ∀ m, ladder (at0 rc) (tnsOrder ints) m = ladder (fun j => Real.sin (((ints.getD j 0 : ℝ) - 8) * (Real.pi / 17))) (tnsOrder ints) m := by
    refine ladder_congr _ fun j hj => ?_
    unfold at0
    have hj2 : j < ints.length := by omega
    rw [List.getD_eq_getElem _ _ (by omega), List.getD_eq_getElem _ _ hj2]
    simp only [hrc, List.getElem_map, List.getElem_take]
    show Real.sin (Real.pi / 17 * (((((ints[j] : ℕ) : ℤ) : ℚ) : ℝ) - ((8 : ℚ) : ℝ))) = _
    congr 1
    push_cast
    ring
  obtain ⟨P, st, hl, hP, hPl, hPx⟩ : ∃ (P st : List ℝ), tnsFilterLoop more (rest.map fun l => (l.take (tnsOrder l)).map tnsQuant) (P ++ x.drop hi) st = .ok lines ∧
      P.length = min hi x.length ∧ (∀ n < lo, P.getD n 0 = x.getD n 0) ∧
      ∀ n, lo ≤ n → n < hi → P.getD n 0 = convolve (ladder (at0 rc) (tnsOrder ints)) (tnsOrder ints) (x.drop lo) (n - lo) := by
    have hdrop : ∀ n, lo ≤ n → (x.drop lo).getD (n - lo) 0 = x.getD n 0 := by
      intro n hn
      rw [List.getD_eq_getElem?_getD, List.getD_eq_getElem?_getD, List.getElem?_drop, show lo + (n - lo) = n by omega]
    have htake : ∀ n < hi, (x.take hi).getD n 0 = x.getD n 0 := by
      intro n hn
      rw [List.getD_eq_getElem?_getD, List.getD_eq_getElem?_getD, List.getElem?_take_of_lt hn]
    unfold tnsFilterLoop at h4
    by_cases hz : rc.length ≠ 0
    · rw [if_pos hz, Res.bind_eq_ok] at h4
      obtain ⟨l, hl, h4⟩ := h4
      have hlen : hi ≤ x.length := by
        unfold sliceR at hl; split at hl
        · rename_i hc; exact hc.2
        · simp at hl
      rw [sliceR_ok k2 hlen] at hl
      injection hl with hl
      simp only at h4
      have hll : l.length = hi - lo := by rw [← hl, List.length_drop, List.length_take]; omega
      have hfir := C120_filter (rc := rc) (by intro hc; rw [hc] at hz; exact hz rfl) (by omega) l
      refine ⟨x.take lo ++ (encLatticeBand rc l (List.replicate 8 zero)).1, _, h4, ?_, ?_, ?_⟩
      · rw [List.length_append, encLatticeBand_length, List.length_take, hll]; omega
      · intro n hn
        rw [List.getD_eq_getElem?_getD, List.getElem?_append_left (by rw [List.length_take]; omega), List.getElem?_take_of_lt hn,
          List.getD_eq_getElem?_getD]
      · intro n hn1 hn2
        have hlo : (x.take lo).length = lo := by rw [List.length_take]; omega
        rw [List.getD_eq_getElem?_getD, List.getElem?_append_right (by omega), hlo, hfir, List.getElem?_map,
          List.getElem?_range (by omega), ← hrl]
        show convolve _ _ l _ = _
        unfold convolve
        refine Finset.sum_congr rfl fun i _ => ?_
        congr 1
        split
        · rw [← hl, List.getD_eq_getElem?_getD, List.getD_eq_getElem?_getD, List.getElem?_drop, List.getElem?_drop,
            List.getElem?_take_of_lt (by omega)]
        · rfl
    · rw [if_neg hz] at h4
      have ho : tnsOrder ints = 0 := by omega
      refine ⟨x.take hi, _, by rw [List.take_append_drop]; exact h4, by rw [List.length_take], fun n hn => htake n (by omega), fun n hn1 hn2 => ?_⟩
      rw [htake n hn2, ho]
      unfold convolve
      rw [Finset.sum_range_one, ladder_zero, if_pos (by omega), Nat.sub_zero, one_mul, hdrop n hn1]
  obtain ⟨q', e1, e2, -⟩ := tnsFilterLoop_prefix more _ P (x.drop hi) st lines (k3.mono (by omega)) hl
  have hfin : ∀ n < hi, lines.getD n 0 = P.getD n 0 := by
    intro n hn
    rw [e1, List.getD_eq_getElem?_getD, List.getD_eq_getElem?_getD]
    rcases Nat.lt_or_ge n P.length with hc | hc
    · rw [List.getElem?_append_left hc]
    · rw [List.getElem?_append_right hc, List.getElem?_eq_none hc, List.getElem?_eq_none (by rw [e2, List.length_drop]; omega)]
  refine ⟨fun n hn => by rw [hfin n (by omega), hPl n hn], fun n hn1 hn2 => ?_⟩
  rw [hfin n hn2, hPx n hn1 hn2]
  unfold convolve
  refine Finset.sum_congr rfl fun i _ => ?_
  rw [hlad]

/-! ## Examples -/

/-- an autocorrelation with a prediction gain of 1.8: each line predicts two thirds of the next one -/
example : Nonsingular (at0 [1, 2 / 3, 4 / 9, 8 / 27, 16 / 81, 32 / 243, 64 / 729, 128 / 2187, (256 / 6561 : ℝ)]) ∧
    NormalEquations (at0 [1, 2 / 3, 4 / 9, 8 / 27, 16 / 81, 32 / 243, 64 / 729, 128 / 2187, (256 / 6561 : ℝ)]) (at0 [1, -2 / 3]) (5 / 9) ∧
    (3 / 2 : ℝ) < 1 / (5 / 9) ∧ weightOf true (1 / (5 / 9)) = 94 / 100 := by
  refine ⟨?_, ?_, by norm_num, by unfold weightOf; norm_num⟩
  · intro b hb
    have hsum : 0 < ∑ i ∈ Finset.range 9, b i ^ 2 := by
      obtain ⟨n, hn, h⟩ := hb
      exact Finset.sum_pos' (fun i _ => sq_nonneg _) ⟨n, by simpa using hn, by positivity⟩
    simp only [filteredEnergy, Finset.sum_range_succ, Finset.sum_range_zero, lag, at0] at hsum ⊢
    norm_num at hsum ⊢
    obtain ⟨c1, h1⟩ : ∃ c, c = b 1 + 2 / 3 * b 0 := ⟨_, rfl⟩
    obtain ⟨c2, h2⟩ : ∃ c, c = b 2 + 2 / 3 * c1 := ⟨_, rfl⟩
    obtain ⟨c3, h3⟩ : ∃ c, c = b 3 + 2 / 3 * c2 := ⟨_, rfl⟩
    obtain ⟨c4, h4⟩ : ∃ c, c = b 4 + 2 / 3 * c3 := ⟨_, rfl⟩
    obtain ⟨c5, h5⟩ : ∃ c, c = b 5 + 2 / 3 * c4 := ⟨_, rfl⟩
    obtain ⟨c6, h6⟩ : ∃ c, c = b 6 + 2 / 3 * c5 := ⟨_, rfl⟩
    obtain ⟨c7, h7⟩ : ∃ c, c = b 7 + 2 / 3 * c6 := ⟨_, rfl⟩
    obtain ⟨c8, h8⟩ : ∃ c, c = b 8 + 2 / 3 * c7 := ⟨_, rfl⟩
    rw [show b 1 = c1 - 2 / 3 * b 0 by linarith, show b 2 = c2 - 2 / 3 * c1 by linarith, show b 3 = c3 - 2 / 3 * c2 by linarith,
      show b 4 = c4 - 2 / 3 * c3 by linarith, show b 5 = c5 - 2 / 3 * c4 by linarith, show b 6 = c6 - 2 / 3 * c5 by linarith,
      show b 7 = c7 - 2 / 3 * c6 by linarith, show b 8 = c8 - 2 / 3 * c7 by linarith] at hsum ⊢
    linarith [sq_nonneg (b 0), sq_nonneg c1, sq_nonneg c2, sq_nonneg c3, sq_nonneg c4, sq_nonneg c5, sq_nonneg c6, sq_nonneg c7, sq_nonneg c8,
      sq_nonneg (c1 + 2 / 3 * b 0), sq_nonneg (c2 + 2 / 3 * c1), sq_nonneg (c3 + 2 / 3 * c2), sq_nonneg (c4 + 2 / 3 * c3),
      sq_nonneg (c5 + 2 / 3 * c4), sq_nonneg (c6 + 2 / 3 * c5), sq_nonneg (c7 + 2 / 3 * c6), sq_nonneg (c8 + 2 / 3 * c7)]
  · intro m hm
    interval_cases m <;> simp [Finset.sum_range_succ, lag, at0, show (zero : ℝ) = 0 from Rat.cast_zero] <;> norm_num

/-- the coefficient one half has the angle `π / 6`, nearest to the index 11 -/
example : ∃ i, tnsIndex (1 / 2 : ℝ) = .ok i ∧ i ≤ 16 ∧ |(1 / 2 : ℝ) - tnsQuant i| ≤ Real.pi / 34 := by
  obtain ⟨i, h1, h2, -, -, h3⟩ := C120_index (q := 1 / 2) (by rw [abs_of_pos (by norm_num)]; norm_num)
  exact ⟨i, h1, h2, h3⟩

/-- two reflection coefficients give the filter `1, c₀ + c₀ c₁, c₁` -/
example (c : ℕ → ℝ) : ladder c 2 0 = 1 ∧ ladder c 2 1 = c 0 + c 1 * c 0 ∧ ladder c 2 2 = c 1 := by
  refine ⟨ladder_zero c 2, ?_, ?_⟩ <;> simp [ladder]

/-- a lattice of order one on three lines -/
example : (encLatticeBand [1 / 2] [1, 2, (4 : ℝ)] (List.replicate 8 zero)).1 = [1, 5 / 2, 5] := by
  rw [C120_filter (by simp) (by simp)]
  simp [List.range_succ, convolve, ladder, Finset.sum_range_succ, at0]
  norm_num

example : tnsOrder [8, 3, 8, 9, 8, 8, 8, 8] = 4 := by decide

/-- the encoder runs on a silent spectrum and leaves it alone; the example of C75 is a spectrum that is not smooth -/
example : ∃ res, tnsEncRun (Lc3Config.new .hz8000 .tenMs) (List.replicate 80 (0 : ℝ)) 0 320 false = .ok res := by
  obtain ⟨-, res, h, -⟩ := C75 (f := .hz8000) (d := .tenMs) (bw := 0) (nbits := 320) (nn := false) (by decide) (x := List.replicate 80 0) rfl
    (fun p hp s hs h => by
      exfalso
      have hp' : p = ⟨1, [(12, 80)], [[(12, 34), (34, 57), (57, 80)]]⟩ := by
        have : tnsParams (Lc3Config.new .hz8000 .tenMs).nMs 0 = .ok ⟨1, [(12, 80)], [[(12, 34), (34, 57), (57, 80)]]⟩ := rfl
        rw [this] at hp
        simp only [Res.ok.injEq] at hp
        exact hp.symm
      subst hp'
      simp only [List.mem_singleton] at hs
      subst hs
      refine h (12, 34) (by simp) ?_
      unfold partEnergy
      refine Finset.sum_eq_zero fun t _ => ?_
      rw [List.getD_eq_getElem?_getD, List.getElem?_replicate]
      split <;> norm_num)
  exact ⟨res, h⟩

end Lc3
