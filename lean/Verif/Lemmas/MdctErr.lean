import Verif.Lemmas.DctErr
import Verif.Lemmas.MdctError
/-! Rounding errors of the encoder's and the decoder's transform in binary32. -/

namespace Lc3
open Scalar Finset

/-! ### The steps around the kernel, for every scalar type -/

section
variable {α : Type} [Scalar α]

/-- a windowed sample -/
def winAt (freq : List Int) (wn : List Rat) (p : Nat) : α := winMul (freq.getD p 0, wn.getD p 0)

/-- entry `i` of the folded frame -/
def foldG (h : Nat) (u : Nat → α) (i : Nat) : α :=
  if i < h then -u (3 * h - 1 - i) - u (3 * h + i) else u (i - h) - u (3 * h - 1 - i)

theorem winMul_get {freq : List Int} {wn : List Rat} {p p' q : Nat} {h1 : p < freq.length} {h2 : p' < wn.length}
    (hq : p = q) (hq' : p' = q) : (winMul (freq[p], wn[p']) : α) = winAt freq wn q := by
  subst hq hq'
  simp only [winAt, getD_of_lt h1, getD_of_lt h2]

theorem mdctFold_gen {h : Nat} {freq : List Int} {wn : List Rat} (hf : freq.length = 4 * h) (hw : wn.length = 4 * h) :
    (mdctFold (2 * h) freq wn : Res (List α)) = .ok ((List.range (2 * h)).map (foldG h (winAt freq wn))) := by
  unfold mdctFold
  have hd : 2 * h / 2 = h := by omega
  simp only [hd, usub, show h ≤ 3 * h by omega, if_true, Res.bind_ok]
  rw [sliceR_ok (by omega) (by omega), Res.bind_ok, sliceR_ok (by omega) (by omega), Res.bind_ok,
    sliceR_ok (by omega) (by omega), Res.bind_ok, sliceR_ok (by omega) (by omega), Res.bind_ok,
    sliceR_ok (by omega) (by omega), Res.bind_ok, sliceR_ok (by omega) (by omega), Res.bind_ok,
    sliceR_ok (by omega) (by omega), Res.bind_ok, sliceR_ok (by omega) (by omega), Res.bind_ok]
  congr 1
  refine eq_map_range ?_ ?_
  · simp only [List.length_append, List.length_zipWith, List.length_zip, List.length_reverse, List.length_drop,
      List.length_take]
    omega
  · intro i hi
    have hi' : i < 2 * h := by
      simp only [List.length_append, List.length_zipWith, List.length_zip, List.length_reverse, List.length_drop,
        List.length_take] at hi
      omega
    unfold foldG
    rw [List.getElem_append]
    by_cases hc : i < h
    · rw [dif_pos (by
        simp only [List.length_zipWith, List.length_zip, List.length_reverse, List.length_drop, List.length_take]
        omega), if_pos hc]
      simp only [List.getElem_zipWith, List.getElem_zip, List.getElem_reverse, List.getElem_drop, List.getElem_take,
        List.length_drop, List.length_take]
      refine congrArg₂ (fun a b => -a - b) (winMul_get ?_ ?_) (winMul_get ?_ ?_) <;> omega
    · rw [dif_neg (by
        simp only [List.length_zipWith, List.length_zip, List.length_reverse, List.length_drop, List.length_take]
        omega), if_neg hc]
      simp only [List.getElem_zipWith, List.getElem_zip, List.getElem_reverse, List.getElem_drop, List.getElem_take,
        List.length_drop, List.length_take, List.length_zipWith, List.length_zip, List.length_reverse]
      refine congrArg₂ (fun a b => a - b) (winMul_get ?_ ?_) (winMul_get ?_ ?_) <;> omega

/-- entry `p` of the time aliased buffer made of the transform `y` -/
def unfoldG (h : Nat) (y : Nat → α) (p : Nat) : α :=
  if p < h then y (p + h) else if p < 3 * h then -y (3 * h - 1 - p) else -y (p - 3 * h)

theorem mdctUnfold_gen {h : Nat} {buf : List α} {y : Nat → α} (hy : dctIv (2 * h) buf = .ok ((List.range (2 * h)).map y)) :
    mdctUnfold (2 * h) buf = .ok ((List.range (4 * h)).map fun p => unfoldG h y p * mdctGain (2 * h)) := by
  unfold mdctUnfold
  rw [hy, Res.bind_ok]
  have hd : 2 * h / 2 = h := by omega
  simp only [hd]
  congr 1
  refine eq_map_range ?_ ?_
  · simp only [List.length_append, List.length_map, List.length_range, List.length_reverse, List.length_drop,
      List.length_take]
    omega
  · intro p hp
    have hp' : p < 4 * h := by
      simp only [List.length_append, List.length_map, List.length_range, List.length_reverse, List.length_drop,
        List.length_take] at hp
      omega
    simp only [List.getElem_map, List.getElem_append, List.getElem_drop, List.getElem_take, List.getElem_reverse,
      List.getElem_range, List.length_append, List.length_map, List.length_range, List.length_reverse, List.length_drop]
    unfold unfoldG
    congr 1
    by_cases h1 : p < h
    · rw [dif_pos (by omega), dif_pos (by omega), if_pos h1, Nat.add_comm]
    · by_cases h2 : p < 3 * h
      · rw [dif_pos (by omega), dif_neg (by omega), if_neg h1, if_pos h2]
        exact congrArg (fun i => -y i) (by omega)
      · rw [dif_neg (by omega), dif_pos (by omega), if_neg h1, if_neg h2]
        exact congrArg (fun i => -y i) (by omega)

/-- the decoder's transform, when the unwindowed double frame is `t` -/
theorem mdctDecRun_gen {cfg : Lc3Config} {h : Nat} {wn : List Rat} (H : MdctOk cfg h wn) {lines : List α}
    (hl : lines.length = cfg.ne) {mem : List α} (hm : mem.length = cfg.nf - cfg.z) {t : Nat → α} (d : α)
    (ht : mdctUnfold (2 * h) (lines ++ List.replicate (cfg.nf - cfg.ne) zero) = .ok ((List.range (4 * h)).map t)) :
    mdctDecRun cfg mem lines
      = .ok ((List.range (cfg.nf - cfg.z)).map fun j => t (cfg.nf + cfg.z + j) * ofRat (wn.getD (4 * h - 1 - (cfg.nf + cfg.z + j)) 0),
          (List.range cfg.nf).map fun j =>
            if j < cfg.nf - cfg.z then mem.getD j d + t (cfg.z + j) * ofRat (wn.getD (4 * h - 1 - (cfg.z + j)) 0)
            else t (cfg.z + j) * ofRat (wn.getD (4 * h - 1 - (cfg.z + j)) 0)) := by
  obtain ⟨hnf, -, hz, hne, hwin, hwl, htail⟩ := H
  unfold mdctDecRun
  rw [if_neg (by simp [hl]), hwin]
  simp only [Res.bind_ok, usub, if_pos hne, if_pos (show cfg.z ≤ cfg.nf by omega)]
  rw [hnf] at ht ⊢
  rw [ht]
  simp only [Res.bind_ok]
  rw [if_neg (by omega)]
  have ht : List.zipWith (fun (x : α) (w : Rat) => x * ofRat w) ((List.range (4 * h)).map t) wn.reverse
      = (List.range (4 * h)).map fun p => t p * ofRat (wn.getD (4 * h - 1 - p) 0) := by
    refine eq_map_range (by simp [hwl]) fun p hp => ?_
    have hp' : p < 4 * h := by
      rw [List.length_zipWith, List.length_map, List.length_range] at hp; omega
    simp only [List.getElem_zipWith, List.getElem_map, List.getElem_range, List.getElem_reverse]
    rw [getD_of_lt (by omega)]
    congr 3
    omega
  rw [ht]
  rw [hnf] at hm hz
  congr 2
  · refine eq_map_range (by simp; omega) fun j hj => ?_
    simp
  · refine eq_map_range (by simp [hm]; omega) fun j hj => ?_
    have hj' : j < 2 * h := by
      simp only [List.length_append, List.length_zipWith, List.length_take, List.length_drop, List.length_map,
        List.length_range] at hj
      omega
    rw [List.getElem_append]
    by_cases hc : j < 2 * h - cfg.z
    · rw [dif_pos (by simp [hm]; omega), if_pos hc]
      simp only [List.getElem_zipWith, List.getElem_take, List.getElem_drop, List.getElem_map, List.getElem_range]
      rw [getD_of_lt (by omega), getD_of_lt (by omega)]
    · rw [dif_neg (by simp [hm]; omega), if_neg hc]
      simp only [List.getElem_take, List.getElem_drop, List.getElem_map, List.getElem_range,
        List.length_zipWith, List.length_take, List.length_drop, List.length_map, List.length_range, hm]
      have e : 2 * h + (j - min (min (2 * h - cfg.z) (2 * h - cfg.z)) (min (2 * h) (4 * h) - cfg.z)) = cfg.z + j := by omega
      rw [e]

end

/-! ### Norms of the exact steps -/

/-- the magnitudes that enter entry `i` of the folded frame -/
noncomputable def foldAbs (h : Nat) (u : Nat → ℝ) (i : Nat) : ℝ :=
  if i < h then |u (3 * h - 1 - i)| + |u (3 * h + i)| else |u (i - h)| + |u (3 * h - 1 - i)|

theorem foldAt_abs (h : Nat) (u : Nat → ℝ) (i : Nat) : |foldAt h u i| ≤ foldAbs h u i := by
  unfold foldAt foldAbs
  split
  · rw [← neg_add', abs_neg]; exact abs_add_le _ _
  · exact abs_sub _ _

theorem foldAbs_nonneg (h : Nat) (u : Nat → ℝ) (i : Nat) : 0 ≤ foldAbs h u i := (abs_nonneg _).trans (foldAt_abs h u i)

theorem sum_quarters (h : Nat) (g : Nat → ℝ) : ∑ p ∈ range (4 * h), g p
    = ∑ p ∈ range h, (g p + g (h + p) + g (2 * h + p) + g (3 * h + p)) := by
  rw [show 4 * h = h + (h + (h + h)) by ring, Finset.sum_range_add, Finset.sum_range_add, Finset.sum_range_add]
  simp only [Finset.sum_add_distrib]
  have e1 : ∀ p, h + (h + p) = 2 * h + p := fun p => by ring
  have e2 : ∀ p, h + (2 * h + p) = 3 * h + p := fun p => by ring
  simp only [e1, e2]
  ring

theorem foldAbs_energy (h : Nat) (u : Nat → ℝ) :
    ∑ i ∈ range (2 * h), foldAbs h u i ^ 2 ≤ 2 * ∑ p ∈ range (4 * h), u p ^ 2 := by
  have s2 : ∀ g : Nat → ℝ, ∑ k ∈ range (2 * h), g k = ∑ p ∈ range h, g p + ∑ p ∈ range h, g (h + p) := by
    intro g
    rw [two_mul, Finset.sum_range_add]
  rw [s2, sum_quarters]
  simp only [Finset.sum_add_distrib]
  rw [← Finset.sum_range_reflect (fun p => u (h + p) ^ 2) h, ← Finset.sum_range_reflect (fun p => u (2 * h + p) ^ 2) h,
    ← Finset.sum_add_distrib, ← Finset.sum_add_distrib, ← Finset.sum_add_distrib, ← Finset.sum_add_distrib, Finset.mul_sum]
  refine Finset.sum_le_sum fun i hi => ?_
  have hi := Finset.mem_range.mp hi
  unfold foldAbs
  rw [if_pos hi, if_neg (by omega), show h + i - h = i by omega, show 3 * h - 1 - (h + i) = h + (h - 1 - i) by omega,
    show 3 * h - 1 - i = 2 * h + (h - 1 - i) by omega]
  have q : ∀ a b : ℝ, (|a| + |b|) ^ 2 ≤ 2 * (a ^ 2 + b ^ 2) := by
    intro a b
    have := sq_nonneg (|a| - |b|)
    have := sq_abs a
    have := sq_abs b
    nlinarith
  have q1 := q (u (2 * h + (h - 1 - i))) (u (3 * h + i))
  have q2 := q (u i) (u (h + (h - 1 - i)))
  linarith

theorem l2_foldAbs (h : Nat) (u : Nat → ℝ) : l2 (2 * h) (foldAbs h u) ≤ Real.sqrt 2 * l2 (4 * h) (fun p => |u p|) := by
  refine l2_le_of_sq (mul_nonneg (Real.sqrt_nonneg _) (l2_nonneg _ _)) ?_
  rw [mul_pow, Real.sq_sqrt (by norm_num), l2_sq]
  simp only [sq_abs]
  exact foldAbs_energy h u

theorem l2_dct4 (h : Nat) (v : Nat → ℝ) :
    l2 (2 * h) (fun k => |2 * Fourier.dct4 (2 * h) v k|) = 2 * Real.sqrt h * l2 (2 * h) (fun k => |v k|) := by
  unfold l2
  have e : ∀ k, |2 * Fourier.dct4 (2 * h) v k| ^ 2 = 2 ^ 2 * (Fourier.dct4 (2 * h) v k) ^ 2 := by
    intro k; rw [sq_abs]; ring
  simp only [e, sq_abs]
  rw [← Finset.mul_sum, dct4_energy, Real.sqrt_mul (by norm_num), Real.sqrt_sq (by norm_num), mul_assoc]
  congr 1
  rw [← Real.sqrt_mul (by positivity)]
  congr 1
  push_cast
  ring

theorem l2_unfold (h : Nat) (y : Nat → ℝ) :
    l2 (4 * h) (fun p => |unfoldAt h y p|) = Real.sqrt 2 * l2 (2 * h) (fun k => |y k|) := by
  unfold l2
  simp only [sq_abs]
  rw [unfold_energy, Real.sqrt_mul (by norm_num)]

theorem gain_real {h : Nat} (h0 : 0 < h) : (mdctGain (2 * h) : ℝ) = 1 / (2 * Real.sqrt h) := by
  have hg : (mdctGain (2 * h) : ℝ) = 1 / Real.sqrt (2 * (2 * h : Nat)) := by
    show ((1 : ℚ) : ℝ) / Real.sqrt (((2 : ℚ) : ℝ) * (((2 * h : Nat) : ℚ) : ℝ)) = _
    push_cast
    rfl
  rw [hg]
  congr 1
  rw [show (2 : ℝ) * ((2 * h : Nat) : ℝ) = 2 ^ 2 * h by push_cast; ring, Real.sqrt_mul (by norm_num), Real.sqrt_sq (by norm_num)]

namespace F32
variable {el : Elem}

theorem rnd_int24 {s : ℤ} (h : |s| < 2 ^ 24) : rnd (s : ℚ) = fin s := by
  have hr : rndQ (s : ℚ) = s := rndQ_rep ⟨s, 0, by simp, by exact_mod_cast h, by norm_num⟩
  rw [rnd_fin, hr]
  have : |(s : ℚ)| < 2 ^ 24 := by exact_mod_cast h
  norm_num at this ⊢
  linarith

/-- the gain -/
theorem gain_near (hel : Accurate el) {h : ℕ} (h0 : 0 < h) (hh : h ≤ 2 ^ 20) :
    IsFin (@mdctGain F32 (scalar el) (2 * h)) ∧
      |val (@mdctGain F32 (scalar el) (2 * h)) - mdctGain (2 * h)| ≤ 202 / 100 / 2 ^ 24 * mdctGain (2 * h) ∧
      0 < (mdctGain (2 * h) : ℝ) ∧ (mdctGain (2 * h) : ℝ) ≤ 1 / 2 := by
  have h4 : rnd 2 = fin 2 := rnd_two
  have h5 : rnd (((2 * h : ℕ) : ℚ)) = fin ((2 * h : ℕ) : ℚ) := by
    have := rnd_int24 (s := (2 * h : ℕ)) (by rw [abs_of_nonneg (by positivity)]; push_cast; norm_num at hh ⊢; omega)
    exact_mod_cast this
  have h6 : rnd (2 * ((2 * h : ℕ) : ℚ)) = fin ((4 * h : ℕ) : ℚ) := by
    have := rnd_int24 (s := (4 * h : ℕ)) (by rw [abs_of_nonneg (by positivity)]; push_cast; norm_num at hh ⊢; omega)
    have e : (2 * ((2 * h : ℕ) : ℚ)) = (((4 * h : ℕ) : ℤ) : ℚ) := by push_cast; ring
    rw [e, this]
    congr 1
  have h1 : rnd 1 = fin 1 := by
    have := rnd_int24 (s := 1) (by norm_num)
    exact_mod_cast this
  obtain ⟨r, hr, her⟩ := hel.sqrt ((4 * h : ℕ) : ℚ) (by positivity)
  have e : @mdctGain F32 (scalar el) (2 * h) = div (rnd 1) (el.sqrt (mul (rnd 2) (rnd (((2 * h : ℕ) : ℚ))))) := rfl
  have hs : Real.sqrt (((4 * h : ℕ) : ℚ) : ℝ) = 2 * Real.sqrt h := by
    rw [show (((4 * h : ℕ) : ℚ) : ℝ) = 2 ^ 2 * h by push_cast; ring, Real.sqrt_mul (by norm_num), Real.sqrt_sq (by norm_num)]
  rw [hs] at her
  have hh1 : 1 ≤ Real.sqrt h := by
    rw [Real.one_le_sqrt]; exact_mod_cast h0
  have hh2 : Real.sqrt h ≤ 2 ^ 10 := by
    rw [Real.sqrt_le_iff]
    refine ⟨by positivity, ?_⟩
    have : (h : ℝ) ≤ 2 ^ 20 := by exact_mod_cast hh
    refine this.trans ?_
    norm_num
  rw [gain_real h0]
  obtain ⟨s, hsd⟩ : ∃ s, s = 2 * Real.sqrt h := ⟨_, rfl⟩
  rw [← hsd] at her ⊢
  have hs1 : 2 ≤ s := by linarith
  have hs2 : s ≤ 2 ^ 11 := by norm_num at hh2 ⊢; linarith
  obtain ⟨her1, her2⟩ := abs_le.1 her
  have hrp : s * (1 - 1 / 2 ^ 24) ≤ (r : ℝ) := by linarith
  have hr0 : (0 : ℝ) < r := by
    refine lt_of_lt_of_le ?_ hrp
    norm_num
    linarith
  have hr1 : (1 : ℝ) ≤ r := by
    refine le_trans ?_ hrp
    norm_num
    linarith
  have hrq : (r : ℚ) ≠ 0 := by
    intro h; rw [h] at hr0; simp at hr0
  have e2 : @mdctGain F32 (scalar el) (2 * h) = rnd (1 / r) := by
    rw [e, h4, h5]
    show div (rnd 1) (el.sqrt (rnd (2 * ((2 * h : ℕ) : ℚ)))) = _
    rw [h6, hr, h1]
    show (if r = 0 then _ else rnd (1 / r)) = _
    rw [if_neg hrq]
  rw [e2]
  have hinv : ((1 / r : ℚ) : ℝ) = 1 / (r : ℝ) := by push_cast; ring
  have hle : 1 / (r : ℝ) ≤ 1 := by rw [div_le_one hr0]; exact hr1
  have hpos : 0 < 1 / (r : ℝ) := by positivity
  obtain ⟨f1, f2⟩ := rnd_val (x := 1 / r) (by rw [hinv, abs_of_pos hpos]; refine hle.trans ?_; norm_num)
  rw [hinv, abs_of_pos hpos] at f2
  have hd : |1 / (r : ℝ) - 1 / s| ≤ 1001 / 1000 / 2 ^ 24 * (1 / s) := by
    have hs0 : 0 < s := by linarith
    rw [div_sub_div _ _ hr0.ne' hs0.ne', abs_div, abs_of_pos (by positivity : 0 < (r : ℝ) * s), div_le_iff₀ (by positivity)]
    have e3 : |1 * s - (r : ℝ) * 1| = |(r : ℝ) - s| := by rw [one_mul, mul_one, abs_sub_comm]
    rw [e3]
    refine her.trans ?_
    have : 1001 / 1000 / 2 ^ 24 * (1 / s) * ((r : ℝ) * s) = 1001 / 1000 / 2 ^ 24 * r := by field_simp
    rw [this]
    norm_num at hrp ⊢
    linarith
  have hg : 1 / 2 ^ 11 ≤ 1 / s := by
    apply one_div_le_one_div_of_le <;> linarith
  have hg2 : 1 / s ≤ 1 / 2 := by
    apply one_div_le_one_div_of_le <;> linarith
  refine ⟨f1, ?_, by positivity, hg2⟩
  have e4 : val (rnd (1 / r)) - 1 / s = (val (rnd (1 / r)) - 1 / (r : ℝ)) + (1 / (r : ℝ) - 1 / s) := by ring
  rw [e4]
  refine (abs_add_le _ _).trans ?_
  obtain ⟨-, hd2⟩ := abs_le.1 hd
  norm_num at f2 hd hd2 hg ⊢
  linarith

/-- a windowed sample -/
theorem winAt_near {freq : List Int} {wn : List Rat} (hf : ∀ p, |freq.getD p 0| ≤ 2 ^ 15)
    (hw : ∀ p, |((wn.getD p 0 : Rat) : ℝ)| ≤ 2) (p : ℕ) :
    IsFin (@winAt F32 (scalar el) freq wn p) ∧
      |val (@winAt F32 (scalar el) freq wn p) - wsample freq wn p| ≤ 201 / 100 / 2 ^ 24 * |wsample freq wn p| + 1 / 2 ^ 120 := by
  have hf' := hf p
  have hw' := hw p
  have e : @winAt F32 (scalar el) freq wn p = mul (rnd ((freq.getD p 0 : ℤ) : ℚ)) (rnd (wn.getD p 0)) := rfl
  unfold wsample
  rw [e]
  generalize freq.getD p 0 = s at *
  generalize wn.getD p 0 = w at *
  have hs : |(s : ℝ)| ≤ 2 ^ 15 := by exact_mod_cast hf'
  rw [rnd_int24 (lt_of_le_of_lt hf' (by norm_num))]
  obtain ⟨f1, f2⟩ := rnd_val (x := w) (hw'.trans (by norm_num))
  have hv : val (fin (s : ℚ)) = (s : ℝ) := by show ((s : ℚ) : ℝ) = _; push_cast; rfl
  have a1 : |(s : ℝ) * val (rnd w) - s * w| ≤ |(s : ℝ) * w| / 2 ^ 24 + 2 ^ 15 / 2 ^ 150 := by
    rw [← mul_sub, abs_mul]
    have : |(s : ℝ)| * |val (rnd w) - w| ≤ |(s : ℝ)| * (|(w : ℝ)| / 2 ^ 24 + 1 / 2 ^ 150) := by gcongr
    refine this.trans ?_
    rw [abs_mul, mul_add, mul_div_assoc]
    have : |(s : ℝ)| * (1 / 2 ^ 150) ≤ 2 ^ 15 * (1 / 2 ^ 150) := by gcongr
    norm_num at this ⊢
    linarith
  have a2 : |(s : ℝ) * val (rnd w)| ≤ |(s : ℝ) * w| * (1 + 1 / 2 ^ 24) + 2 ^ 15 / 2 ^ 150 := by
    have := abs_sub_abs_le_abs_sub ((s : ℝ) * val (rnd w)) (s * w)
    rw [mul_add, mul_one, mul_one_div]
    linarith
  have a3 : |(s : ℝ) * w| ≤ 2 ^ 16 := by
    rw [abs_mul]
    have : |(s : ℝ)| * |(w : ℝ)| ≤ 2 ^ 15 * 2 := by gcongr
    norm_num at this ⊢
    linarith
  obtain ⟨g1, g2⟩ := mul_val (a := fin (s : ℚ)) (b := rnd w) ⟨_, rfl⟩ f1 (by
    rw [hv]
    refine a2.trans ?_
    norm_num at a3 ⊢
    linarith)
  rw [hv] at g2
  refine ⟨g1, ?_⟩
  have e4 : val (mul (fin (s : ℚ)) (rnd w)) - (s : ℝ) * w
      = (val (mul (fin (s : ℚ)) (rnd w)) - (s : ℝ) * val (rnd w)) + ((s : ℝ) * val (rnd w) - s * w) := by ring
  rw [e4]
  refine (abs_add_le _ _).trans ?_
  have a0 := abs_nonneg ((s : ℝ) * w)
  norm_num at a0 a1 a2 a3 g2 ⊢
  linarith

/-- the sum of two approximated values -/
theorem add_near {a b : F32} {x y c t : ℝ} (ha : IsFin a) (hb : IsFin b)
    (ea : |val a - x| ≤ c / 2 ^ 24 * |x| + t) (eb : |val b - y| ≤ c / 2 ^ 24 * |y| + t) (hc : c ≤ 1000) (hc0 : 0 ≤ c) (ht : t ≤ 1 / 2 ^ 40)
    (ht0 : 1 / 2 ^ 150 ≤ t) (hx : |x| ≤ 2 ^ 60) (hy : |y| ≤ 2 ^ 60) :
    IsFin (add a b) ∧ |val (add a b) - (x + y)| ≤ (c + 101 / 100) / 2 ^ 24 * (|x| + |y|) + 4 * t := by
  have h1 : |(val a + val b) - (x + y)| ≤ c / 2 ^ 24 * (|x| + |y|) + 2 * t := by
    have e : (val a + val b) - (x + y) = (val a - x) + (val b - y) := by ring
    rw [e]
    refine (abs_add_le _ _).trans ?_
    linarith
  have hx0 := abs_nonneg x
  have hy0 := abs_nonneg y
  have h3 : c / 2 ^ 24 * (|x| + |y|) ≤ 1000 / 2 ^ 24 * (|x| + |y|) := by gcongr
  have h2 : |val a + val b| ≤ (|x| + |y|) * (1 + 1000 / 2 ^ 24) + 2 * t := by
    have := abs_sub_abs_le_abs_sub (val a + val b) (x + y)
    have := abs_add_le x y
    linarith
  obtain ⟨f, g⟩ := add_val ha hb (h2.trans (by norm_num at hx hy ht ⊢; linarith))
  refine ⟨f, ?_⟩
  have e : val (add a b) - (x + y) = (val (add a b) - (val a + val b)) + ((val a + val b) - (x + y)) := by ring
  rw [e]
  refine (abs_add_le _ _).trans ?_
  have e2 : (c + 101 / 100) / 2 ^ 24 * (|x| + |y|) = c / 2 ^ 24 * (|x| + |y|) + 101 / 100 / 2 ^ 24 * (|x| + |y|) := by ring
  rw [e2]
  norm_num at h1 h2 g ht0 ht ⊢
  linarith

theorem neg_near {b : F32} {y e : ℝ} (hb : IsFin b) (eb : |val b - y| ≤ e) : IsFin (neg b) ∧ |val (neg b) - -y| ≤ e := by
  obtain ⟨h1, h2⟩ := neg_val hb
  refine ⟨h1, ?_⟩
  rw [h2, ← neg_sub', abs_neg]
  exact eb

/-- the folded frame -/
theorem fold_near {h : ℕ} {freq : List Int} {wn : List Rat} (hf : ∀ p, |freq.getD p 0| ≤ 2 ^ 15)
    (hw : ∀ p, |((wn.getD p 0 : Rat) : ℝ)| ≤ 2) (i : ℕ) :
    IsFin (@foldG F32 (scalar el) h (@winAt F32 (scalar el) freq wn) i) ∧
      |val (@foldG F32 (scalar el) h (@winAt F32 (scalar el) freq wn) i) - foldAt h (wsample freq wn) i|
        ≤ 302 / 100 / 2 ^ 24 * foldAbs h (wsample freq wn) i + 4 / 2 ^ 120 := by
  have hws : ∀ p, |wsample freq wn p| ≤ 2 ^ 60 := by
    intro p
    unfold wsample
    rw [abs_mul]
    have : |(freq.getD p 0 : ℝ)| ≤ 2 ^ 15 := by exact_mod_cast hf p
    have := hw p
    have : |(freq.getD p 0 : ℝ)| * |((wn.getD p 0 : Rat) : ℝ)| ≤ 2 ^ 15 * 2 := by gcongr
    refine this.trans ?_
    norm_num
  have key : ∀ {a b : F32} {x y : ℝ}, IsFin a → IsFin b → |val a - x| ≤ 201 / 100 / 2 ^ 24 * |x| + 1 / 2 ^ 120 →
      |val b - y| ≤ 201 / 100 / 2 ^ 24 * |y| + 1 / 2 ^ 120 → |x| ≤ 2 ^ 60 → |y| ≤ 2 ^ 60 →
      IsFin (sub a b) ∧ |val (sub a b) - (x - y)| ≤ 302 / 100 / 2 ^ 24 * (|x| + |y|) + 4 / 2 ^ 120 := by
    intro a b x y ha hb ea eb hx hy
    obtain ⟨n1, n2⟩ := neg_near hb eb
    have := add_near (c := 201 / 100) (t := 1 / 2 ^ 120) ha n1 ea (by rw [abs_neg]; exact n2) (by norm_num) (by norm_num) (by norm_num) (by norm_num)
      hx (by rw [abs_neg]; exact hy)
    rw [abs_neg, ← sub_eq_add_neg] at this
    refine ⟨this.1, this.2.trans (le_of_eq ?_)⟩
    norm_num
  unfold foldG foldAt foldAbs
  by_cases hc : i < h
  · rw [if_pos hc, if_pos hc, if_pos hc]
    obtain ⟨a1, a2⟩ := winAt_near (el := el) hf hw (3 * h - 1 - i)
    obtain ⟨b1, b2⟩ := winAt_near (el := el) hf hw (3 * h + i)
    obtain ⟨n1, n2⟩ := neg_near a1 a2
    have := key n1 b1 (by rw [abs_neg]; exact n2) b2 (by rw [abs_neg]; exact hws _) (hws _)
    rw [abs_neg] at this
    exact this
  · rw [if_neg hc, if_neg hc, if_neg hc]
    obtain ⟨a1, a2⟩ := winAt_near (el := el) hf hw (i - h)
    obtain ⟨b1, b2⟩ := winAt_near (el := el) hf hw (3 * h - 1 - i)
    exact key a1 b1 a2 b2 (hws _) (hws _)

/-- multiplication by the gain -/
theorem gainMul_near {y ĝ : F32} {v g : ℝ} (hy : IsFin y) (hg : IsFin ĝ) (hg0 : 0 < g) (hg1 : g ≤ 1 / 2)
    (eg : |val ĝ - g| ≤ 202 / 100 / 2 ^ 24 * g) (hb : |val y| ≤ 2 ^ 90) :
    IsFin (mul y ĝ) ∧ |val (mul y ĝ) - v * g| ≤ g * |val y - v| + 303 / 100 / 2 ^ 24 * (g * |val y|) + 1 / 2 ^ 150 := by
  have hgv : |val ĝ| ≤ g * (1 + 202 / 100 / 2 ^ 24) := by
    have := abs_sub_abs_le_abs_sub (val ĝ) g
    rw [abs_of_pos hg0] at this
    linarith
  have hp : |val y * val ĝ| ≤ g * |val y| * (1 + 202 / 100 / 2 ^ 24) := by
    rw [abs_mul]
    calc |val y| * |val ĝ| ≤ |val y| * (g * (1 + 202 / 100 / 2 ^ 24)) := by gcongr
      _ = _ := by ring
  have hgy : g * |val y| ≤ 1 / 2 * 2 ^ 90 := by gcongr
  obtain ⟨f1, f2⟩ := mul_val hy hg (hp.trans (by norm_num at hgy ⊢; linarith))
  refine ⟨f1, ?_⟩
  have e : val (mul y ĝ) - v * g = (val (mul y ĝ) - val y * val ĝ) + (val y * (val ĝ - g) + (val y - v) * g) := by ring
  rw [e]
  refine (abs_add_le _ _).trans ((add_le_add_right (abs_add_le _ _) _).trans ?_)
  have t1 : |val y * (val ĝ - g)| ≤ |val y| * (202 / 100 / 2 ^ 24 * g) := by
    rw [abs_mul]; gcongr
  have t2 : |(val y - v) * g| = g * |val y - v| := by rw [abs_mul, abs_of_pos hg0, mul_comm]
  rw [t2]
  have t0 : 0 ≤ g * |val y| := by positivity
  have t3 : |val y| * (202 / 100 / 2 ^ 24 * g) = 202 / 100 / 2 ^ 24 * (g * |val y|) := by ring
  rw [t3] at t1
  norm_num at f2 hp t1 ⊢
  linarith

/-- the encoder's transform -/
theorem mdctApply_near (hel : Accurate el) {h : ℕ} {fac : List (ℕ × ℕ)} (hfac : kfFactor h = .ok fac) (hok : FacOk fac h)
    (hh : h ≤ 2 ^ 16) (hk : kapSum fac ≤ 1000) {freq : List Int} {wn : List Rat} (hl : freq.length = 4 * h) (hwl : wn.length = 4 * h)
    (hf : ∀ p, |freq.getD p 0| ≤ 2 ^ 15) (hw : ∀ p, |((wn.getD p 0 : Rat) : ℝ)| ≤ 2) :
    ∃ c : ℕ → F32, @mdctApply F32 (scalar el) (2 * h) freq wn = .ok ((List.range (2 * h)).map c) ∧
      (∀ k, k < 2 * h → IsFin (c k)) ∧
      l2 (2 * h) (fun k => |val (c k) - 2 * Fourier.dct4 (2 * h) (foldAt h (wsample freq wn)) k * mdctGain (2 * h)|)
        ≤ (kapSum fac + 18) / 2 ^ 24 * (Real.sqrt 2 * l2 (4 * h) (fun p => |wsample freq wn p|) + 1 / 2 ^ 60) := by
  have h0 := hok.pos
  obtain ⟨F, hF⟩ : ∃ F, F = Real.sqrt 2 * l2 (4 * h) (fun p => |wsample freq wn p|) := ⟨_, rfl⟩
  obtain ⟨φ, hφ⟩ : ∃ φ, φ = @foldG F32 (scalar el) h (@winAt F32 (scalar el) freq wn) := ⟨_, rfl⟩
  obtain ⟨f, hfd⟩ : ∃ f, f = foldAt h (wsample freq wn) := ⟨_, rfl⟩
  have hfn : ∀ i, IsFin (φ i) ∧ |val (φ i) - f i| ≤ 302 / 100 / 2 ^ 24 * foldAbs h (wsample freq wn) i + 4 / 2 ^ 120 := by
    intro i; rw [hφ, hfd]; exact fold_near hf hw i
  have hFa : l2 (2 * h) (foldAbs h (wsample freq wn)) ≤ F := by rw [hF]; exact l2_foldAbs h _
  have hF0 : 0 ≤ F := (l2_nonneg _ _).trans hFa
  have hfF : l2 (2 * h) (fun i => |f i|) ≤ F := by
    refine le_trans (l2_mono (fun _ _ => abs_nonneg _) fun i _ => ?_) hFa
    rw [hfd]; exact foldAt_abs _ _ _
  have hs2 : Real.sqrt (2 * h : ℕ) ≤ 2 ^ 10 := by
    rw [Real.sqrt_le_iff]
    refine ⟨by positivity, ?_⟩
    have : ((2 * h : ℕ) : ℝ) ≤ ((2 ^ 17 : ℕ) : ℝ) := by exact_mod_cast (by omega : 2 * h ≤ 2 ^ 17)
    refine this.trans ?_
    norm_num
  have hFb : F ≤ 2 ^ 40 := by
    rw [hF]
    have h1 : l2 (4 * h) (fun p => |wsample freq wn p|) ≤ l2 (4 * h) (fun _ => 2 ^ 16) := by
      refine l2_mono (fun _ _ => abs_nonneg _) fun p _ => ?_
      unfold wsample
      rw [abs_mul]
      have : |(freq.getD p 0 : ℝ)| ≤ 2 ^ 15 := by exact_mod_cast hf p
      have := hw p
      have : |(freq.getD p 0 : ℝ)| * |((wn.getD p 0 : Rat) : ℝ)| ≤ 2 ^ 15 * 2 := by gcongr
      refine this.trans ?_
      norm_num
    rw [l2_const _ (by norm_num)] at h1
    have h3 : Real.sqrt (4 * h : ℕ) ≤ 2 ^ 10 := by
      rw [Real.sqrt_le_iff]
      refine ⟨by positivity, ?_⟩
      have : ((4 * h : ℕ) : ℝ) ≤ ((2 ^ 18 : ℕ) : ℝ) := by exact_mod_cast (by omega : 4 * h ≤ 2 ^ 18)
      refine this.trans ?_
      norm_num
    have h2 : Real.sqrt 2 ≤ 2 := by
      rw [Real.sqrt_le_iff]; norm_num
    calc Real.sqrt 2 * l2 (4 * h) (fun p => |wsample freq wn p|) ≤ 2 * (2 ^ 10 * 2 ^ 16) := by
          refine mul_le_mul h2 (h1.trans ?_) (l2_nonneg _ _) (by norm_num)
          gcongr
      _ ≤ 2 ^ 40 := by norm_num
  have hEφ : l2 (2 * h) (fun i => |val (φ i) - f i|) ≤ 302 / 100 / 2 ^ 24 * F + 1 / 2 ^ 100 := by
    have h1 := l2_add_le (2 * h) (fun i => 302 / 100 / 2 ^ 24 * foldAbs h (wsample freq wn) i) (fun _ => 4 / 2 ^ 120)
    rw [l2_smul _ _ (by norm_num), l2_const _ (by norm_num)] at h1
    refine (l2_mono (fun _ _ => abs_nonneg _) fun i _ => (hfn i).2).trans (h1.trans ?_)
    refine add_le_add (by gcongr) ?_
    refine (mul_le_mul_of_nonneg_right hs2 (by norm_num)).trans ?_
    norm_num
  have hφl : l2 (2 * h) (fun i => |val (φ i)|) ≤ F * (1 + 4 / 2 ^ 24) + 1 / 2 ^ 100 := by
    have h1 : l2 (2 * h) (fun i => |val (φ i)|) ≤ l2 (2 * h) (fun i => |f i| + |val (φ i) - f i|) := by
      refine l2_mono (fun _ _ => abs_nonneg _) fun i _ => ?_
      have := abs_sub_abs_le_abs_sub (val (φ i)) (f i)
      linarith
    have h2 := l2_add_le (2 * h) (fun i => |f i|) (fun i => |val (φ i) - f i|)
    norm_num at hEφ h1 h2 ⊢
    linarith
  obtain ⟨y, hy1, hy2, hy3⟩ := dctIv_near hel hfac hok (hh.trans (by norm_num)) hk (x := φ) (fun k _ => (hfn k).1)
    (hφl.trans (by norm_num at hFb ⊢; linarith))
  obtain ⟨Y, hY⟩ : ∃ Y : ℕ → ℝ, Y = fun k => 2 * Fourier.dct4 (2 * h) f k := ⟨_, rfl⟩
  have hsh : 1 ≤ Real.sqrt h := by
    rw [Real.one_le_sqrt]; exact_mod_cast h0
  have hk' : (kapSum fac : ℝ) ≤ 1000 := by exact_mod_cast hk
  have hk0 : (0 : ℝ) ≤ kapSum fac := by positivity
  have hYe : l2 (2 * h) (fun k => |val (y k) - Y k|)
      ≤ 2 * Real.sqrt h * ((kapSum fac + 1403 / 100) / 2 ^ 24 * (F + 1 / 2 ^ 68)) := by
    have h1 : l2 (2 * h) (fun k => |val (y k) - Y k|)
        ≤ l2 (2 * h) (fun k => |val (y k) - 2 * Fourier.dct4 (2 * h) (fun k => val (φ k)) k|)
          + l2 (2 * h) (fun k => |2 * Fourier.dct4 (2 * h) (fun k => val (φ k) - f k) k|) := by
      refine le_trans (l2_mono (fun k _ => abs_nonneg _) fun k _ => ?_) (l2_add_le _ _ _)
      rw [hY, dct4_sub]
      refine le_trans (le_of_eq ?_) (abs_add_le _ _)
      congr 1
      ring
    rw [l2_dct4] at h1
    have h2 : 2 * Real.sqrt h * ((kapSum fac + 11) / 2 ^ 24) * (l2 (2 * h) (fun k => |val (φ k)|) + 1 / 2 ^ 70)
        ≤ 2 * Real.sqrt h * ((kapSum fac + 11) / 2 ^ 24) * (F * (1 + 4 / 2 ^ 24) + 1 / 2 ^ 100 + 1 / 2 ^ 70) := by gcongr
    have h3 : 2 * Real.sqrt h * l2 (2 * h) (fun k => |val (φ k) - f k|)
        ≤ 2 * Real.sqrt h * (302 / 100 / 2 ^ 24 * F + 1 / 2 ^ 100) := by gcongr
    have h4 : (kapSum fac + 11 : ℝ) / 2 ^ 24 * (F * (1 + 4 / 2 ^ 24) + 1 / 2 ^ 100 + 1 / 2 ^ 70) + (302 / 100 / 2 ^ 24 * F + 1 / 2 ^ 100)
        ≤ (kapSum fac + 1403 / 100) / 2 ^ 24 * (F + 1 / 2 ^ 68) := by
      have hm : (kapSum fac : ℝ) * F ≤ 1000 * F := by gcongr
      have hm0 : 0 ≤ (kapSum fac : ℝ) * F := by positivity
      have e : ∀ c : ℝ, (kapSum fac + c) / 2 ^ 24 * F = (kapSum fac : ℝ) * F / 2 ^ 24 + c / 2 ^ 24 * F := by intro c; ring
      have e1 : (kapSum fac + 11 : ℝ) / 2 ^ 24 * (F * (1 + 4 / 2 ^ 24) + 1 / 2 ^ 100 + 1 / 2 ^ 70)
          = ((kapSum fac : ℝ) * F / 2 ^ 24 + 11 / 2 ^ 24 * F) * (1 + 4 / 2 ^ 24)
            + (kapSum fac + 11) / 2 ^ 24 * (1 / 2 ^ 100 + 1 / 2 ^ 70) := by ring
      have e2 : (kapSum fac + 1403 / 100 : ℝ) / 2 ^ 24 * (F + 1 / 2 ^ 68)
          = ((kapSum fac : ℝ) * F / 2 ^ 24 + 1403 / 100 / 2 ^ 24 * F) + (kapSum fac + 1403 / 100) / 2 ^ 24 * (1 / 2 ^ 68) := by ring
      rw [e1, e2]
      generalize (kapSum fac : ℝ) * F = G at *
      norm_num at hm ⊢
      linarith
    calc _ ≤ _ := h1
      _ ≤ 2 * Real.sqrt h * ((kapSum fac + 11) / 2 ^ 24) * (F * (1 + 4 / 2 ^ 24) + 1 / 2 ^ 100 + 1 / 2 ^ 70)
          + 2 * Real.sqrt h * (302 / 100 / 2 ^ 24 * F + 1 / 2 ^ 100) := add_le_add (hy3.trans h2) h3
      _ = 2 * Real.sqrt h * ((kapSum fac + 11 : ℝ) / 2 ^ 24 * (F * (1 + 4 / 2 ^ 24) + 1 / 2 ^ 100 + 1 / 2 ^ 70)
          + (302 / 100 / 2 ^ 24 * F + 1 / 2 ^ 100)) := by ring
      _ ≤ _ := by gcongr
  have hYl : l2 (2 * h) (fun k => |Y k|) ≤ 2 * Real.sqrt h * F := by
    rw [hY, l2_dct4]
    gcongr
  obtain ⟨g1, g2, g3, g4⟩ := gain_near hel h0 (hh.trans (by norm_num))
  have hgs := gain_real h0
  obtain ⟨g, hgd⟩ : ∃ g, g = (mdctGain (2 * h) : ℝ) := ⟨_, rfl⟩
  rw [← hgd] at g2 g3 g4 hgs ⊢
  have hgm : g * (2 * Real.sqrt h) = 1 := by
    rw [hgs]
    field_simp
  have hyl : l2 (2 * h) (fun k => |val (y k)|) ≤ l2 (2 * h) (fun k => |Y k|) + l2 (2 * h) (fun k => |val (y k) - Y k|) := by
    refine le_trans (l2_mono (fun _ _ => abs_nonneg _) fun k _ => ?_) (l2_add_le _ _ _)
    have := abs_sub_abs_le_abs_sub (val (y k)) (Y k)
    linarith
  -- in units of the gain
  have b1 : g * l2 (2 * h) (fun k => |val (y k) - Y k|) ≤ (kapSum fac + 1403 / 100) / 2 ^ 24 * (F + 1 / 2 ^ 68) := by
    calc g * l2 (2 * h) (fun k => |val (y k) - Y k|)
        ≤ g * (2 * Real.sqrt h * ((kapSum fac + 1403 / 100) / 2 ^ 24 * (F + 1 / 2 ^ 68))) := by gcongr
      _ = g * (2 * Real.sqrt h) * ((kapSum fac + 1403 / 100) / 2 ^ 24 * (F + 1 / 2 ^ 68)) := by ring
      _ = _ := by rw [hgm, one_mul]
  have b2 : g * l2 (2 * h) (fun k => |Y k|) ≤ F := by
    calc g * l2 (2 * h) (fun k => |Y k|) ≤ g * (2 * Real.sqrt h * F) := by gcongr
      _ = g * (2 * Real.sqrt h) * F := by ring
      _ = F := by rw [hgm, one_mul]
  have b3 : (kapSum fac + 1403 / 100 : ℝ) / 2 ^ 24 * (F + 1 / 2 ^ 68) ≤ 1 / 2 ^ 13 * (F + 1 / 2 ^ 68) := by
    have : (kapSum fac + 1403 / 100 : ℝ) / 2 ^ 24 ≤ 1 / 2 ^ 13 := by
      rw [div_le_iff₀ (by norm_num)]
      norm_num
      linarith
    gcongr
  have b4 : g * l2 (2 * h) (fun k => |val (y k)|) ≤ F * (1 + 1 / 2 ^ 13) + 1 / 2 ^ 68 := by
    calc g * l2 (2 * h) (fun k => |val (y k)|)
        ≤ g * (l2 (2 * h) (fun k => |Y k|) + l2 (2 * h) (fun k => |val (y k) - Y k|)) := by gcongr
      _ = g * l2 (2 * h) (fun k => |Y k|) + g * l2 (2 * h) (fun k => |val (y k) - Y k|) := by ring
      _ ≤ F + 1 / 2 ^ 13 * (F + 1 / 2 ^ 68) := add_le_add b2 (b1.trans b3)
      _ ≤ _ := by
        norm_num
        linarith
  have hymax : ∀ k, k < 2 * h → |val (y k)| ≤ 2 ^ 90 := by
    intro k hk
    have a1 := le_l2 (fun k => |val (y k)|) hk
    have a2 : l2 (2 * h) (fun k => |val (y k)|) = (2 * Real.sqrt h) * (g * l2 (2 * h) (fun k => |val (y k)|)) := by
      rw [← mul_assoc, mul_comm (2 * Real.sqrt h) g, hgm, one_mul]
    have a3 : Real.sqrt h ≤ 2 ^ 10 := by
      refine le_trans (Real.sqrt_le_sqrt ?_) hs2
      push_cast
      have : (0 : ℝ) ≤ h := by positivity
      linarith
    have a4 : (2 * Real.sqrt h) * (g * l2 (2 * h) (fun k => |val (y k)|)) ≤ (2 * 2 ^ 10) * (2 ^ 41) := by
      refine mul_le_mul (by linarith) (b4.trans ?_) (mul_nonneg g3.le (l2_nonneg _ _)) (by norm_num)
      norm_num at hFb ⊢
      linarith
    rw [← a2] at a4
    norm_num at a1 a4 ⊢
    linarith
  have hline : ∀ k, k < 2 * h → IsFin (mul (y k) (@mdctGain F32 (scalar el) (2 * h))) ∧
      |val (mul (y k) (@mdctGain F32 (scalar el) (2 * h))) - Y k * g|
        ≤ g * |val (y k) - Y k| + 303 / 100 / 2 ^ 24 * (g * |val (y k)|) + 1 / 2 ^ 150 :=
    fun k hk => gainMul_near (hy2 k hk) g1 g3 g4 g2 (hymax k hk)
  refine ⟨fun k => mul (y k) (@mdctGain F32 (scalar el) (2 * h)), ?_, fun k hk => (hline k hk).1, ?_⟩
  · letI := scalar el
    unfold mdctApply
    rw [mdctFold_gen hl hwl, Res.bind_ok, ← hφ, hy1, Res.bind_ok, List.map_map]
    rfl
  · rw [← hF, ← hfd]
    have e1 : l2 (2 * h) (fun k => |val (mul (y k) (@mdctGain F32 (scalar el) (2 * h))) - 2 * Fourier.dct4 (2 * h) f k * g|)
        ≤ l2 (2 * h) (fun k => (g * |val (y k) - Y k| + 303 / 100 / 2 ^ 24 * (g * |val (y k)|)) + 1 / 2 ^ 150) := by
      refine l2_mono (fun _ _ => abs_nonneg _) fun k hk => ?_
      have := (hline k hk).2
      rw [hY] at this ⊢
      exact this
    have e2 := l2_add_le (2 * h) (fun k => g * |val (y k) - Y k| + 303 / 100 / 2 ^ 24 * (g * |val (y k)|)) (fun _ => 1 / 2 ^ 150)
    have e3 := l2_add_le (2 * h) (fun k => g * |val (y k) - Y k|) (fun k => 303 / 100 / 2 ^ 24 * (g * |val (y k)|))
    rw [l2_const _ (by norm_num)] at e2
    rw [l2_smul (2 * h) g g3.le (fun k => |val (y k) - Y k|),
      l2_smul (2 * h) (303 / 100 / 2 ^ 24) (by norm_num) (fun k => g * |val (y k)|),
      l2_smul (2 * h) g g3.le (fun k => |val (y k)|)] at e3
    have e4 : Real.sqrt (2 * h : ℕ) * (1 / 2 ^ 150) ≤ 1 / 2 ^ 140 := by
      refine (mul_le_mul_of_nonneg_right hs2 (by norm_num)).trans ?_
      norm_num
    have e5 : (kapSum fac + 18 : ℝ) / 2 ^ 24 * (F + 1 / 2 ^ 60)
        = (kapSum fac + 1403 / 100 : ℝ) / 2 ^ 24 * (F + 1 / 2 ^ 60) + 397 / 100 / 2 ^ 24 * (F + 1 / 2 ^ 60) := by ring
    have e6 : (kapSum fac + 1403 / 100 : ℝ) / 2 ^ 24 * (F + 1 / 2 ^ 68) ≤ (kapSum fac + 1403 / 100 : ℝ) / 2 ^ 24 * (F + 1 / 2 ^ 60) := by
      gcongr <;> norm_num
    rw [e5]
    refine e1.trans (e2.trans ?_)
    norm_num at b4 e3 e4 e6 b1 hF0 ⊢
    linarith

end F32
end Lc3
