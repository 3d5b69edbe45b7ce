import Verif.Lemmas.Dct
import Verif.Lemmas.EncLtpf
import Verif.Model.EncMdct
/-! Analysis and synthesis in exact arithmetic. -/

namespace Lc3
open Scalar Finset

theorem eq_map_range {β : Type} {l : List β} {n : Nat} {F : Nat → β} (hl : l.length = n)
    (h : ∀ i (hi : i < l.length), l[i] = F i) : l = (List.range n).map F := by
  refine List.ext_getElem (by simpa using hl) fun i h1 h2 => ?_
  rw [h i h1]
  simp

/-- the windowed sample `p` of a time buffer -/
noncomputable def wsample (freq : List Int) (wn : List Rat) (p : Nat) : ℝ := (freq.getD p 0 : ℝ) * (wn.getD p 0 : ℝ)

/-- entry `i` of the folded frame -/
noncomputable def foldAt (h : Nat) (u : Nat → ℝ) (i : Nat) : ℝ :=
  if i < h then -u (3 * h - 1 - i) - u (3 * h + i) else u (i - h) - u (3 * h - 1 - i)

theorem getD_of_lt {β : Type} {l : List β} {i : Nat} {d : β} (h : i < l.length) : l.getD i d = l[i] := by
  rw [List.getD_eq_getElem?_getD, List.getElem?_eq_getElem h, Option.getD_some]

theorem winMul_eq {freq : List Int} {wn : List Rat} {p p' q : Nat} {h1 : p < freq.length} {h2 : p' < wn.length}
    (hq : p = q) (hq' : p' = q) : (winMul (freq[p], wn[p']) : ℝ) = wsample freq wn q := by
  subst hq hq'
  simp only [winMul, wsample, Scalar.ofInt, Scalar.ofRat, getD_of_lt h1, getD_of_lt h2]
  push_cast
  rfl

theorem mdctFold_ok {h : Nat} {freq : List Int} {wn : List Rat} (hf : freq.length = 4 * h) (hw : wn.length = 4 * h) :
    mdctFold (2 * h) freq wn = .ok ((List.range (2 * h)).map (foldAt h (wsample freq wn))) := by
  unfold mdctFold
  have hd : 2 * h / 2 = h := by omega
  simp only [hd, usub, show h ≤ 3 * h by omega, if_true, Res.bind_ok]
  rw [sliceR_ok (by omega) (by omega), Res.bind_ok, sliceR_ok (by omega) (by omega), Res.bind_ok,
    sliceR_ok (by omega) (by omega), Res.bind_ok, sliceR_ok (by omega) (by omega), Res.bind_ok,
    sliceR_ok (by omega) (by omega), Res.bind_ok, sliceR_ok (by omega) (by omega), Res.bind_ok,
    sliceR_ok (by omega) (by omega), Res.bind_ok, sliceR_ok (by omega) (by omega), Res.bind_ok]
  congr 1
  refine eq_map_range ?_ ?_
  · simp only [List.length_append, List.length_zipWith, List.length_zip, List.length_reverse, List.length_drop,
      List.length_take]
    omega
  · intro i hi
    have hi' : i < 2 * h := by
      simp only [List.length_append, List.length_zipWith, List.length_zip, List.length_reverse, List.length_drop,
        List.length_take] at hi
      omega
    unfold foldAt
    rw [List.getElem_append]
    by_cases hc : i < h
    · rw [dif_pos (by
        simp only [List.length_zipWith, List.length_zip, List.length_reverse, List.length_drop, List.length_take]
        omega), if_pos hc]
      simp only [List.getElem_zipWith, List.getElem_zip, List.getElem_reverse, List.getElem_drop, List.getElem_take,
        List.length_drop, List.length_take]
      refine congrArg₂ (fun a b => -a - b) (winMul_eq ?_ ?_) (winMul_eq ?_ ?_) <;> omega
    · rw [dif_neg (by
        simp only [List.length_zipWith, List.length_zip, List.length_reverse, List.length_drop, List.length_take]
        omega), if_neg hc]
      simp only [List.getElem_zipWith, List.getElem_zip, List.getElem_reverse, List.getElem_drop, List.getElem_take,
        List.length_drop, List.length_take, List.length_zipWith, List.length_zip, List.length_reverse]
      refine congrArg₂ (fun a b => a - b) (winMul_eq ?_ ?_) (winMul_eq ?_ ?_) <;> omega

/-- entry `p` of the time aliased buffer made of the transform `y` -/
noncomputable def unfoldAt (h : Nat) (y : Nat → ℝ) (p : Nat) : ℝ :=
  if p < h then y (p + h) else if p < 3 * h then -y (3 * h - 1 - p) else -y (p - 3 * h)

theorem mdctUnfold_ok {h : Nat} {fac : List (Nat × Nat)} (hfac : kfFactor h = .ok fac) (hf : FacOk fac h) (x : Nat → ℝ) :
    mdctUnfold (2 * h) ((List.range (2 * h)).map x)
      = .ok ((List.range (4 * h)).map fun p =>
          unfoldAt h (fun k => 2 * Fourier.dct4 (2 * h) x k) p * mdctGain (2 * h)) := by
  unfold mdctUnfold
  rw [dctIv_ok hfac hf, Res.bind_ok]
  have hd : 2 * h / 2 = h := by omega
  simp only [hd]
  congr 1
  refine eq_map_range ?_ ?_
  · simp only [List.length_append, List.length_map, List.length_range, List.length_reverse, List.length_drop,
      List.length_take]
    omega
  · intro p hp
    have hp' : p < 4 * h := by
      simp only [List.length_append, List.length_map, List.length_range, List.length_reverse, List.length_drop,
        List.length_take] at hp
      omega
    simp only [List.getElem_map, List.getElem_append, List.getElem_drop, List.getElem_take, List.getElem_reverse,
      List.getElem_range, List.length_append, List.length_map, List.length_range, List.length_reverse, List.length_drop]
    unfold unfoldAt
    congr 1
    by_cases h1 : p < h
    · rw [dif_pos (by omega), dif_pos (by omega), if_pos h1, Nat.add_comm]
    · by_cases h2 : p < 3 * h
      · rw [dif_pos (by omega), dif_neg (by omega), if_neg h1, if_pos h2]
        congr 3
        omega
      · rw [dif_neg (by omega), dif_pos (by omega), if_neg h1, if_neg h2]
        congr 3
        omega

theorem mdctApply_ok {h : Nat} {fac : List (Nat × Nat)} (hfac : kfFactor h = .ok fac) (hf : FacOk fac h)
    {freq : List Int} {wn : List Rat} (hl : freq.length = 4 * h) (hw : wn.length = 4 * h) :
    mdctApply (2 * h) freq wn = .ok ((List.range (2 * h)).map fun k =>
      2 * Fourier.dct4 (2 * h) (foldAt h (wsample freq wn)) k * mdctGain (2 * h)) := by
  unfold mdctApply
  rw [mdctFold_ok hl hw, Res.bind_ok, dctIv_ok hfac hf, Res.bind_ok, List.map_map]
  rfl

theorem mdctGain_sq {N : Nat} (hN : 0 < N) : 2 * N * ((mdctGain N : ℝ) * mdctGain N) = 1 := by
  have hN' : (0 : ℝ) < N := by exact_mod_cast hN
  have hg : (mdctGain N : ℝ) = 1 / Real.sqrt (2 * N) := by
    show ((1 : ℚ) : ℝ) / Real.sqrt (((2 : ℚ) : ℝ) * ((N : ℚ) : ℝ)) = _
    push_cast
    rfl
  have hs : Real.sqrt (2 * N) * Real.sqrt (2 * N) = 2 * N := Real.mul_self_sqrt (by positivity)
  have h0 : Real.sqrt (2 * N) ≠ 0 := (Real.sqrt_pos.mpr (by positivity)).ne'
  rw [hg]
  field_simp
  linarith

theorem unfoldAt_congr {h : Nat} {y y' : Nat → ℝ} (hy : ∀ k, k < 2 * h → y k = y' k) {p : Nat} (hp : p < 4 * h) :
    unfoldAt h y p = unfoldAt h y' p := by
  unfold unfoldAt
  by_cases h1 : p < h
  · rw [if_pos h1, if_pos h1, hy _ (by omega)]
  · by_cases h2 : p < 3 * h
    · rw [if_neg h1, if_neg h1, if_pos h2, if_pos h2, hy _ (by omega)]
    · rw [if_neg h1, if_neg h1, if_neg h2, if_neg h2, hy _ (by omega)]

theorem unfoldAt_mul {h : Nat} {y : Nat → ℝ} {c : ℝ} {p : Nat} : unfoldAt h y p * c = unfoldAt h (fun k => y k * c) p := by
  unfold unfoldAt
  split
  · rfl
  · split <;> ring

/-- folding, then unfolding: the aliasing of a frame -/
theorem unfold_fold {h : Nat} (u : Nat → ℝ) {p : Nat} (hp : p < 4 * h) :
    unfoldAt h (foldAt h u) p = if p < 2 * h then u p - u (2 * h - 1 - p) else u p + u (6 * h - 1 - p) := by
  unfold unfoldAt foldAt
  by_cases h1 : p < h
  · rw [if_pos h1, if_neg (by omega), if_pos (by omega)]
    congr 2 <;> omega
  · by_cases h2 : p < 2 * h
    · rw [if_neg h1, if_pos (by omega), if_neg (by omega), if_pos h2]
      rw [show 3 * h - 1 - p - h = 2 * h - 1 - p by omega, show 3 * h - 1 - (3 * h - 1 - p) = p by omega]
      ring
    · by_cases h3 : p < 3 * h
      · rw [if_neg h1, if_pos (by omega), if_pos (by omega), if_neg h2]
        rw [show 3 * h + (3 * h - 1 - p) = 6 * h - 1 - p by omega, show 3 * h - 1 - (3 * h - 1 - p) = p by omega]
        ring
      · rw [if_neg h1, if_neg h3, if_pos (by omega), if_neg h2]
        rw [show 3 * h - 1 - (p - 3 * h) = 6 * h - 1 - p by omega, show 3 * h + (p - 3 * h) = p by omega]
        ring

/-- analysis and synthesis of one frame, before the second window -/
theorem mdct_roundtrip {h : Nat} {fac : List (Nat × Nat)} (hfac : kfFactor h = .ok fac) (hf : FacOk fac h)
    {freq : List Int} {wn : List Rat} (hl : freq.length = 4 * h) (hw : wn.length = 4 * h) :
    ∃ lines : List ℝ, mdctApply (2 * h) freq wn = .ok lines ∧ lines.length = 2 * h ∧
      mdctUnfold (2 * h) lines = .ok ((List.range (4 * h)).map fun p =>
        if p < 2 * h then wsample freq wn p - wsample freq wn (2 * h - 1 - p)
        else wsample freq wn p + wsample freq wn (6 * h - 1 - p)) := by
  refine ⟨_, mdctApply_ok hfac hf hl hw, by simp, ?_⟩
  rw [mdctUnfold_ok hfac hf]
  congr 1
  refine List.map_congr_left fun p hp => ?_
  have hp := List.mem_range.mp hp
  rw [← unfold_fold _ hp, unfoldAt_mul]
  refine unfoldAt_congr (fun k hk => ?_) hp
  have hN : 0 < 2 * h := by have := hf.pos; omega
  have hg := mdctGain_sq hN
  have e : Fourier.dct4 (2 * h) (fun k => 2 * Fourier.dct4 (2 * h) (foldAt h (wsample freq wn)) k * mdctGain (2 * h)) k
      = 2 * mdctGain (2 * h) * (((2 * h : Nat) : ℝ) / 2 * foldAt h (wsample freq wn) k) := by
    rw [← dct4_dct4 _ hk, ← dct4_smul]
    exact dct4_congr (fun j _ => by ring) k
  rw [e]
  generalize foldAt h (wsample freq wn) k = a
  generalize ((2 * h : Nat) : ℝ) = n at *
  generalize (mdctGain (2 * h) : ℝ) = g at *
  linear_combination a * hg

end Lc3
