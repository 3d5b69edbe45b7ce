import Verif.Lemmas.MdctWindow
import Verif.Spec.Distance
import Mathlib.Algebra.Order.BigOperators.Group.Finset
import Mathlib.Algebra.BigOperators.Intervals
/-! The decoder's transform on arbitrary lines: its result depends linearly on the lines, and how large it can be. -/

namespace Lc3
open Scalar Finset Spec

/-- Parseval's identity of the cosine transform of type IV -/
theorem dct4_energy {N : Nat} (x : Nat → ℝ) :
    ∑ k ∈ range N, (Fourier.dct4 N x k) ^ 2 = N / 2 * ∑ j ∈ range N, x j ^ 2 := by
  have e1 : ∀ k, (Fourier.dct4 N x k) ^ 2
      = ∑ j ∈ range N, x j * (Fourier.dct4 N x k * Real.cos (Real.pi / N * (k + 1 / 2) * (j + 1 / 2))) := by
    intro k
    rw [sq]
    conv_lhs => arg 1; rw [Fourier.dct4]
    rw [Finset.sum_mul]
    refine Finset.sum_congr rfl fun j _ => ?_
    rw [show Real.pi / N * ((j : ℝ) + 1 / 2) * (k + 1 / 2) = Real.pi / N * (k + 1 / 2) * (j + 1 / 2) by ring]
    ring
  rw [Finset.sum_congr rfl fun k _ => e1 k, Finset.sum_comm, Finset.mul_sum]
  refine Finset.sum_congr rfl fun j hj => ?_
  rw [← Finset.mul_sum]
  have := dct4_dct4 x (Finset.mem_range.mp hj)
  rw [show ∑ k ∈ range N, Fourier.dct4 N x k * Real.cos (Real.pi / N * (k + 1 / 2) * (j + 1 / 2))
    = Fourier.dct4 N (Fourier.dct4 N x) j from rfl, this]
  ring

theorem dct4_sub (N : Nat) (x y : Nat → ℝ) (k : Nat) :
    Fourier.dct4 N (fun j => x j - y j) k = Fourier.dct4 N x k - Fourier.dct4 N y k := by
  unfold Fourier.dct4
  rw [← Finset.sum_sub_distrib]
  exact Finset.sum_congr rfl fun j _ => by ring

/-- entry `p` of the synthesised double frame made of the lines `x`, before the window -/
noncomputable def aliased (h : Nat) (x : Nat → ℝ) (p : Nat) : ℝ :=
  unfoldAt h (fun k => 2 * Fourier.dct4 (2 * h) x k) p * mdctGain (2 * h)

theorem aliased_sub (h : Nat) (x y : Nat → ℝ) (p : Nat) :
    aliased h (fun k => x k - y k) p = aliased h x p - aliased h y p := by
  unfold aliased
  simp only [dct4_sub]
  unfold unfoldAt
  split
  · ring
  · split <;> ring

/-- each line of the transform occurs twice in the double frame -/
theorem unfold_energy (h : Nat) (y : Nat → ℝ) :
    ∑ p ∈ range (4 * h), (unfoldAt h y p) ^ 2 = 2 * ∑ k ∈ range (2 * h), y k ^ 2 := by
  have s : ∀ g : Nat → ℝ, ∑ p ∈ range (4 * h), g p
      = ∑ p ∈ range h, (g p + g (h + p) + g (2 * h + p) + g (3 * h + p)) := by
    intro g
    rw [show 4 * h = h + (h + (h + h)) by ring, Finset.sum_range_add, Finset.sum_range_add, Finset.sum_range_add]
    simp only [Finset.sum_add_distrib]
    have e1 : ∀ p, h + (h + p) = 2 * h + p := fun p => by ring
    have e2 : ∀ p, h + (2 * h + p) = 3 * h + p := fun p => by ring
    simp only [e1, e2]
    ring
  have s2 : ∀ g : Nat → ℝ, ∑ k ∈ range (2 * h), g k = ∑ p ∈ range h, g p + ∑ p ∈ range h, g (h + p) := by
    intro g
    rw [two_mul, Finset.sum_range_add]
  rw [s]
  have e : ∀ p ∈ range h, unfoldAt h y p ^ 2 + unfoldAt h y (h + p) ^ 2 + unfoldAt h y (2 * h + p) ^ 2
        + unfoldAt h y (3 * h + p) ^ 2
      = y (h + p) ^ 2 + y (h + (h - 1 - p)) ^ 2 + y (h - 1 - p) ^ 2 + y p ^ 2 := by
    intro p hp
    have hp := Finset.mem_range.mp hp
    unfold unfoldAt
    rw [if_pos hp, if_neg (by omega), if_pos (by omega), if_neg (by omega), if_pos (by omega), if_neg (by omega),
      if_neg (by omega), show 3 * h - 1 - (h + p) = h + (h - 1 - p) by omega,
      show 3 * h - 1 - (2 * h + p) = h - 1 - p by omega, show 3 * h + p - 3 * h = p by omega, Nat.add_comm p h]
    ring
  rw [Finset.sum_congr rfl e, s2]
  simp only [Finset.sum_add_distrib]
  rw [Finset.sum_range_reflect (fun p => y (h + p) ^ 2) h, Finset.sum_range_reflect (fun p => y p ^ 2) h]
  ring

/-- the energy of the double frame -/
theorem aliased_energy {h : Nat} (h0 : 0 < h) (x : Nat → ℝ) :
    ∑ p ∈ range (4 * h), (aliased h x p) ^ 2 = 2 * ∑ k ∈ range (2 * h), x k ^ 2 := by
  unfold aliased
  simp only [mul_pow]
  rw [← Finset.sum_mul, unfold_energy]
  simp only [mul_pow]
  rw [← Finset.mul_sum, dct4_energy]
  have hg := mdctGain_sq (N := 2 * h) (by omega)
  generalize ∑ k ∈ range (2 * h), x k ^ 2 = a
  generalize ((2 * h : Nat) : ℝ) = n at *
  generalize (mdctGain (2 * h) : ℝ) = g at *
  linear_combination 2 * a * hg

/-- one entry of the double frame -/
theorem aliased_abs {h : Nat} (h0 : 0 < h) (x : Nat → ℝ) {p : Nat} (hp : p < 4 * h) :
    |aliased h x p| ≤ Real.sqrt (∑ k ∈ range (2 * h), x k ^ 2) := by
  refine Real.abs_le_sqrt ?_
  have hg := mdctGain_sq (N := 2 * h) (by omega)
  have key : ∀ k, k < 2 * h → (2 * Fourier.dct4 (2 * h) x k * mdctGain (2 * h)) ^ 2 ≤ ∑ k ∈ range (2 * h), x k ^ 2 := by
    intro k hk
    have h1 : (Fourier.dct4 (2 * h) x k) ^ 2 ≤ ((2 * h : Nat) : ℝ) / 2 * ∑ j ∈ range (2 * h), x j ^ 2 := by
      rw [← dct4_energy]
      exact Finset.single_le_sum (f := fun k => (Fourier.dct4 (2 * h) x k) ^ 2) (fun i _ => sq_nonneg _)
        (Finset.mem_range.mpr hk)
    generalize ∑ k ∈ range (2 * h), x k ^ 2 = a at *
    generalize ((2 * h : Nat) : ℝ) = n at *
    generalize (mdctGain (2 * h) : ℝ) = g at *
    generalize Fourier.dct4 (2 * h) x k = v at *
    have h2 := mul_le_mul_of_nonneg_left h1 (mul_nonneg (by norm_num) (mul_self_nonneg g) : 0 ≤ 4 * (g * g))
    have h3 : 4 * (g * g) * (n / 2 * a) = a := by linear_combination a * hg
    calc _ = 4 * (g * g) * v ^ 2 := by ring
      _ ≤ _ := h2
      _ = a := h3
  unfold aliased unfoldAt
  split
  · exact key _ (by omega)
  · split
    · rw [neg_mul, neg_sq]
      exact key _ (by omega)
    · rw [neg_mul, neg_sq]
      exact key _ (by omega)

/-- the same entry, windowed -/
noncomputable def timeAt (h : Nat) (wn : List Rat) (x : Nat → ℝ) (p : Nat) : ℝ :=
  aliased h x p * (wn.getD (4 * h - 1 - p) 0 : ℝ)

theorem timeAt_sub (h : Nat) (wn : List Rat) (x y : Nat → ℝ) (p : Nat) :
    timeAt h wn (fun k => x k - y k) p = timeAt h wn x p - timeAt h wn y p := by
  unfold timeAt
  rw [aliased_sub]
  ring

/-- one frame of the decoder's transform, any lines -/
theorem mdctDecRun_lines {cfg : Lc3Config} {h : Nat} {wn : List Rat} (H : MdctOk cfg h wn) {lines : List ℝ}
    (hl : lines.length = cfg.ne) {mem : List ℝ} (hm : mem.length = cfg.nf - cfg.z) :
    mdctDecRun cfg mem lines
      = .ok ((List.range (cfg.nf - cfg.z)).map fun j => timeAt h wn (fun k => lines.getD k 0) (cfg.nf + cfg.z + j),
          (List.range cfg.nf).map fun j =>
            (if j < cfg.nf - cfg.z then mem.getD j 0 else 0) + timeAt h wn (fun k => lines.getD k 0) (cfg.z + j)) := by
  obtain ⟨hnf, ⟨fac, hfac, hok⟩, hz, hne, hwin, hwl, htail⟩ := H
  have hpad : lines ++ List.replicate (cfg.nf - cfg.ne) (zero : ℝ) = (List.range (2 * h)).map fun k => lines.getD k 0 := by
    refine eq_map_range (by simp [hl]; omega) fun k hk => ?_
    rw [List.getElem_append]
    split
    · rename_i hc
      rw [getD_of_lt hc]
    · rename_i hc
      rw [List.getElem_replicate, List.getD_eq_getElem?_getD, List.getElem?_eq_none (by omega)]
      show ((0 : ℚ) : ℝ) = _
      simp
  have h3 := mdctUnfold_ok hfac hok (fun k => lines.getD k 0)
  unfold mdctDecRun
  rw [if_neg (by simp [hl]), hwin]
  simp only [Res.bind_ok, usub, if_pos hne, if_pos (show cfg.z ≤ cfg.nf by omega), hpad]
  rw [hnf, h3, ← hnf]
  simp only [Res.bind_ok]
  rw [if_neg (by omega)]
  have ht : List.zipWith (fun (x : ℝ) (w : Rat) => x * ofRat w) ((List.range (4 * h)).map fun p =>
        unfoldAt h (fun k => 2 * Fourier.dct4 cfg.nf (fun k => lines.getD k 0) k) p * mdctGain cfg.nf) wn.reverse
      = (List.range (2 * cfg.nf)).map (timeAt h wn fun k => lines.getD k 0) := by
    refine eq_map_range (by simp [hwl]; omega) fun p hp => ?_
    have hp' : p < 4 * h := by
      rw [List.length_zipWith, List.length_map, List.length_range] at hp; omega
    simp only [List.getElem_zipWith, List.getElem_map, List.getElem_range, List.getElem_reverse]
    unfold timeAt aliased
    rw [getD_of_lt (by omega), ← hnf]
    congr 1
    show (((wn[_] : Rat) : ℝ)) = _
    congr 2
    omega
  rw [ht]
  congr 2
  · refine eq_map_range (by simp; omega) fun j hj => ?_
    simp
  · refine eq_map_range (by simp [hm]; omega) fun j hj => ?_
    have hj' : j < cfg.nf := by
      simp only [List.length_append, List.length_zipWith, List.length_take, List.length_drop, List.length_map,
        List.length_range] at hj
      omega
    rw [List.getElem_append]
    by_cases hc : j < cfg.nf - cfg.z
    · rw [dif_pos (by simp [hm]; omega), if_pos hc]
      simp only [List.getElem_zipWith, List.getElem_take, List.getElem_drop, List.getElem_map, List.getElem_range]
      rw [getD_of_lt (by omega)]
    · rw [dif_neg (by simp [hm]; omega), if_neg hc]
      simp only [List.getElem_take, List.getElem_drop, List.getElem_map, List.getElem_range, zero_add,
        List.length_zipWith, List.length_take, List.length_drop, List.length_map, List.length_range, hm]
      congr 1
      omega

/-- the encoder's own lines give the aliased frame -/
theorem timeAt_analysed {cfg : Lc3Config} {h : Nat} {wn : List Rat} (H : MdctOk cfg h wn) {freq : List Int}
    (hl : freq.length = 2 * cfg.nf) {lines : List ℝ} (hlines : mdctApply cfg.nf freq wn = .ok lines) {p : Nat}
    (hp : p < 2 * cfg.nf) : timeAt h wn (fun k => lines.getD k 0) p = aliasAt cfg.nf freq wn p := by
  obtain ⟨hnf, ⟨fac, hfac, hok⟩, hz, hne, hwin, hwl, htail⟩ := H
  obtain ⟨l, h1, h2, h3⟩ := mdct_roundtrip hfac hok (freq := freq) (wn := wn) (by omega) hwl
  rw [← hnf, hlines] at h1
  cases h1
  have e : lines = (List.range (2 * h)).map fun k => lines.getD k 0 :=
    eq_map_range (by rw [h2]) fun k hk => by rw [getD_of_lt hk]
  have h4 := mdctUnfold_ok hfac hok (fun k => lines.getD k 0)
  rw [← e, h3] at h4
  have h5 := Res.ok.inj h4
  have h6 := congrArg (fun l => l.getD p 0) h5
  rw [getD_of_lt (by simp; omega), getD_of_lt (by simp; omega)] at h6
  simp only [List.getElem_map, List.getElem_range] at h6
  unfold timeAt aliasAt aliased
  rw [← h6, ← hnf, show 6 * h - 1 - p = 3 * cfg.nf - 1 - p by omega, show 4 * h - 1 - p = 2 * cfg.nf - 1 - p by omega]

set_option maxRecDepth 100000 in
theorem windowNum_max (f : SamplingFrequency) (d : FrameDuration) :
    ((windowNum f d).1.all fun k => decide (1000 * k.natAbs ≤ 1064 * (windowNum f d).2)) = true := by
  cases f <;> cases d <;> decide +kernel

/-- no entry of a window is larger than 1.064 -/
theorem window_max {f : SamplingFrequency} {d : FrameDuration} {wn : List Rat}
    (h : windowOf (Lc3Config.new f d).nMs (Lc3Config.new f d).nf = .ok wn) (p : Nat) :
    |((wn.getD p 0 : Rat) : ℝ)| ≤ 133 / 125 := by
  have hd := (windowNum_test f d).2.2
  have ht := windowNum_max f d
  rw [windowOf_num] at h
  cases h
  generalize (windowNum f d).1 = num at *
  generalize (windowNum f d).2 = den at *
  rw [List.getD_eq_getElem?_getD, List.getElem?_map]
  rcases hc : num[p]? with _ | v
  · simp
    norm_num
  · rw [Option.map_some, Option.getD_some]
    have := List.all_eq_true.mp ht v (List.mem_of_getElem? hc)
    rw [decide_eq_true_eq] at this
    rw [Rat.mkRat_eq_div]
    push_cast
    have hd' : (0 : ℝ) < den := by exact_mod_cast hd
    have h1 : (1000 : ℝ) * |(v : ℝ)| ≤ 1064 * den := by
      have : (1000 : ℝ) * ((v.natAbs : Nat) : ℝ) ≤ 1064 * den := by exact_mod_cast this
      rwa [Nat.cast_natAbs, Int.cast_abs] at this
    rw [abs_div, abs_of_pos hd', div_le_div_iff₀ hd' (by norm_num)]
    linarith

end Lc3
