import Verif.Lemmas.DctErr
import Verif.Lemmas.MdctError
import Verif.Props.Transform
/-!
# Property C118: the transforms can be undone and keep the energy

All statements are about the functions of the model in exact arithmetic; the energy of a list is the sum of the squares of its entries.
-/

namespace Lc3
open Scalar Finset

theorem omega_not (inv : Bool) (n k : ℕ) : omega (!inv) n ^ k = (starRingEnd ℂ) (omega inv n ^ k) := by
  rw [conj_omega, ← inv_pow]
  congr 1
  unfold omega
  rw [← Complex.exp_neg]
  cases inv <;> simp

/-- the transform back gives `n` times the input -/
theorem dft_dft (inv : Bool) {n m : ℕ} (hm : m < n) (v : ℕ → ℂ) :
    Fourier.dft (!inv) n (fun k => Fourier.dft inv n v k) m = n * v m := by
  rw [dft_omega]
  simp only [dft_omega, Finset.sum_mul]
  rw [Finset.sum_comm]
  have e : ∀ j ∈ range n, ∑ q ∈ range n, v j * omega inv n ^ (j * q) * omega (!inv) n ^ (q * m)
      = if j = m then v j * n else 0 := by
    intro j hj
    have h := sum_omega (inv := inv) (Finset.mem_range.mp hj) hm
    have e1 : ∀ q, v j * omega inv n ^ (j * q) * omega (!inv) n ^ (q * m)
        = v j * (omega inv n ^ (j * q) * (starRingEnd ℂ) (omega inv n ^ (m * q))) := by
      intro q
      rw [omega_not, Nat.mul_comm q m]
      ring
    rw [Finset.sum_congr rfl fun q _ => e1 q, ← Finset.mul_sum, h]
    split_ifs <;> simp
  rw [Finset.sum_congr rfl e, Finset.sum_ite_eq', if_pos (Finset.mem_range.mpr hm)]
  ring

theorem sum_map_eq_range {β : Type} (l : List β) (d : β) (g : β → ℝ) : (l.map g).sum = ∑ i ∈ range l.length, g (l.getD i d) := by
  induction l with
  | nil => simp
  | cons a l ih => rw [List.map_cons, List.sum_cons, List.length_cons, Finset.sum_range_succ', ih]; simp [add_comm]

/-- **C118 (Fourier transform).** For every input whose length `n` is at least two and has no prime factor above five the transform in one
direction followed by the transform in the other direction returns `n` times the input, and the energy of the transform is `n` times the
energy of the input. -/
theorem C118 (inverse : Bool) (x : List (Cx ℝ)) (h2 : 2 ≤ x.length) (hs : ∀ q, q.Prime → q ∣ x.length → q ≤ 5) :
    ∃ y, fft inverse x = .ok y ∧ y.length = x.length ∧
      fft (!inverse) y = .ok (x.map fun c => ⟨(x.length : ℝ) * c.r, (x.length : ℝ) * c.i⟩) ∧
      (y.map fun c : Cx ℝ => c.r ^ 2 + c.i ^ 2).sum = (x.length : ℝ) * (x.map fun c : Cx ℝ => c.r ^ 2 + c.i ^ 2).sum := by
  obtain ⟨y, h, l, e⟩ := C35 inverse x h2 hs
  refine ⟨y, h, l, ?_, ?_⟩
  · obtain ⟨z, hz, lz, ez⟩ := C35 (!inverse) y (by omega) (by rw [l]; exact hs)
    rw [hz]
    congr 1
    refine List.ext_getElem (by simp [lz, l]) fun k hk _ => ?_
    have h1 := ez k hk
    rw [l] at h1
    have h3 : Fourier.dft (!inverse) x.length (fun j => ⟨(y.getD j ⟨0, 0⟩).r, (y.getD j ⟨0, 0⟩).i⟩) k
        = Fourier.dft (!inverse) x.length (fun j => Fourier.dft inverse x.length
          (fun j => ⟨(x.getD j ⟨0, 0⟩).r, (x.getD j ⟨0, 0⟩).i⟩) j) k := by
      rw [dft_omega, dft_omega]
      refine Finset.sum_congr rfl fun j hj => ?_
      have hj' : j < y.length := by rw [l]; exact Finset.mem_range.mp hj
      have h4 := e j hj'
      rw [← h4, List.getD_eq_getElem?_getD, List.getElem?_eq_getElem hj', Option.getD_some]
    have hkx : k < x.length := by omega
    rw [h3, dft_dft inverse hkx, List.getD_eq_getElem?_getD, List.getElem?_eq_getElem hkx, Option.getD_some] at h1
    have hr := congrArg Complex.re h1
    have hi := congrArg Complex.im h1
    simp at hr hi
    rw [List.getElem_map]
    cases hzk : z[k]
    rw [hzk] at hr hi
    simp at hr hi
    rw [hr, hi]
  · rw [sum_map_eq_range y ⟨0, 0⟩, sum_map_eq_range x ⟨0, 0⟩, l]
    have hp := parseval inverse x.length (fun j => (⟨(x.getD j ⟨0, 0⟩).r, (x.getD j ⟨0, 0⟩).i⟩ : ℂ))
    have hn : ∀ c : Cx ℝ, ‖(⟨c.r, c.i⟩ : ℂ)‖ ^ 2 = c.r ^ 2 + c.i ^ 2 := by
      intro c
      rw [← Complex.normSq_eq_norm_sq, Complex.normSq_mk]
      ring
    simp only [hn] at hp
    rw [← hp]
    refine Finset.sum_congr rfl fun j hj => ?_
    have hj' : j < y.length := by rw [l]; exact Finset.mem_range.mp hj
    have h4 := e j hj'
    rw [dft_omega] at h4
    rw [List.getD_eq_getElem?_getD, List.getElem?_eq_getElem hj', Option.getD_some, ← hn, h4]

/-- **C118 (transform kernel).** With the factor `1 / sqrt(2 nf)` of encoder and decoder the cosine transform of a configuration keeps the
energy and is its own inverse. -/
theorem C118_kernel (f : SamplingFrequency) (d : FrameDuration) (x : List ℝ) (hx : x.length = (Lc3Config.new f d).nf) :
    ∃ y, dctIv (Lc3Config.new f d).nf x = .ok y ∧
      (y.map fun v => (v * mdctGain (Lc3Config.new f d).nf) ^ 2).sum = (x.map fun v => v ^ 2).sum ∧
      ∃ z, dctIv (Lc3Config.new f d).nf (y.map (· * mdctGain (Lc3Config.new f d).nf)) = .ok z ∧
        z.map (· * mdctGain (Lc3Config.new f d).nf) = x := by
  obtain ⟨y, h, l, e, -⟩ := C36 f d x hx
  have hN : 0 < (Lc3Config.new f d).nf := by have := (C35_sizes f d).1; omega
  have hg := mdctGain_sq hN
  refine ⟨y, h, ?_, ?_⟩
  · rw [sum_map_eq_range y 0, sum_map_eq_range x 0, l, hx]
    have e1 : ∀ i ∈ range (Lc3Config.new f d).nf, (y.getD i 0 * mdctGain (Lc3Config.new f d).nf) ^ 2
        = 4 * ((mdctGain (Lc3Config.new f d).nf : ℝ) * mdctGain (Lc3Config.new f d).nf)
          * (Fourier.dct4 (Lc3Config.new f d).nf (fun j => x.getD j 0) i) ^ 2 := by
      intro i hi
      have hi' : i < y.length := by rw [l]; exact Finset.mem_range.mp hi
      rw [List.getD_eq_getElem?_getD, List.getElem?_eq_getElem hi', Option.getD_some, e i hi']
      ring
    rw [Finset.sum_congr rfl e1, ← Finset.mul_sum, dct4_energy]
    linear_combination (∑ j ∈ range (Lc3Config.new f d).nf, x.getD j 0 ^ 2) * hg
  · obtain ⟨z, h', l', e', -⟩ := C36 f d (y.map (· * mdctGain (Lc3Config.new f d).nf)) (by rw [List.length_map, l])
    refine ⟨z, h', ?_⟩
    refine List.ext_getElem (by rw [List.length_map, l', hx]) fun k hk hk' => ?_
    rw [List.getElem_map, e' k (by omega)]
    have h1 : Fourier.dct4 (Lc3Config.new f d).nf (fun j => (y.map (· * mdctGain (Lc3Config.new f d).nf)).getD j 0) k
        = Fourier.dct4 (Lc3Config.new f d).nf
          (fun j => 2 * mdctGain (Lc3Config.new f d).nf * Fourier.dct4 (Lc3Config.new f d).nf (fun j => x.getD j 0) j) k := by
      refine dct4_congr (fun j hj => ?_) k
      have hj' : j < y.length := by omega
      rw [List.getD_eq_getElem?_getD, List.getElem?_map, List.getElem?_eq_getElem hj', Option.map_some, Option.getD_some, e j hj']
      ring
    rw [h1, dct4_smul, dct4_dct4 _ (by omega), List.getD_eq_getElem?_getD, List.getElem?_eq_getElem hk', Option.getD_some]
    linear_combination x[k] * hg

/-- **C118 (lines of the encoder).** The energy of the `nf` lines the encoder computes is the energy of the folded samples. -/
theorem C118_lines (f : SamplingFrequency) (d : FrameDuration) (freq : List Int) (wn : List Rat) (t lines : List ℝ)
    (ht : mdctFold (Lc3Config.new f d).nf freq wn = .ok t) (h : mdctApply (Lc3Config.new f d).nf freq wn = .ok lines) :
    (lines.map fun v => v ^ 2).sum = (t.map fun v => v ^ 2).sum := by
  unfold mdctApply at h
  rw [ht, Res.bind_ok] at h
  obtain ⟨y, hy, h'⟩ := bind_ok_inv h
  cases h'
  have hl : t.length = (Lc3Config.new f d).nf := by
    by_contra hne
    unfold dctIv at hy
    rw [if_pos hne] at hy
    cases hy
  obtain ⟨y', hy', he, -⟩ := C118_kernel f d t hl
  rw [hy] at hy'
  cases hy'
  rw [List.map_map, ← he]
  rfl

/-- non-trivial instance: a transform of size four and back -/
example : ∃ y, fft false ([⟨1, 0⟩, ⟨2, 0⟩, ⟨0, 3⟩, ⟨0, 0⟩] : List (Cx ℝ)) = .ok y ∧
    fft true y = .ok [⟨4, 0⟩, ⟨8, 0⟩, ⟨0, 12⟩, ⟨0, 0⟩] := by
  obtain ⟨y, h1, -, h2, -⟩ := C118 false [⟨1, 0⟩, ⟨2, 0⟩, ⟨0, 3⟩, ⟨0, 0⟩] (by decide) (by
    intro q hq hd
    have h3 : q ≤ 4 := Nat.le_of_dvd (by decide) hd
    omega)
  refine ⟨y, h1, ?_⟩
  rw [show (!false) = true from rfl] at h2
  rw [h2]
  norm_num

/-- non-trivial instance: the lines of a single sample of height 1000 in front of a rectangular window -/
example : ∃ t lines : List ℝ, mdctFold 80 (1000 :: List.replicate 159 0) (List.replicate 160 1) = .ok t ∧
    mdctApply 80 (1000 :: List.replicate 159 0) (List.replicate 160 1) = .ok lines ∧ (lines.map fun v => v ^ 2).sum = 1000000 := by
  obtain ⟨freq, hfreq⟩ : ∃ freq : List Int, freq = 1000 :: List.replicate 159 0 := ⟨_, rfl⟩
  obtain ⟨wn, hwn⟩ : ∃ wn : List Rat, wn = List.replicate 160 1 := ⟨_, rfl⟩
  have l1 : freq.length = 4 * 40 := by rw [hfreq, List.length_cons, List.length_replicate]
  have l2 : wn.length = 4 * 40 := by rw [hwn, List.length_replicate]
  have hn : (Lc3Config.new .hz8000 .tenMs).nf = 2 * 40 := by decide
  rw [← hfreq, ← hwn]
  obtain ⟨fac, hfac, hok⟩ := kfFactor_smooth (n := 40) (by decide) (by have := (C35_sizes .hz8000 .tenMs).2; rw [hn] at this; exact this)
  have ht := mdctFold_ok l1 l2
  have ha := mdctApply_ok hfac hok l1 l2
  refine ⟨_, _, ht, ha, ?_⟩
  have h := C118_lines .hz8000 .tenMs freq wn _ _ (by rw [hn]; exact ht) (by rw [hn]; exact ha)
  have hz : ∀ p, 1 ≤ p → wsample freq wn p = 0 := by
    intro p hp
    obtain ⟨q, rfl⟩ : ∃ q, p = q + 1 := ⟨p - 1, by omega⟩
    have : (freq.getD (q + 1) 0) = 0 := by
      rw [hfreq, List.getD_cons_succ, List.getD_eq_getElem?_getD, List.getElem?_replicate]
      split_ifs <;> rfl
    unfold wsample
    rw [this]
    simp
  rw [h, sum_map_eq_range _ 0, List.length_map, List.length_range, Finset.sum_eq_single 40]
  · have hv : wsample freq wn 0 = 1000 := by
      unfold wsample
      rw [hfreq, hwn, List.getD_cons_zero, List.getD_eq_getElem?_getD, List.getElem?_replicate, if_pos (by decide)]
      norm_num
    rw [getD_of_lt (by simp), List.getElem_map, List.getElem_range]
    unfold foldAt
    rw [if_neg (by decide), show 40 - 40 = 0 from rfl, hv, hz _ (by decide)]
    norm_num
  · intro j hj hne
    have hj' := Finset.mem_range.mp hj
    rw [getD_of_lt (by simpa using hj'), List.getElem_map, List.getElem_range]
    unfold foldAt
    split_ifs with h1
    · rw [hz _ (by omega), hz _ (by omega)]; norm_num
    · rw [hz _ (by omega), hz _ (by omega)]; norm_num
  · intro h40
    exact absurd (Finset.mem_range.mpr (by omega)) h40

end Lc3
