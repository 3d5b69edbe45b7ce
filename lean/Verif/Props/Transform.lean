import Verif.Lemmas.Dct
import Verif.Model.Config
/-!
# Properties C35 and C36: the transforms in exact arithmetic

The specification (`Fourier.dft`, `Fourier.dct4`) is in `Verif/Spec/Fourier.lean`.
-/

namespace Lc3
open Scalar

/-- **C35.** In exact arithmetic the mixed radix transform returns the discrete Fourier transform of its input, for every input
whose length is at least two and has no prime factor above five, in both directions. -/
theorem C35 (inverse : Bool) (x : List (Cx ℝ)) (h2 : 2 ≤ x.length) (hs : ∀ q, q.Prime → q ∣ x.length → q ≤ 5) :
    ∃ y, fft inverse x = .ok y ∧ y.length = x.length ∧ ∀ k (hk : k < y.length),
      (⟨y[k].r, y[k].i⟩ : ℂ) = Fourier.dft inverse x.length (fun j => ⟨(x.getD j ⟨0, 0⟩).r, (x.getD j ⟨0, 0⟩).i⟩) k := by
  obtain ⟨fac, hfac, hok⟩ := kfFactor_smooth h2 hs
  have hx : x = (List.range x.length).map fun k => ofC ⟨(x.getD k ⟨0, 0⟩).r, (x.getD k ⟨0, 0⟩).i⟩ := by
    refine List.ext_getElem (by simp) fun i h1 _ => ?_
    simp [ofC, h1]
  refine ⟨(List.range x.length).map fun k => ofC (Fourier.dft inverse x.length
    (fun j => ⟨(x.getD j ⟨0, 0⟩).r, (x.getD j ⟨0, 0⟩).i⟩) k), ?_, ?_, ?_⟩
  · conv_lhs => rw [hx]
    exact fft_ok hfac hok _
  · simp
  · intro k hk
    simp only [List.getElem_map, List.getElem_range]
    rfl

/-- the sizes used by the codec satisfy the hypotheses of `C35` -/
theorem C35_sizes (f : SamplingFrequency) (d : FrameDuration) :
    2 ≤ (Lc3Config.new f d).nf / 2 ∧ ∀ q, q.Prime → q ∣ (Lc3Config.new f d).nf / 2 → q ≤ 5 := by
  have h : (Lc3Config.new f d).nf / 2 ∈ fftSizes := (fftSizes_config f d).1
  generalize (Lc3Config.new f d).nf / 2 = n at h
  have hn : n ∣ 2 ^ 8 * 3 ^ 2 * 5 ∧ 2 ≤ n := by
    simp only [fftSizes, List.mem_cons, List.not_mem_nil, or_false] at h
    rcases h with rfl | rfl | rfl | rfl | rfl | rfl | rfl | rfl | rfl <;> decide
  refine ⟨hn.2, fun q hq hd => ?_⟩
  have h3 := hd.trans hn.1
  rcases (Nat.Prime.dvd_mul hq).mp h3 with h3 | h3
  · rcases (Nat.Prime.dvd_mul hq).mp h3 with h3 | h3
    · have := Nat.le_of_dvd (by decide) (hq.dvd_of_dvd_pow h3); omega
    · have := Nat.le_of_dvd (by decide) (hq.dvd_of_dvd_pow h3); omega
  · exact Nat.le_of_dvd (by decide) h3

/-- non-trivial instance: four samples `1, i, -1, -i` are one oscillation, all energy is in line 1 -/
example : ∃ y, fft false [⟨(1 : ℝ), 0⟩, ⟨0, 1⟩, ⟨-1, 0⟩, ⟨0, -1⟩] = .ok y ∧ y.map (fun z => (z.r, z.i)) = [(0, 0), (4, 0), (0, 0), (0, 0)] := by
  obtain ⟨y, h1, h2, h3⟩ := C35 false [⟨(1 : ℝ), 0⟩, ⟨0, 1⟩, ⟨-1, 0⟩, ⟨0, -1⟩] (by simp) (by
    intro q hq hd
    have := hq.dvd_of_dvd_pow (show q ∣ 2 ^ 2 by simpa using hd)
    have := Nat.le_of_dvd (by decide) this
    omega)
  refine ⟨y, h1, ?_⟩
  simp only [List.length_cons, List.length_nil, zero_add, Nat.reduceAdd] at h2 h3
  have hw : ∀ k, Fourier.dft false 4 (fun j => (⟨([⟨(1 : ℝ), 0⟩, ⟨0, 1⟩, ⟨-1, 0⟩, ⟨0, -1⟩].getD j (⟨0, 0⟩ : Cx ℝ)).r,
      ([⟨(1 : ℝ), 0⟩, ⟨0, 1⟩, ⟨-1, 0⟩, ⟨0, -1⟩].getD j (⟨0, 0⟩ : Cx ℝ)).i⟩ : ℂ)) k
      = 1 + Complex.I * (omega false 4) ^ k - (omega false 4) ^ (2 * k) - Complex.I * (omega false 4) ^ (3 * k) := by
    intro k
    have e : ∀ j : Nat, Complex.exp ((if false = true then 1 else -1) * (2 * Real.pi * Complex.I * j * k / (4 : Nat)))
        = omega false 4 ^ (j * k) := by
      intro j; rw [omega_pow]; push_cast; ring_nf
    unfold Fourier.dft
    simp only [Finset.sum_range_succ, Finset.sum_range_zero, e]
    have i0 : (⟨1, 0⟩ : ℂ) = 1 := rfl
    have i1 : (⟨0, 1⟩ : ℂ) = Complex.I := rfl
    have i2 : (⟨-1, 0⟩ : ℂ) = -1 := by apply Complex.ext <;> simp
    have i3 : (⟨0, -1⟩ : ℂ) = -Complex.I := by apply Complex.ext <;> simp
    simp [i0, i1, i2, i3]
    ring
  have ho : omega false 4 = -Complex.I := by rw [omega_four]; apply Complex.ext <;> simp
  simp only [hw, ho] at h3
  have key : ∀ k (hk : k < y.length), (y[k].r, y[k].i) = ((1 + Complex.I * (-Complex.I) ^ k - (-Complex.I) ^ (2 * k) -
      Complex.I * (-Complex.I) ^ (3 * k)).re, (1 + Complex.I * (-Complex.I) ^ k - (-Complex.I) ^ (2 * k) -
      Complex.I * (-Complex.I) ^ (3 * k)).im) := by
    intro k hk
    rw [← h3 k hk]
  have I2 : Complex.I ^ 2 = -1 := Complex.I_sq
  have p2 : (-Complex.I) ^ 2 = -1 := by rw [neg_sq, I2]
  have p3 : (-Complex.I) ^ 3 = Complex.I := by rw [show (-Complex.I) ^ 3 = (-Complex.I) ^ 2 * -Complex.I by ring, p2]; ring
  have p4 : (-Complex.I) ^ 4 = 1 := by rw [show (-Complex.I) ^ 4 = ((-Complex.I) ^ 2) ^ 2 by ring, p2]; ring
  have p6 : (-Complex.I) ^ 6 = -1 := by rw [show (-Complex.I) ^ 6 = (-Complex.I) ^ 4 * (-Complex.I) ^ 2 by ring, p4, p2]; ring
  have p9 : (-Complex.I) ^ 9 = -Complex.I := by
    rw [show (-Complex.I) ^ 9 = (-Complex.I) ^ 4 * (-Complex.I) ^ 4 * -Complex.I by ring, p4]; ring
  refine List.ext_getElem (by simp [h2]) fun k hk _ => ?_
  have hk' : k < y.length := by simpa using hk
  rw [List.getElem_map, key k hk']
  have : k < 4 := by omega
  obtain rfl | rfl | rfl | rfl : k = 0 ∨ k = 1 ∨ k = 2 ∨ k = 3 := by omega
  all_goals simp [p2, p3, p4, p6, p9]
  all_goals norm_num

/-- **C36.** In exact arithmetic the transform kernel maps a frame to twice its cosine transform of type IV, and applied twice it
returns the frame times twice its length; for every configuration. -/
theorem C36 (f : SamplingFrequency) (d : FrameDuration) (x : List ℝ) (hx : x.length = (Lc3Config.new f d).nf) :
    ∃ y, dctIv (Lc3Config.new f d).nf x = .ok y ∧ y.length = (Lc3Config.new f d).nf ∧
      (∀ k (hk : k < y.length), y[k] = 2 * Fourier.dct4 (Lc3Config.new f d).nf (fun j => x.getD j 0) k) ∧
      dctIv (Lc3Config.new f d).nf y = .ok (x.map (2 * ((Lc3Config.new f d).nf : ℝ) * ·)) := by
  have hs := fftSizes_config f d
  generalize (Lc3Config.new f d).nf = n at *
  obtain ⟨fac, hfac, hok⟩ := kfFactor_sizes _ hs.1
  obtain ⟨M, rfl⟩ : ∃ M, n = 2 * M := ⟨n / 2, by omega⟩
  rw [show 2 * M / 2 = M by omega] at *
  have hx' : x = (List.range (2 * M)).map fun j => x.getD j 0 := by
    refine List.ext_getElem (by simp [hx]) fun i h1 _ => ?_
    simp [h1]
  refine ⟨(List.range (2 * M)).map fun k => 2 * Fourier.dct4 (2 * M) (fun j => x.getD j 0) k, ?_, by simp, ?_, ?_⟩
  · conv_lhs => rw [hx']
    exact dctIv_ok hfac hok _
  · intro k hk
    simp
  · rw [dctIv_ok hfac hok]
    congr 1
    conv_rhs => rw [hx']
    rw [List.map_map]
    refine List.map_congr_left fun k hk => ?_
    rw [dct4_smul, dct4_dct4 _ (List.mem_range.mp hk)]
    simp only [Function.comp]
    ring

/-- non-trivial instance: a unit pulse in sample 0 is mapped to a cosine, not to zero -/
example : ∃ x y : List ℝ, x = 1 :: List.replicate 479 0 ∧ dctIv 480 x = .ok y ∧
    y.getD 0 0 = 2 * Real.cos (Real.pi / 480 * (1 / 2) * (1 / 2)) := by
  obtain ⟨x, hx⟩ : ∃ x : List ℝ, x = 1 :: List.replicate 479 0 := ⟨_, rfl⟩
  have hn : (Lc3Config.new .hz48000 .tenMs).nf = 480 := by decide
  have hl : x.length = 480 := by rw [hx, List.length_cons, List.length_replicate]
  obtain ⟨y, h1, h2, h3, -⟩ := C36 .hz48000 .tenMs x (by rw [hl, hn])
  rw [hn] at h1 h2 h3
  refine ⟨x, y, hx, h1, ?_⟩
  have h4 := h3 0 (by omega)
  rw [List.getD_eq_getElem?_getD, List.getElem?_eq_getElem (by omega), Option.getD_some, h4]
  congr 1
  unfold Fourier.dct4
  rw [Finset.sum_eq_single 0]
  · have : x.getD 0 0 = 1 := by rw [hx, List.getD_cons_zero]
    simp only [this]
    push_cast
    ring_nf
  · intro j hj hj0
    have : x.getD j 0 = 0 := by
      obtain ⟨i, rfl⟩ : ∃ i, j = i + 1 := ⟨j - 1, by omega⟩
      have hi : i < 479 := by have := Finset.mem_range.mp hj; omega
      rw [hx, List.getD_cons_succ, List.getD_eq_getElem?_getD, List.getElem?_replicate, if_pos hi, Option.getD_some]
    simp only [this, zero_mul]
  · intro h
    exact absurd (Finset.mem_range.mpr (by omega)) h

end Lc3
