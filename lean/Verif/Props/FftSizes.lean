import Verif.Lemmas.FftSizes
import Verif.Props.Transform
/-!
# Property C102: the sizes for which the transform is right

`Fourier.dft` is in `Verif/Spec/Fourier.lean`. `kf_bfly_generic` fills only the first `m` of the `p` entries of `scratch` it uses.
-/

namespace Lc3
open Scalar

/-- **C102 (blindness).** If a prime above five divides the size then the result depends only on the first seventh of the input, in every
arithmetic. -/
theorem C102_blind {α : Type} [Scalar α] (inverse : Bool) (x y : List (Cx α)) (h1 : 1 ≤ x.length) (hl : x.length = y.length)
    (hr : ∃ q, q.Prime ∧ q ∣ x.length ∧ 5 < q) (h : ∀ i, 7 * i < x.length → x[i]? = y[i]?) : fft inverse x = fft inverse y := by
  refine fft_blind h1 ?_ hl h
  obtain ⟨q, hq, hd, h5⟩ := hr
  exact ⟨q, hq, hd, prime_ge_seven hq (by omega) (by omega) (by omega)⟩

/-- **C102.** In exact arithmetic the transform of size `n` returns the discrete Fourier transform of every input exactly if no prime above
five divides `n`. -/
theorem C102 (inverse : Bool) (n : Nat) (hn : 1 ≤ n) :
    (∀ x : List (Cx ℝ), x.length = n → ∃ y, fft inverse x = .ok y ∧ y.length = n ∧ ∀ k (hk : k < y.length),
      (⟨y[k].r, y[k].i⟩ : ℂ) = Fourier.dft inverse n (fun j => ⟨(x.getD j ⟨0, 0⟩).r, (x.getD j ⟨0, 0⟩).i⟩) k) ↔
    ∀ q, q.Prime → q ∣ n → q ≤ 5 := by
  constructor
  · intro h q hq hd
    by_contra h5
    have hn7 : 7 ≤ n := (prime_ge_seven hq (by omega) (by omega) (by omega)).trans (Nat.le_of_dvd hn hd)
    obtain ⟨a, ha, la, ea⟩ := h (List.replicate n ⟨0, 0⟩) (by simp)
    obtain ⟨b, hb, lb, eb⟩ := h (List.replicate (n - 1) ⟨0, 0⟩ ++ [⟨1, 0⟩]) (by simp; omega)
    have hab : fft inverse (List.replicate n (⟨0, 0⟩ : Cx ℝ)) = fft inverse (List.replicate (n - 1) ⟨0, 0⟩ ++ [⟨1, 0⟩]) := by
      refine C102_blind inverse _ _ (by simp; omega) (by simp; omega) ⟨q, hq, by simpa using hd, by omega⟩ fun i hi => ?_
      simp only [List.length_replicate] at hi
      rw [List.getElem?_append_left (by simp; omega)]
      simp only [List.getElem?_replicate]
      rw [if_pos (by omega), if_pos (by omega)]
    rw [ha, hb] at hab
    cases hab
    have e1 := ea 0 (by omega)
    rw [eb 0 (by omega)] at e1
    unfold Fourier.dft at e1
    have z : ∀ j, j < n - 1 → (List.replicate (n - 1) (⟨0, 0⟩ : Cx ℝ) ++ [(⟨1, 0⟩ : Cx ℝ)]).getD j ⟨0, 0⟩ = ⟨0, 0⟩ := by
      intro j hj
      simp [List.getElem?_append_left, hj]
    have z1 : (List.replicate (n - 1) (⟨0, 0⟩ : Cx ℝ) ++ [(⟨1, 0⟩ : Cx ℝ)]).getD (n - 1) ⟨0, 0⟩ = ⟨1, 0⟩ := by
      simp
    obtain ⟨m, rfl⟩ : ∃ m, n = m + 1 := ⟨n - 1, by omega⟩
    rw [Finset.sum_range_succ, Finset.sum_eq_zero] at e1
    · simp only [Nat.add_sub_cancel] at z1
      rw [Finset.sum_eq_zero] at e1
      · simp only [Nat.add_sub_cancel, z1] at e1
        simp at e1
        exact absurd (congrArg Complex.re e1) (by simp)
      · intro j _
        simp [Complex.ext_iff]
    · intro j hj
      beta_reduce
      rw [z j (by simpa using hj)]
      simp [Complex.ext_iff]
  · intro hs x hx
    rcases Nat.lt_or_ge 1 n with h2 | h2
    · subst hx
      obtain ⟨y, h1, h2, h3⟩ := C35 inverse x h2 hs
      exact ⟨y, h1, h2, h3⟩
    · obtain rfl : n = 1 := by omega
      obtain ⟨a, rfl⟩ := List.length_eq_one_iff.1 hx
      have hk : kfFactor 1 = .ok [(1, 1)] := by decide +kernel
      have hf : fft inverse [a] = .ok [a] := by
        unfold fft
        rw [show ([a] : List (Cx ℝ)).length = 1 from rfl, hk, Res.bind_ok, kfWork, if_pos rfl]
        rfl
      refine ⟨[a], hf, rfl, fun k hk => ?_⟩
      simp only [List.length_cons, List.length_nil] at hk
      obtain rfl : k = 0 := by omega
      simp [Fourier.dft]

/-- **C102 (panics).** A transform of size 77 never returns, in every arithmetic: the outer stage has radix 7 and 11 columns, and reads
beyond the end of the output. -/
theorem C102_panics {α : Type} [Scalar α] (inverse : Bool) (x : List (Cx α)) (h : x.length = 77) : fft inverse x = .panic := by
  have hk : kfFactor 77 = .ok [(7, 11), (11, 1)] := by decide +kernel
  rcases hf : fft inverse x with y | _ | _
  · exfalso
    unfold fft at hf
    rw [h, hk, Res.bind_ok, kfWork, if_neg (by decide)] at hf
    obtain ⟨blk, h1, h2⟩ := bind_ok_inv hf
    obtain ⟨parts, h3, h4⟩ := bind_ok_inv h1
    cases h4
    have hl : parts.flatten.length = 77 := by
      have l3 := (mapM_parts h3).1
      simp only [List.length_range] at l3
      rw [flatten_length_const (n := 11), l3]
      intro l hl
      obtain ⟨i, hi⟩ := (mapM_parts h3).2 _ hl
      rw [kfWork] at hi
      obtain ⟨b, -, hi⟩ := bind_ok_inv hi
      exact bflyBlock_length hi
    unfold bflyBlock at h2
    obtain ⟨cols, h5, -⟩ := bind_ok_inv h2
    rw [show List.range 11 = 0 :: (List.range 10).map (· + 1) by decide, mapM_cons', bflyCol_generic (by decide)] at h5
    unfold bflyGeneric at h5
    rw [hl, if_neg (by decide), if_pos (by decide)] at h5
    cases h5
  · have := noErr_fft inverse x
    rw [hf] at this
    exact absurd this (by simp [NoErr])
  · rfl

/-- non-trivial instance: a transform of size seven maps the impulse at time one to zero, although its transform has modulus one everywhere -/
example : fft false ([⟨0, 0⟩, ⟨1, 0⟩, ⟨0, 0⟩, ⟨0, 0⟩, ⟨0, 0⟩, ⟨0, 0⟩, ⟨0, 0⟩] : List (Cx ℝ))
      = fft false [⟨0, 0⟩, ⟨0, 0⟩, ⟨0, 0⟩, ⟨0, 0⟩, ⟨0, 0⟩, ⟨0, 0⟩, ⟨0, 0⟩] :=
  C102_blind false _ _ (by simp) rfl ⟨7, by decide, by simp, by decide⟩ (by
    intro i hi
    simp only [List.length_cons, List.length_nil] at hi
    obtain rfl : i = 0 := by omega
    rfl)

/-- non-trivial instance: size 480 is right, size 14 is not -/
example : (∀ q, q.Prime → q ∣ 480 → q ≤ 5) ∧ ¬ ∀ q, q.Prime → q ∣ 14 → q ≤ 5 := by
  refine ⟨fun q hq hd => ?_, fun h => absurd (h 7 (by decide) (by decide)) (by decide)⟩
  have h3 : q ∣ 2 ^ 5 * 3 * 5 := hd
  rcases hq.dvd_mul.1 h3 with h3 | h3
  · rcases hq.dvd_mul.1 h3 with h3 | h3
    · have := Nat.le_of_dvd (by decide) (hq.dvd_of_dvd_pow h3); omega
    · have := Nat.le_of_dvd (by decide) h3; omega
  · exact Nat.le_of_dvd (by decide) h3

end Lc3
