import Mathlib.Analysis.SpecialFunctions.Trigonometric.Basic
import Mathlib.Analysis.SpecialFunctions.Complex.Circle
/-!
# Specification of the transforms

The defining sums of the discrete Fourier transform and of the cosine transform of type IV, for functions on the natural
numbers. Nothing here refers to the model.
-/

namespace Lc3.Fourier
open Finset

/-- entry `k` of the discrete Fourier transform of size `n` of `x`; the sign of the exponent is `+` for the inverse
transform (which is not normalised) -/
noncomputable def dft (inverse : Bool) (n : Nat) (x : Nat → ℂ) (k : Nat) : ℂ :=
  ∑ j ∈ range n, x j * Complex.exp ((if inverse then 1 else -1) * (2 * Real.pi * Complex.I * j * k / n))

/-- entry `k` of the cosine transform of type IV of size `n` of `x` -/
noncomputable def dct4 (n : Nat) (x : Nat → ℝ) (k : Nat) : ℝ :=
  ∑ j ∈ range n, x j * Real.cos (Real.pi / n * (j + 1 / 2) * (k + 1 / 2))

end Lc3.Fourier
