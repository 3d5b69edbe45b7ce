import Verif.Spec.Finite
import Verif.Spec.Gain32
import Mathlib.Analysis.SpecialFunctions.Trigonometric.Inverse
/-! # Specification: accuracy of the elementary functions of the encoder -/

namespace Lc3.F32

/-- Assumption on the elementary functions of the encoder besides those of `Tame` and `GainFunctions`: a power of two is at most twice
the exact one; the arc sine of a number of magnitude below one is right up to `2 ^ -20`, that of `±1` is the binary32 number nearest to
`±π/2`, and outside of that it is NaN; the constant `π / 17` is the binary32 number nearest to it. (These are the values of libm's `asinf`.) -/
structure EncFunctions (el : Elem) : Prop extends Tame el where
  gain : GainFunctions el
  exp2 : ∀ q : ℚ, |q| ≤ 80 → ∃ c, el.exp2 (fin q) = fin c ∧ |(c : ℝ)| ≤ 2 * (2 : ℝ) ^ (q : ℝ)
  asin : ∀ q : ℚ, |q| < 1 → ∃ c, el.asin (fin q) = fin c ∧ |(c : ℝ) - Real.arcsin q| ≤ 1 / 2 ^ 20
  asin_one : el.asin (fin 1) = fin (13176795 / 8388608)
  asin_neg_one : el.asin (fin (-1)) = fin (-13176795 / 8388608)
  asin_out : ∀ q : ℚ, 1 < |q| → el.asin (fin q) = nan
  asin_nan : el.asin nan = nan
  asin_inf : ∀ s, el.asin (inf s) = nan
  step : el.piOver17 = fin (12401689 / 67108864)

end Lc3.F32
