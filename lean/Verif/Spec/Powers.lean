import Verif.Spec.Rounding
import Mathlib.Analysis.SpecialFunctions.Pow.Real
/-!
# Accuracy of the powers of two

The decoder's noise shaping computes powers of two with the crate `fast_math` (`exp2_raw`, an approximation with a relative error of a
few parts in ten thousand), the encoder's with the function of the standard library or `libm`. The errors are parameters. The encoder also
uses `10 ^ -4`, computed by `powi`.
-/

namespace Lc3.F32

/-- relative errors `δ` of the decoder's and `δ'` of the encoder's powers of two -/
structure Powers (el : Elem) (δ δ' : ℝ) : Prop where
  raw : ∀ q : ℚ, |q| ≤ 32 → ∃ c, el.exp2Raw (fin q) = fin c ∧ |(c : ℝ) - (2 : ℝ) ^ (q : ℝ)| ≤ δ * (2 : ℝ) ^ (q : ℝ)
  std : ∀ q : ℚ, |q| ≤ 32 → ∃ c, el.exp2 (fin q) = fin c ∧ |(c : ℝ) - (2 : ℝ) ^ (q : ℝ)| ≤ δ' * (2 : ℝ) ^ (q : ℝ)
  tenth : ∃ c : ℚ, el.powi (fin 10) (-4) = fin c ∧ |(c : ℝ) - 1 / 10000| ≤ 1 / 10000 / 2 ^ 20

end Lc3.F32
