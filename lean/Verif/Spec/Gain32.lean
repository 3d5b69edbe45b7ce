import Verif.Spec.Rounding
import Verif.Spec.EncoderFrame
import Mathlib.Analysis.SpecialFunctions.Log.Base
/-! # Specification: accuracy of the logarithm and the power that choose the gain -/

namespace Lc3.F32

/-- Assumption on the two functions behind the gain: `log10` of a positive number and `10^x` are computed with a relative error of at
most `2 ^ -22` (two units in the last place); the logarithm of zero is minus infinity. -/
structure GainFunctions (el : Elem) : Prop where
  log10 : ∀ q : ℚ, 0 < q → ∃ c, el.log10 (fin q) = fin c ∧ |(c : ℝ) - Real.logb 10 q| ≤ |Real.logb 10 q| / 2 ^ 22 + 1 / 2 ^ 100
  log10_zero : el.log10 (fin 0) = inf true
  pow10 : ∀ q : ℚ, |q| ≤ 10 → ∃ c, el.pow10 (fin q) = fin c ∧ |(c : ℝ) - (10 : ℝ) ^ (q : ℝ)| ≤ (10 : ℝ) ^ (q : ℝ) / 2 ^ 22

end Lc3.F32
