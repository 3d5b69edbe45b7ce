import Verif.Spec.Silence32
import Verif.Spec.Rounding
/-! # Specification: accuracy of the logarithm in binary64 and of the square root in binary32 -/

namespace Lc3

/-- Assumption on `f64::log2`: powers of two have their exponent, other numbers from one on a relative error of at most `2 ^ -50` (eight units in
the last place). -/
structure F64.Log2 (L : ℚ → ℚ) : Prop where
  pow : ∀ k : ℕ, L (2 ^ k) = k
  err : ∀ q : ℚ, 1 ≤ q → |(L q : ℝ) - Real.logb 2 q| ≤ Real.logb 2 q / 2 ^ 50

/-- The square root of IEEE 754 is the nearest number; of a square of an integer below `2 ^ 12` it is this integer. -/
def F32.ExactSquares (el : F32.Elem) : Prop := ∀ k : ℕ, k < 2 ^ 12 → el.sqrt (.fin ((k : ℚ) ^ 2)) = .fin k

end Lc3
