import Verif.Spec.EncFunctions
import Mathlib.Analysis.SpecialFunctions.Log.Base
/-! # Specification: accuracy of the logarithm of the band energies -/

namespace Lc3.F32

/-- Assumption on the two functions behind the scale factors: the binary logarithm of a positive number is computed with a relative error
of at most `2 ^ -22` (two units in the last place), and `2 ^ -32` is exact. -/
structure LogFunctions (el : Elem) : Prop where
  log2 : ∀ q : ℚ, 0 < q → ∃ c, el.log2 (fin q) = fin c ∧ |(c : ℝ) - Real.logb 2 q| ≤ |Real.logb 2 q| / 2 ^ 22 + 1 / 2 ^ 100
  powi : el.powi (fin 2) (-32) = fin (1 / 2 ^ 32)

end Lc3.F32
