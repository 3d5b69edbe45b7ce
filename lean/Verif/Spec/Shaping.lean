import Mathlib.Analysis.SpecialFunctions.Pow.Real
import Mathlib.Algebra.BigOperators.Intervals
/-!
# Specification: the gains of the decoder's noise shaping

16 scale factors stand for groups of four out of 64 bands. Factor `n` belongs to the middle of its group, the position `4 n + 3/2`.
-/

namespace Lc3.Spec

/-- the factor at band `b` of 64: the straight line through the two neighbouring scale factors; constant before the first and
continued with the slope of the last segment behind the last scale factor -/
noncomputable def factorAt (s : ℕ → ℝ) (b : ℕ) : ℝ :=
  if b ≤ 1 then s 0
  else
    let n := min ((b - 2) / 4) 14
    s n + ((b : ℝ) - (4 * n + 3 / 2)) / 4 * (s (n + 1) - s n)

/-- the factor of band `b` of `nb`: when there are fewer than 64 bands the first `64 - nb` bands each stand for two -/
noncomputable def bandFactor (nb : ℕ) (s : ℕ → ℝ) (b : ℕ) : ℝ :=
  if b < 64 - nb then (factorAt s (2 * b) + factorAt s (2 * b + 1)) / 2 else factorAt s (b + (64 - nb))

/-- scale factor of a code vector `c`, a gain and pulses `y` of 16 dimensions, normalised to length one and rotated by `R` -/
noncomputable def shapedFactor (c : ℕ → ℝ) (gain : ℝ) (y : ℕ → ℝ) (R : ℕ → ℕ → ℝ) (n : ℕ) : ℝ :=
  c n + gain / Real.sqrt (∑ i ∈ Finset.range 16, y i ^ 2) * ∑ i ∈ Finset.range 16, y i * R n i

end Lc3.Spec
