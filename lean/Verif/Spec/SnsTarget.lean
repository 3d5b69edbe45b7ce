import Mathlib.Analysis.SpecialFunctions.Log.Base
import Mathlib.Analysis.SpecialFunctions.Pow.Real
import Mathlib.Algebra.BigOperators.Intervals
/-!
# Specification: energies of the bands and the scale factors derived from them

Written with functions on the natural numbers; sequences are continued at both ends with their first and last value.
-/

namespace Lc3.Spec

/-- energy of the lines `i ≤ k < j`: their mean square -/
noncomputable def bandEnergy (x : ℕ → ℝ) (i j : ℕ) : ℝ := (∑ k ∈ Finset.Ico i j, x k ^ 2) / (j - i : ℕ)

/-- the energy of the last `m` of `n` bands exceeds 30 times the energy of the others -/
def NearNyquist (E : ℕ → ℝ) (n m : ℕ) : Prop := 30 * ∑ b ∈ Finset.range (n - m), E b < ∑ b ∈ Finset.Ico (n - m) n, E b

/-- value number `i` of a sequence of `n` values, continued at both ends -/
def held (n : ℕ) (x : ℕ → ℝ) (i : ℤ) : ℝ := x (min i (n - 1)).toNat

/-- smoothed energy of band `b` of 64 -/
noncomputable def smoothed (E : ℕ → ℝ) (b : ℕ) : ℝ :=
  (held 64 E (b - 1) + 2 * held 64 E b + held 64 E (b + 1)) / 4

/-- tilted by `14 + 4 fs` decibels over the 63 steps between the bands -/
noncomputable def tilted (fs : ℕ) (E : ℕ → ℝ) (b : ℕ) : ℝ := smoothed E b * 10 ^ ((b : ℝ) / 63 * ((14 + 4 * fs) / 10))

/-- no band is taken to be more than 40 decibels below the mean or below 2⁻³² -/
noncomputable def energyFloor (fs : ℕ) (E : ℕ → ℝ) : ℝ :=
  max (1 / 2 ^ 32) ((∑ b ∈ Finset.range 64, tilted fs E b) / 64 / 10000)

/-- half of the binary logarithm -/
noncomputable def logEnergy (fs : ℕ) (E : ℕ → ℝ) (b : ℕ) : ℝ :=
  Real.logb 2 (1 / 2 ^ 23 + max (tilted fs E b) (energyFloor fs E)) / 2

/-- groups of four bands, weighted with 1 2 3 3 2 1 -/
noncomputable def grouped (L : ℕ → ℝ) (n : ℕ) : ℝ :=
  (∑ k ∈ Finset.range 6, (min (k + 1) (6 - k) : ℕ) * held 64 L (4 * n + k - 1)) / 12

/-- mean of 16 values -/
noncomputable def mean16 (y : ℕ → ℝ) : ℝ := (∑ n ∈ Finset.range 16, y n) / 16

/-- the mean of the up to five neighbours of `n` -/
noncomputable def neighbours (y : ℕ → ℝ) (n : ℕ) : ℝ :=
  (∑ m ∈ (Finset.range 16).filter (fun m => m ≤ n + 2 ∧ n ≤ m + 2), y m) /
    ((Finset.range 16).filter (fun m => m ≤ n + 2 ∧ n ≤ m + 2)).card

/-- scale factor `n` without an attack -/
noncomputable def plainTarget (fs : ℕ) (E : ℕ → ℝ) (n : ℕ) : ℝ :=
  17 / 20 * (grouped (logEnergy fs E) n - mean16 (grouped (logEnergy fs E)))

/-- scale factor `n` in case of an attack; `c` is 1/2 or 3/10 -/
noncomputable def attackTarget (fs : ℕ) (c : ℝ) (E : ℕ → ℝ) (n : ℕ) : ℝ :=
  c * (neighbours (plainTarget fs E) n - mean16 (neighbours (plainTarget fs E)))

end Lc3.Spec
