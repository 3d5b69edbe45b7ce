import Verif.Spec.LinearPrediction
import Mathlib.Analysis.Real.Pi.Bounds
import Mathlib.Analysis.Complex.Exponential
/-!
# Specification: the filter of temporal noise shaping
-/

namespace Lc3.Spec

/-- the coefficients of the filter of order `k` with the reflection coefficients `c 0`, .., `c (k - 1)`: each coefficient adds
the mirrored filter -/
def ladder (c : ℕ → ℝ) : ℕ → ℕ → ℝ
  | 0, n => if n = 0 then 1 else 0
  | k + 1, n => ladder c k n + if n ≤ k + 1 then c k * ladder c k (k + 1 - n) else 0

/-- the factor of the weighting: 0.85 at a prediction gain of 1.5, rising to 1 at a gain of 2 -/
noncomputable def weightOf (weighting : Bool) (gain : ℝ) : ℝ :=
  if weighting = true ∧ gain < 2 then 85 / 100 + 15 / 100 * ((gain - 3 / 2) / (2 - 3 / 2)) else 1

/-- the correlation of the part of the spectrum from line `p.1` to `p.2` with itself, `k` lines apart -/
def partAuto (x : List ℝ) (p : ℕ × ℕ) (k : ℕ) : ℝ := ∑ t ∈ Finset.range (p.2 - p.1 - k), x.getD (p.1 + t) 0 * x.getD (p.1 + t + k) 0

/-- the autocorrelation of a range with the given parts before the lag window: each part is divided by its energy; a range with an empty part
counts as white -/
noncomputable def rangeAuto (x : List ℝ) (parts : List (ℕ × ℕ)) (k : ℕ) : ℝ :=
  if ∃ p ∈ parts, partEnergy x p = 0 then (if k = 0 then 3 else 0) else (parts.map fun p => partAuto x p k / partEnergy x p).sum

/-- the lag window: a Gaussian of width `50 / π` -/
noncomputable def lagGauss (k : ℕ) : ℝ := Real.exp (-(1 / 2) * (Real.pi * k / 50) ^ 2)

/-- sum of `b i` times the sample `i` steps before `n`; zero before the first sample -/
noncomputable def convolve (b : ℕ → ℝ) (order : ℕ) (x : List ℝ) (n : ℕ) : ℝ :=
  ∑ i ∈ Finset.range (order + 1), b i * if i ≤ n then x.getD (n - i) 0 else 0

end Lc3.Spec
