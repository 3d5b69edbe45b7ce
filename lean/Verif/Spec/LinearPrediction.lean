import Mathlib.Algebra.BigOperators.Intervals
import Mathlib.Algebra.BigOperators.Group.List.Basic
import Mathlib.Data.Real.Basic
import Mathlib.Analysis.Complex.Norm
/-!
# Specification: linear prediction of order 8

An autocorrelation is a function of the lag; coefficients are functions of the position, of which 0 to 8 count.
-/

namespace Lc3.Spec

/-- `|m - n|` -/
def lag (m n : ℕ) : ℕ := (m - n) + (n - m)

/-- the energy of the signal filtered with `b`, in terms of its autocorrelation -/
def filteredEnergy (r b : ℕ → ℝ) : ℝ := ∑ m ∈ Finset.range 9, ∑ n ∈ Finset.range 9, b m * b n * r (lag m n)

/-- no filter of order 8 (except zero) removes the signal completely -/
def Nonsingular (r : ℕ → ℝ) : Prop := ∀ b : ℕ → ℝ, (∃ n < 9, b n ≠ 0) → 0 < filteredEnergy r b

/-- the normal equations of the predictor error filter `a` with the remaining energy `e` -/
def NormalEquations (r a : ℕ → ℝ) (e : ℝ) : Prop :=
  ∀ m < 9, ∑ n ∈ Finset.range 9, a n * r (lag m n) = if m = 0 then e else 0

/-- the energy of the part of the spectrum from line `p.1` to `p.2`, filtered with `b` from zero states, including the tail -/
def partFiltered (x : List ℝ) (p : ℕ × ℕ) (b : ℕ → ℝ) : ℝ :=
  ∑ t ∈ Finset.range (p.2 - p.1 + 8),
    (∑ i ∈ Finset.range 9, b i * if i ≤ t ∧ t - i < p.2 - p.1 then x.getD (p.1 + (t - i)) 0 else 0) ^ 2

/-- the energy of a part -/
def partEnergy (x : List ℝ) (p : ℕ × ℕ) : ℝ := ∑ t ∈ Finset.range (p.2 - p.1), x.getD (p.1 + t) 0 ^ 2

/-- no filter of order 8 reduces the energy of all parts below 10⁻¹⁵ of the energy of the filter's coefficients times the
energy of the parts -/
def NotSmooth (x : List ℝ) (parts : List (ℕ × ℕ)) : Prop :=
  ∀ b : ℕ → ℝ, 1 / 10 ^ 15 * ∑ i ∈ Finset.range 9, b i ^ 2 ≤ (parts.map fun p => partFiltered x p b / partEnergy x p).sum

end Lc3.Spec
