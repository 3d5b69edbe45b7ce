import Mathlib.Analysis.Real.Sqrt
import Mathlib.Algebra.BigOperators.Group.Finset.Basic
/-! Specification of the distance between two spectra. Nothing here refers to the model. -/

namespace Lc3.Spec
open Finset

/-- the energy of the difference of the first `n` lines; lines a spectrum does not have are zero -/
def lineEnergy (n : Nat) (a b : List ℝ) : ℝ := ∑ k ∈ range n, (a.getD k 0 - b.getD k 0) ^ 2

/-- the Euclidean distance of the first `n` lines -/
noncomputable def lineDist (n : Nat) (a b : List ℝ) : ℝ := Real.sqrt (lineEnergy n a b)

end Lc3.Spec
