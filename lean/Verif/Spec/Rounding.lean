import Verif.Model.F32
import Verif.Model.Fft
import Mathlib.Analysis.SpecialFunctions.Trigonometric.Basic
/-!
# Specification of rounding errors

The real number a binary32 value stands for, the accuracy that is assumed of the elementary functions, and the Euclidean norm
in which errors are measured.
-/

namespace Lc3
open Finset

namespace F32

/-- the real number a finite value stands for -/
noncomputable def val : F32 → ℝ
  | fin q => (q : ℝ)
  | _ => 0

/-- neither NaN nor infinite -/
def IsFin (a : F32) : Prop := ∃ q, a = fin q

/-- the complex number a pair of finite values stands for -/
noncomputable def cval (z : Cx F32) : ℂ := ⟨val z.r, val z.i⟩

/-- Assumption on the elementary functions: sines and cosines are computed with an absolute error of at most `2 ^ -24`
(one unit in the last place just below 1), square roots with a relative error of at most `2 ^ -24`. The code computes sines and cosines in
binary64 and rounds the result to binary32; IEEE 754 requires a correctly rounded square root. -/
structure Accurate (el : Elem) : Prop where
  cosPi : ∀ q : ℚ, ∃ c, el.cosPi q = fin c ∧ |(c : ℝ) - Real.cos (q * Real.pi)| ≤ 1 / 2 ^ 24
  sinPi : ∀ q : ℚ, ∃ c, el.sinPi q = fin c ∧ |(c : ℝ) - Real.sin (q * Real.pi)| ≤ 1 / 2 ^ 24
  sqrt : ∀ q : ℚ, 0 ≤ q → ∃ r, el.sqrt (fin q) = fin r ∧ |(r : ℝ) - Real.sqrt q| ≤ Real.sqrt q / 2 ^ 24

end F32

/-- the Euclidean norm of the first `n` entries -/
noncomputable def l2 (n : ℕ) (g : ℕ → ℝ) : ℝ := Real.sqrt (∑ i ∈ range n, g i ^ 2)

end Lc3
