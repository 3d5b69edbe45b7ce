import Verif.Model.Scalar
import Mathlib.Analysis.SpecialFunctions.Pow.Real
import Mathlib.Analysis.SpecialFunctions.Trigonometric.Basic
import Mathlib.Analysis.SpecialFunctions.Trigonometric.Inverse
import Mathlib.Analysis.SpecialFunctions.Log.Base
/-!
# Exact arithmetic

The instance of `Scalar` for the real numbers: every operation is the exact one. `exp2Raw` is idealised (the code uses the
approximation of the crate `fast_math`); `toI32` is the saturating truncation of Rust's `as i32`. Theorems about
this instance say what the algorithm computes apart from rounding.
-/

namespace Lc3

/-- truncation toward zero, saturating at the bounds of `i32` -/
noncomputable def realToI32 (x : ℝ) : Int :=
  max (-2147483648) (min 2147483647 (if 0 ≤ x then ⌊x⌋ else ⌈x⌉))

/-- truncation, saturating at the bounds of a 64 bit `usize` -/
noncomputable def realToUsize (x : ℝ) : Nat := min 18446744073709551615 ⌊x⌋₊

noncomputable instance : Scalar ℝ where
  ofRat q := (q : ℝ)
  lt a b := open Classical in decide (a < b)
  eq a b := open Classical in decide (a = b)
  sqrt := Real.sqrt
  sin := Real.sin
  cosPi q := Real.cos ((q : ℝ) * Real.pi)
  sinPi q := Real.sin ((q : ℝ) * Real.pi)
  piOver17 := Real.pi / 17
  pow10 x := (10 : ℝ) ^ x
  exp2Raw x := (2 : ℝ) ^ x
  toI32 := realToI32
  toUsize := realToUsize
  absS x := |x|
  maxS a b := Max.max a b
  minS a b := Min.min a b
  floorS x := (⌊x⌋ : ℝ)
  ceilS x := (⌈x⌉ : ℝ)
  log2 := Real.logb 2
  log10 := Real.logb 10
  asin := Real.arcsin
  exp2 x := (2 : ℝ) ^ x
  powi x n := x ^ n
  ltInf _ := true

end Lc3
