import Mathlib.Data.Rat.Defs
/-!
# The scalar type

`Scaler` is `f32` in the code (common/complex.rs 2). The model is polymorphic in the scalar type: `Scalar α` has the
operations the code uses, **without any law**. A theorem for every `Scalar α` therefore holds for `f32` with IEEE
semantics, including NaN, infinities and rounding. Theorems in exact arithmetic use the instance for `ℝ`
(`Verif/Model/ScalarReal.lean`).
-/

namespace Lc3

class Scalar (α : Type) extends Add α, Sub α, Mul α, Neg α, Div α where
  /-- the scalar nearest to a decimal literal or integer of the source text -/
  ofRat : Rat → α
  /-- IEEE `a < b` -/
  lt : α → α → Bool
  /-- IEEE `a == b` -/
  eq : α → α → Bool
  sqrt : α → α
  sin : α → α
  /-- `cos(q * π)`, computed in `f64` and rounded -/
  cosPi : Rat → α
  /-- `sin(q * π)`, computed in `f64` and rounded -/
  sinPi : Rat → α
  /-- `(PI / 17.0) as Scaler` -/
  piOver17 : α
  /-- `10.0.powf(x)` -/
  pow10 : α → α
  /-- `fast_math::exp2_raw` -/
  exp2Raw : α → α
  /-- `x as i32` (saturating, NaN to 0) -/
  toI32 : α → Int
  /-- `x as usize` (saturating, NaN to 0) -/
  toUsize : α → Nat
  absS : α → α
  /-- `a.max(b)`: the other operand if one is NaN -/
  maxS : α → α → α
  /-- `a.min(b)` -/
  minS : α → α → α
  floorS : α → α
  ceilS : α → α
  log2 : α → α
  log10 : α → α
  asin : α → α
  /-- `x.exp2()` -/
  exp2 : α → α
  /-- `x.powi(n)` -/
  powi : α → Int → α
  /-- `x < INFINITY` -/
  ltInf : α → Bool

namespace Scalar
variable {α : Type} [Scalar α]

/-- an integer converted to a scalar (`n as Scaler`) -/
def ofInt (n : Int) : α := ofRat (n : Rat)

/-- `0.0` -/
def zero : α := ofRat 0

/-- `1.0` -/
def one : α := ofRat 1

/-- `x > 0.0` -/
def pos (x : α) : Bool := lt zero x

end Scalar

end Lc3
