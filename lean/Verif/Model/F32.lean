import Verif.Model.Scalar
import Mathlib.Data.Int.Log
import Mathlib.Data.Rat.Floor
/-!
# IEEE binary32

A value level model of `f32` (common/complex.rs 2): the finite values are rational numbers, every operation rounds the exact
result to nearest, ties to even, with gradual underflow and overflow to infinity. Simplifications: there is one zero (the
sign of zero is not modelled) and one NaN. The elementary functions (`sqrt`, `sin`, `log2`, ..) are a parameter:
theorems hold for every choice.
-/

namespace Lc3

/-- the values of `f32` -/
inductive F32 where
  | nan
  | inf (neg : Bool)
  | fin (q : ℚ)
  deriving DecidableEq

namespace F32

/-- exponent of the unit in the last place of the binade of `q` (24 bit significand, smallest exponent -149) -/
def ulpExp (q : ℚ) : ℤ := max (Int.log 2 |q| - 23) (-149)

/-- nearest integer, ties to even -/
def roundEven (q : ℚ) : ℤ :=
  let f := ⌊q⌋
  if q - f < 1 / 2 then f
  else if 1 / 2 < q - f then f + 1
  else if f % 2 = 0 then f else f + 1

/-- rounding to a 24 bit significand -/
def rndQ (q : ℚ) : ℚ := (roundEven (q / 2 ^ ulpExp q) : ℚ) * 2 ^ ulpExp q

/-- rounding of an exact result -/
def rnd (q : ℚ) : F32 :=
  if 2 ^ 128 ≤ rndQ q then .inf false
  else if rndQ q ≤ -2 ^ 128 then .inf true
  else .fin (rndQ q)

def neg : F32 → F32
  | nan => nan
  | inf s => inf (!s)
  | fin q => fin (-q)

def add : F32 → F32 → F32
  | nan, _ => nan
  | _, nan => nan
  | inf s, inf t => if s = t then inf s else nan
  | inf s, fin _ => inf s
  | fin _, inf t => inf t
  | fin a, fin b => rnd (a + b)

def sub (a b : F32) : F32 := add a (neg b)

/-- the sign of a factor; the sign of zero does not matter where it is used -/
def isNeg : F32 → Bool
  | nan => false
  | inf s => s
  | fin q => decide (q < 0)

def isZero : F32 → Bool
  | fin q => decide (q = 0)
  | _ => false

def mul : F32 → F32 → F32
  | nan, _ => nan
  | _, nan => nan
  | fin a, fin b => rnd (a * b)
  | a, b => if isZero a || isZero b then nan else inf (isNeg a != isNeg b)

/-- division; a finite value divided by zero is the infinity with the sign of the dividend (the divisor is taken as
positive zero) -/
def div : F32 → F32 → F32
  | nan, _ => nan
  | _, nan => nan
  | inf _, inf _ => nan
  | inf s, b => inf (s != isNeg b)
  | fin _, inf _ => fin 0
  | fin a, fin b => if b = 0 then (if a = 0 then nan else inf (decide (a < 0))) else rnd (a / b)

def lt : F32 → F32 → Bool
  | nan, _ => false
  | _, nan => false
  | inf s, inf t => s && !t
  | inf s, fin _ => s
  | fin _, inf t => !t
  | fin a, fin b => decide (a < b)

def eq : F32 → F32 → Bool
  | nan, _ => false
  | _, nan => false
  | inf s, inf t => s == t
  | fin a, fin b => decide (a = b)
  | _, _ => false

/-- truncation toward zero -/
def truncQ (q : ℚ) : ℤ := if 0 ≤ q then ⌊q⌋ else -⌊-q⌋

/-- `x as i32`: truncation, saturation, NaN to 0 -/
def toI32 : F32 → ℤ
  | nan => 0
  | inf true => -2147483648
  | inf false => 2147483647
  | fin q => max (-2147483648) (min 2147483647 (truncQ q))

/-- `x as usize`: truncation, saturation (64 bit), NaN to 0 -/
def toUsize : F32 → ℕ
  | nan => 0
  | inf true => 0
  | inf false => 18446744073709551615
  | fin q => min 18446744073709551615 ⌊q⌋.toNat

def absF : F32 → F32
  | nan => nan
  | inf _ => inf false
  | fin q => fin |q|

/-- `a.max(b)`: a NaN operand is ignored -/
def maxF : F32 → F32 → F32
  | nan, b => b
  | a, nan => a
  | a, b => if lt a b then b else a

/-- `a.min(b)`: a NaN operand is ignored -/
def minF : F32 → F32 → F32
  | nan, b => b
  | a, nan => a
  | a, b => if lt b a then b else a

/-- the floor of a finite `f32` is an `f32` -/
def floorF : F32 → F32
  | fin q => fin ⌊q⌋
  | x => x

def ceilF : F32 → F32
  | fin q => fin ⌈q⌉
  | x => x

/-- `x < INFINITY` -/
def ltInf (x : F32) : Bool := lt x (inf false)

/-- a value that an `f32` can have -/
def Rep (q : ℚ) : Prop := ∃ m e : ℤ, q = m * 2 ^ e ∧ |m| < 2 ^ 24 ∧ -149 ≤ e

/-- the elementary functions -/
structure Elem where
  sqrt : F32 → F32
  sin : F32 → F32
  cosPi : ℚ → F32
  sinPi : ℚ → F32
  piOver17 : F32
  pow10 : F32 → F32
  exp2Raw : F32 → F32
  log2 : F32 → F32
  log10 : F32 → F32
  asin : F32 → F32
  exp2 : F32 → F32
  powi : F32 → ℤ → F32

/-- `f32` with the elementary functions `el` -/
@[reducible] def scalar (el : Elem) : Scalar F32 where
  add := add
  sub := sub
  mul := mul
  neg := neg
  div := div
  ofRat := rnd
  lt := lt
  eq := eq
  sqrt := el.sqrt
  sin := el.sin
  cosPi := el.cosPi
  sinPi := el.sinPi
  piOver17 := el.piOver17
  pow10 := el.pow10
  exp2Raw := el.exp2Raw
  toI32 := toI32
  toUsize := toUsize
  absS := absF
  maxS := maxF
  minS := minF
  floorS := floorF
  ceilS := ceilF
  log2 := el.log2
  log10 := el.log10
  asin := el.asin
  exp2 := el.exp2
  powi := el.powi
  ltInf := ltInf

end F32
end Lc3
