import Verif.Basic
import Verif.Model.Scalar
/-!
# Encoder: residual bits

Model of encoder/residual_spectrum.rs. The bit array keeps bits of earlier frames beyond the new ones, but only the first
`nbits_residual` bits are handed out, all of them written in this call; the model returns these.
-/

namespace Lc3
open Scalar

variable {α : Type} [Scalar α]

/-- IEEE `a >= b` -/
def geS (a b : α) : Bool := lt b a || eq a b

/-- encoder/residual_spectrum.rs 47-57: the loop; `n` is `nbits_residual`. Setting a bit beyond the 400 bits of the
array panics. -/
def residualEncLoop (gg : α) (max : Nat) : Nat → List α → List Int → Res (List Bool)
  | n, t :: ts, x :: xs =>
    if n ≥ max then .ok []
    else if x ≠ 0 then
      if n ≥ 400 then .panic
      else do
        let bs ← residualEncLoop gg max (n + 1) ts xs
        .ok (geS t (ofInt x * gg) :: bs)
    else residualEncLoop gg max n ts xs
  | _, _, _ => .ok []

/-- encoder/residual_spectrum.rs 33-62 (`encode`) -/
def residualEncode (nbitsSpec nbitsSpecTrunc ne : Nat) (gg : α) (xf : List α) (xq : List Int) : Res (List Bool) :=
  let max := ((nbitsSpec : Int) - nbitsSpecTrunc + 4).toNat
  if max > 0 then
    if xf.length < ne ∨ xq.length < ne then .panic
    else residualEncLoop gg max 0 (xf.take ne) (xq.take ne)
  else .ok []

end Lc3
