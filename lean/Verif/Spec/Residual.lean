import Verif.Model.F32
/-!
# Specification of the residual refinement
-/

namespace Lc3.Spec

/-- number of non-zero lines before line `k` -/
def rank (xq : List Int) (k : Nat) : Nat := ((xq.take k).filter (· ≠ 0)).length

/-- the refined value of a line: a step of 5/16 outward or 3/16 inward -/
def refined (x : Int) (up : Bool) : ℚ :=
  if up then (if 0 < x then x + 5 / 16 else x + 3 / 16) else (if 0 < x then x - 3 / 16 else x - 5 / 16)

end Lc3.Spec
