import Mathlib.Data.Rat.Defs
/-! Specification for the transforms with overlapping windows. Nothing here refers to the model. -/

namespace Lc3.Overlap

/-- The window `w` has `2 n` entries; synthesis uses it reversed. Sample `i` of the overlap of two frames is seen once through
the first half of the window and once through the second half; this is the sum of both weights. -/
def weight (w : List Rat) (n i : Nat) : Rat :=
  w.getD i 0 * w.getD (2 * n - 1 - i) 0 + w.getD (n + i) 0 * w.getD (n - 1 - i) 0

end Lc3.Overlap
