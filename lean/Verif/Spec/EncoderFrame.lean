import Mathlib.Analysis.SpecialFunctions.Pow.Real
/-! # Specification: global gain and the range of the quantiser -/

namespace Lc3.Spec

/-- the offset of the gain index for a frame of `nbits` bits -/
def gainOffset (nbits fsInd : Nat) : Int := -(min 115 (nbits / (10 * (fsInd + 1))) : Nat) - 105 - 5 * (fsInd + 1)

/-- the quantiser step of index `ind`: 28 indices per factor of ten -/
noncomputable def stepOf (nbits fsInd ind : Nat) : ℝ := 10 ^ (((ind : ℝ) + gainOffset nbits fsInd) / 28)

/-- the largest magnitude of a line that can be transmitted: with the largest gain it is rounded to 16 bits -/
noncomputable def maxLine (nbits fsInd : Nat) : ℝ := (32768 - 3 / 8) * stepOf nbits fsInd 255

end Lc3.Spec
