import Verif.Spec.Residual
import Verif.Spec.Spectrum
import Mathlib.Data.Real.Basic
/-! Specification of how far a decoded line may be off, in steps of the quantiser. Nothing here refers to the model. -/

namespace Lc3.Spec

open Classical in
/-- line `k` of the quantised spectrum `xq` when the first `n` nonzero lines are refined: a refined line, a line that is not zero, a zero
that is filled with noise, any other zero -/
noncomputable def stepsOff (d : FrameDuration) (bw : ℕ) (xq : List ℤ) (n k : ℕ) : ℝ :=
  if xq.getD k 0 ≠ 0 then if rank xq k < n then 33 / 100 else 41 / 50
  else if Empty d bw xq k then 57 / 50 else 16 / 25

/-- how far line `k` may be off: the error in steps `n k` of the quantiser times the factor `Γ k` of the noise shaping, and a part of the line
itself; lines from `ne` on are not coded -/
noncomputable def lineOff (δ δ' : ℝ) (ne : ℕ) (Γ n : ℕ → ℝ) (step : ℝ) (L : List ℝ) (k : ℕ) : ℝ :=
  if k < ne then (1 + δ + 1 / 2 ^ 14) * (Γ k * (n k * step)) + (δ + δ' + δ * δ' + 1 / 2 ^ 12) * |L.getD k 0| + 1 / 2 ^ 120
  else |L.getD k 0|

end Lc3.Spec
