import Verif.Spec.EncoderFrame
import Mathlib.Analysis.SpecialFunctions.Log.Base
/-!
# Specification: the first estimate of the global gain and the rate control

Energies are in dB, gains in steps of 20/28 dB (so that an energy `e` corresponds to the gain index `7 e / 5`).
-/

namespace Lc3.Spec

/-- the number of bits one group of four lines is expected to cost, in units of 1/(7/5 · 7/5) bit: 2.7 units of 7/5 when the group is quantised to
zero, then rising linearly with the level, with the double slope for more than 43 dB -/
noncomputable def groupCost (g e : ℝ) : ℝ :=
  if 7 / 5 * e < g then 7 / 5 * (27 / 10)
  else if 7 / 5 * (e - 43) > g then 2 * (7 / 5 * e - g) - 7 / 5 * 36
  else 7 / 5 * e - g + 7 / 5 * 7

open Classical in
/-- the expected cost of a spectrum: the groups above the last one that is not quantised to zero are free -/
noncomputable def spectrumCost (g : ℝ) (es : List ℝ) : ℝ :=
  ((es.reverse.dropWhile (fun e => decide (7 / 5 * e < g))).map (groupCost g)).sum

/-- the gain `g` is too fine for the budget of `bits` bits -/
def TooFine (es : List ℝ) (bits : ℕ) (g : ℝ) : Prop := (7 / 5) * (7 / 5) * bits < spectrumCost g es

/-- the energy of the group `k` of four lines, in dB -/
noncomputable def groupEnergy (xf : List ℝ) (k : ℕ) : ℝ :=
  10 * Real.logb 10 (1 / 2 ^ 23 + (xf.getD (4 * k) 0 ^ 2 + xf.getD (4 * k + 1) 0 ^ 2 + xf.getD (4 * k + 2) 0 ^ 2
    + xf.getD (4 * k + 3) 0 ^ 2))

/-- the tolerance of the gain adjustment before rounding: piecewise linear in the estimate, with the nodes
(0, 3), (80 + 150 fs, 3 + t/16), (500 + 525 fs, t/48), (850 (fs + 1), t/48), constant from the last one on -/
noncomputable def tolerance0 (fs : ℕ) (est : ℝ) : ℝ :=
  let t1 : ℝ := 80 + 150 * fs
  let t2 : ℝ := 500 + 525 * fs
  let t3 : ℝ := 850 * (fs + 1)
  if est < t1 then 3 + est / 16
  else if est < t2 then (3 + t1 / 16) + (est - t1) / (t2 - t1) * (t2 / 48 - (3 + t1 / 16))
  else if est < t3 then est / 48
  else t3 / 48

/-- the tolerance, rounded to the nearest integer -/
noncomputable def tolerance (fs : ℕ) (est : ℕ) : ℤ := ⌊tolerance0 fs est + 1 / 2⌋

/-- one step of adjustment: finer by one when the estimate is below the budget by more than the tolerance plus two bits, coarser
by one or two when it exceeds the budget; never below the bound of the limiter -/
noncomputable def adjusted (fs : ℕ) (ind low : ℤ) (spec est : ℕ) : ℤ :=
  if 0 < ind ∧ (est : ℤ) + tolerance fs est + 2 < spec then max low (ind - 1)
  else if ind < 255 ∧ spec < est then
    max low (if ind = 254 ∨ (est : ℤ) < spec + tolerance fs est then ind + 1 else ind + 2)
  else ind

/-- the recursion of the rate control: the new offset of the budget from the last offset, the budget and the estimate of
the last frame -/
noncomputable def rateOffset (offset spec est : ℝ) : ℝ := 4 / 5 * offset + 1 / 5 * min 40 (max (-40) (offset + spec - est))

end Lc3.Spec
