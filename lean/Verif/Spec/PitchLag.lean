/-!
# Specification of the pitch lag code

Lags are measured in quarters of a sample. The code has three pieces: 380 lags in quarter steps from 32, 60 lags in half
steps from 127, 72 lags in whole steps from 157.
-/

namespace Lc3.Spec

/-- the lag, in quarters of a sample, of a pitch index -/
def quarterLag (index : Nat) : Nat :=
  if index < 380 then 4 * 32 + index
  else if index < 440 then 4 * 127 + 2 * (index - 380)
  else 4 * 157 + 4 * (index - 440)

/-- the lags that have an index: whole samples and quarters -/
def codable (int fr : Nat) : Prop :=
  (32 ≤ int ∧ int < 127 ∧ fr < 4) ∨ (127 ≤ int ∧ int < 157 ∧ (fr = 0 ∨ fr = 2)) ∨ (157 ≤ int ∧ int ≤ 228 ∧ fr = 0)

end Lc3.Spec
