import Mathlib.Data.List.Basic
/-! Specification of what the frame transmits of the noise shaping filters: the coefficient indices up to the order of each filter. -/

namespace Lc3.Spec

/-- `ints` (8 places for each filter) carries the same indices as `sent` for the first `order` coefficients of each filter -/
def TnsSent (orders sent ints : List Nat) : Prop :=
  ∀ f o k, orders[f]? = some o → k < o → ∃ i, sent[f * 8 + k]? = some i ∧ ints[f * 8 + k]? = some i

/-- no transmitted index is 0 -/
def TnsNoZero (orders ints : List Nat) : Prop :=
  ∀ f o k, orders[f]? = some o → k < o → ints[f * 8 + k]? ≠ some 0

end Lc3.Spec
