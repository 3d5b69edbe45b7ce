/-! Specification of probability models: a list of positive frequencies with total 1024 and the list of
its prefix sums. -/

namespace Lc3

structure ProperModel (cum freq : List Nat) : Prop where
  len : cum.length = freq.length
  pos : ∀ f ∈ freq, 0 < f
  prefixSums : ∀ i, i < freq.length → cum[i]? = some (freq.take i).sum
  total : freq.sum = 1024

end Lc3
