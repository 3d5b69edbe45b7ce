import Mathlib.Data.Finset.Card
import Mathlib.Logic.Function.Iterate
/-!
# Specification: 16 bit pseudo random generators
-/

namespace Lc3.Spec

/-- a generator of 16 bit states that visits all of them before it repeats itself, and that draws the two signs (state below 32768
or not) equally often: 32768 draws later the sign is always the opposite -/
structure FairGenerator (next : ℕ → ℕ) : Prop where
  range : ∀ s < 65536, next s < 65536
  visits : ∀ s < 65536, ∀ t < 65536, ∃! n, n < 65536 ∧ next^[n] s = t
  returns : ∀ s < 65536, next^[65536] s = s
  opposite : ∀ s < 65536, ∀ n, next^[n + 32768] s < 32768 ↔ ¬ next^[n] s < 32768
  balanced : ∀ s < 65536, ∀ m, ((Finset.range 65536).filter fun n => next^[m + n] s < 32768).card = 32768

end Lc3.Spec
