/-!
# Specification: coded length of a quantised spectrum, postponed bits
-/

namespace Lc3.Spec

/-- `n` is the coded length of the lines `x`: the smallest even number, at least two, with only zeros from line `n` on. -/
structure CodedLength (x : List Int) (n : Nat) : Prop where
  even : n % 2 = 0
  two : 2 ≤ n
  le : n ≤ x.length
  zeros : ∀ k, n ≤ k → x.getD k 0 = 0
  needed : n = 2 ∨ x.getD (n - 2) 0 ≠ 0 ∨ x.getD (n - 1) 0 ≠ 0

/-- number of bits of a pair that LSB mode postpones: none if both magnitudes are below four, otherwise the two lowest bits, and
the sign of a line of magnitude one -/
def postponedPair (x0 x1 : Int) : Nat :=
  if 4 ≤ x0.natAbs ∨ 4 ≤ x1.natAbs then
    2 + (if x0.natAbs = 1 then 1 else 0) + (if x1.natAbs = 1 then 1 else 0)
  else 0

/-- postponed bits of a list of lines -/
def postponed : List Int → Nat
  | x0 :: x1 :: xs => postponedPair x0 x1 + postponed xs
  | _ => 0

end Lc3.Spec
