import Mathlib.Data.List.Basic
/-! Which probability model has to be used for which symbol of the spectral data. Written from the
description of the context in the code, without the state `c` that both sides carry along. -/

namespace Lc3.Context

/-- what a pair of spectral lines contributes to the contexts of the next two pairs: the two values that
are left after `lev` halvings, and `lev` -/
structure Pair where
  a : Nat
  b : Nat
  lev : Nat
deriving DecidableEq, Repr

/-- number of halvings after which both values are below 4 -/
def escapes (a b : Nat) : Nat := Nat.log2 (max a b) - 1

/-- a pair of magnitudes -/
def ofMagnitudes (a b : Nat) : Pair := ⟨a / 2 ^ escapes a b, b / 2 ^ escapes a b, escapes a b⟩

/-- size class of a pair, 1 to 15 -/
def Pair.size (p : Pair) : Nat := if p.lev ≤ 1 then 1 + (p.a + p.b) * (p.lev + 1) else 12 + min p.lev 3

/-- size class of pair `k - j`, 0 before the first pair -/
def sizeBefore (ps : List Pair) (k j : Nat) : Nat :=
  if k < j then 0 else (ps[k - j]?.map Pair.size).getD 0

/-- Number of the probability model for the symbol sent at escape level `l` of pair `k`: it depends on the two
pairs before, on the bit rate, on whether the pair is in the upper half of the spectrum, and on the level. -/
def modelIndex (rateFlag ne : Nat) (ps : List Pair) (k l : Nat) : Nat :=
  16 * sizeBefore ps k 2 + sizeBefore ps k 1 + rateFlag + (if 2 * k > ne / 2 then 256 else 0) + 1024 * min l 3

/-- symbol sent at level `l`: 16 is the escape -/
def symbol (p : Pair) (l : Nat) : Nat := if l < p.lev then 16 else p.a + 4 * p.b

/-- all symbols of a spectrum with their models, at most `rounds` symbols for a pair -/
def symbols (rounds rateFlag ne : Nat) (ps : List Pair) : List (Nat × Nat) :=
  (List.range ps.length).flatMap fun k =>
    (List.range (min ((ps[k]?.map Pair.lev).getD 0 + 1) rounds)).map fun l =>
      (modelIndex rateFlag ne ps k l, symbol (ps[k]?.getD ⟨0, 0, 0⟩) l)

/-- the pairs of a list of lines -/
def ofLines : List Int → List Pair
  | x0 :: x1 :: xs => ofMagnitudes x0.natAbs x1.natAbs :: ofLines xs
  | _ => []

end Lc3.Context
