import Verif.Spec.Coding
/-!
# Specification: one step of a range decoder

The range is divided into 1024 equal steps; every symbol owns as many of them as its frequency says, in the order of the symbols. The rest
of the range belongs to no symbol. The range of the symbol is refilled with bytes until it has at least 17 bits.
-/

namespace Lc3.Spec

/-- `low` lies in the part of the range that belongs to symbol `i` -/
structure InShare (freq : List Nat) (step low i : Nat) : Prop where
  lt : i < freq.length
  lo : step * (freq.take i).sum ≤ low
  hi : low < step * (freq.take (i + 1)).sum

/-- bytes needed to bring a range to at least `2 ^ 16` (it has at least 7 bits) -/
def refill (range : Nat) : Nat := if 2 ^ 16 ≤ range then 0 else if 2 ^ 8 ≤ range then 1 else 2

/-- value of a string of bytes appended to `v` -/
def append (v : Nat) (bytes : List Nat) : Nat := bytes.foldl (fun acc b => acc * 256 + b) v

end Lc3.Spec
