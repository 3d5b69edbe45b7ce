import Verif.Lemmas.Bytes
/-! Specification of bit positions in a frame. `tailBit buf j` is bit `j` counted from the least
significant bit of the last byte; `headBit buf i` is bit `i` counted from the most significant bit of the
first byte. -/

namespace Lc3

def headBit (buf : List Nat) (i : Nat) : Bool := (buf.getD (i / 8) 0).testBit (7 - i % 8)

theorem headBit_eq {buf : List Nat} {i : Nat} (h : i < 8 * buf.length) :
    headBit buf i = tailBit buf (8 * buf.length - 1 - i) := by
  unfold headBit tailBit
  have e1 : buf.length - 1 - (8 * buf.length - 1 - i) / 8 = i / 8 := by omega
  have e2 : (8 * buf.length - 1 - i) % 8 = 7 - i % 8 := by omega
  rw [e1, e2]

end Lc3
