import Verif.Model.ArithDecode
/-! Model of `read_frame`, decoder/lc3_decoder.rs. -/

namespace Lc3

/-- decoder/lc3_decoder.rs 165-178 (`read_frame`). `checks`: the build has overflow checks. The final
quantised spectrum (`spec_lines_int`) is part of the result; the reader is dropped. -/
def readFrame (checks : Bool) (cfg : Lc3Config) (buf : List Nat) :
    Res (SideInfo × ArithmeticData × List Int) := do
  let (si, r) ← readSideInfo buf Reader.new cfg.fsInd cfg.ne
  let ((ad, x), _) ← arithDecode checks buf r cfg.fsInd cfg.ne si cfg.nMs
  .ok (si, ad, x)

end Lc3
