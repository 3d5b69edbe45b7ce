import Verif.Model.BitstreamEnc
import Verif.Spec.Coding
/-! Coding a sequence of symbols at the head of a frame whose tail holds other bits. -/

namespace Lc3

/-- one symbol: the value `val` coded with the model (`cum`, `freq`) -/
structure Symb where
  cum : List Nat
  freq : List Nat
  val : Nat

def Symb.Ok (y : Symb) : Prop := ProperModel y.cum y.freq ∧ y.val < y.freq.length

/-- a fresh frame of `N` zero bytes with the bits `tl` written from its end -/
def startFrame (N : Nat) (tl : List Bool) : Res EncSt := do
  let w ← Writer.new N
  let s ← encBools tl ⟨w, List.replicate N 0, ⟨0, 0, 0, 0, 0⟩⟩
  .ok (acEncInit s)

/-- the encoder codes the symbols one by one -/
def encodeSymbols : List Symb → EncSt → Res EncSt
  | [], s => .ok s
  | y :: ys, s => do
    let c ← idx y.cum y.val
    let f ← idx y.freq y.val
    let s ← acEncode s c f
    encodeSymbols ys s

/-- the decoder asks for one symbol of each model -/
def decodeModels (buf : List Nat) (r : Reader) (st : AcDec) : List Symb → Res (List Nat)
  | [] => .ok []
  | y :: ys => do
    let (v, st, r) ← acDecode buf r st y.cum y.freq
    let l ← decodeModels buf r st ys
    .ok (v :: l)

/-- decode a frame whose symbols start at its first byte -/
def decodeSymbols (buf : List Nat) (tail : Nat) (ys : List Symb) : Res (List Nat) := do
  let (st, r) ← acDecInit buf ⟨0, tail⟩
  decodeModels buf r st ys

end Lc3
