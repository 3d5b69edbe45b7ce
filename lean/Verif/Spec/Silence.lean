import Verif.Model.Encoder
import Verif.Model.Decoder
/-! Specification of a coded connection: frames are encoded, sent and decoded one after the other. -/

namespace Lc3.Spec

variable {α : Type} [Scalar α]

/-- one frame of a connection: the channel, the samples, the buffer of the encoder, the bytes that arrive instead of the frame (if
it is damaged on the way) and the buffer of the decoder -/
structure Transfer where
  channel : Nat
  samples : List Int
  frame : List Nat
  damaged : Option (List Nat)
  out : List Int

/-- the decoded samples of all frames, `16` bits per sample -/
def transfer (checks : Bool) : List Transfer → Encoder α → Decoder α → Res (List (List Int))
  | [], _, _ => .ok []
  | c :: cs, E, D => do
    let (E, bytes) ← encodeFrameOn E c.channel c.samples c.frame
    let (_, D, out) ← decodeFrame checks D 16 c.channel (c.damaged.getD bytes) c.out
    let l ← transfer checks cs E D
    .ok (out :: l)

/-- a frame of silence of `nf` samples for one of `n` channels, coded with 20 to 4095 bytes; what arrives instead of it, if anything,
is rejected by the parser -/
structure SilentTransfer (checks : Bool) (cfg : Lc3Config) (n : Nat) (c : Transfer) : Prop where
  channel : c.channel < n
  samples : c.samples = List.replicate cfg.nf 0
  low : 20 ≤ c.frame.length
  high : c.frame.length < 4096
  damaged : ∀ b, c.damaged = some b → readFrame checks cfg b = .err
  out : c.out.length = cfg.nf

end Lc3.Spec
