import Verif.Model.Decoder
/-!
# Specification: decoder level notions

Reachable decoders, sequences of calls, the lengths on which the parser panics.
-/

namespace Lc3.Spec
open Lc3

variable {α : Type} [Scalar α]

/-- the decoders a caller can have: made by `new` from any buffers, then used for any calls that returned -/
inductive Reachable (f : SamplingFrequency) (d : FrameDuration) : Decoder α → Prop
  | new {n : Nat} {sb : List α} {cb : List (Cx α)} {D : Decoder α} {r1 : List α} {r2 : List (Cx α)} :
      Decoder.new n d f sb cb = .ok (D, r1, r2) → Reachable f d D
  | call {D D' : Decoder α} {checks : Bool} {bits ch : Nat} {buf : List Nat} {out out' : List Int} {r : DecResult} :
      Reachable f d D → decodeFrame checks D bits ch buf out = .ok (r, D', out') → Reachable f d D'

/-- one call of `decode_frame`: channel, sample width, frame, output buffer -/
structure Call where
  channel : Nat
  bits : Nat
  frame : List Nat
  out : List Int

/-- a sequence of calls; the results and the output buffers -/
def runCalls (checks : Bool) : List Call → Decoder α → Res (List (DecResult × List Int) × Decoder α)
  | [], D => .ok ([], D)
  | c :: cs, D => do
    let (r, D, out) ← decodeFrame checks D c.bits c.channel c.frame c.out
    let (l, D) ← runCalls checks cs D
    .ok ((r, out) :: l, D)

/-- all bytes are bytes -/
def Bytes (buf : List Nat) : Prop := ∀ b ∈ buf, b < 256

/-- the frame lengths (in bytes) for which some frame makes the parser panic -/
def panicLengths : SamplingFrequency → FrameDuration → List Nat
  | .hz8000, .sevenPointFiveMs => []
  | .hz16000, .sevenPointFiveMs => [7]
  | .hz8000, .tenMs => [2]
  | .hz16000, .tenMs => [1, 4]
  | .hz24000, _ => [4]
  | .hz32000, _ => [4]
  | .hz44100, _ => [4]
  | .hz48000, _ => [4]

end Lc3.Spec
