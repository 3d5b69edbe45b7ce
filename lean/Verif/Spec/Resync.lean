import Verif.Model.Decoder
/-!
# Specification: resynchronisation of the decoder

Sequences of frames of one channel, plain frames and the part of the state that can be heard.
-/

namespace Lc3.Spec
open Lc3

variable {α : Type} [Scalar α]

/-- the frames of one channel in a row, each with its output buffer: the output buffers afterwards and the channel -/
def decodeRun (checks : Bool) (cfg : Lc3Config) : List (List Nat × List Int) → DecChannel α →
    Res (List (List Int) × DecChannel α)
  | [], ch => .ok ([], ch)
  | (buf, out) :: fs, ch => do
    let (_, ch, o) ← decodeChannel checks cfg ch 16 buf out
    let (os, ch) ← decodeRun checks cfg fs ch
    .ok (o :: os, ch)

/-- a channel as it comes from the constructor, with any contents of the caller's buffers -/
def Fresh (f : SamplingFrequency) (d : FrameDuration) (ch : DecChannel α) : Prop :=
  ∃ sb cb r, decChannelNew (Lc3Config.new f d) sb cb = .ok (ch, r)

/-- the parser accepts the frame -/
def Parsed (checks : Bool) (cfg : Lc3Config) (buf : List Nat) : Prop := ∃ p, readFrame checks cfg buf = .ok p

/-- the parser accepts the frame and the frame does not use the post filter -/
def Plain (checks : Bool) (cfg : Lc3Config) (buf : List Nat) : Prop :=
  ∃ p, readFrame checks cfg buf = .ok p ∧ p.1.ltpf.isActive = false

/-- equal states, except for the frame counter and the random number of the concealment -/
structure SameSound (a b : DecChannel α) : Prop where
  specLines : a.specLines = b.specLines
  freqSamples : a.freqSamples = b.freqSamples
  lastGood : a.plc.lastGood = b.plc.lastGood
  numLost : a.plc.numLost = b.plc.numLost
  alpha : a.plc.alpha = b.plc.alpha
  memOla : a.memOla = b.memOla
  ltpf : a.ltpf = b.ltpf

/-- frames after which the circular memories of the post filter are rewritten, plus one for the overlap memory:
3 frames of 10 ms or 4 frames of 7.5 ms -/
def resyncFrames : FrameDuration → Nat
  | .tenMs => 3
  | .sevenPointFiveMs => 4

end Lc3.Spec
