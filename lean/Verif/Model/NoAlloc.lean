import Verif.Model.Encoder
import Verif.Model.Decoder
/-!
# The variants without an allocator

`heapless::Vec<T, N>` holds at most `N` elements. `push` returns the element as an error when the vector is full; the code drops that error
with `.ok()`.
-/

namespace Lc3
variable {α : Type} [Scalar α]

/-- `heapless::Vec::push` followed by `.ok()`, capacity `cap` -/
def heaplessPush {β : Type} (cap : Nat) (v : List β) (x : β) : List β := if v.length < cap then v ++ [x] else v

/-- encoder/lc3_encoder.rs 228-266: the loop over the channels of the variant for `NUM_CHANNELS = cap`, `n` turns to go -/
def encChannelsHeapless (cfg : Lc3Config) (cap : Nat) : Nat → List (EncChannel α) → List Int → List α → List (Cx α) →
    Res (List (EncChannel α) × List Int × List α × List (Cx α))
  | 0, v, ib, sb, cb => .ok (v, ib, sb, cb)
  | n + 1, v, ib, sb, cb => do
    let (ch, ib, sb, cb) ← encChannelNew cfg ib sb cb
    encChannelsHeapless cfg cap n (heaplessPush cap v ch) ib sb cb

/-- encoder/lc3_encoder.rs 214-269 (`Lc3Encoder::<NUM_CHANNELS>::new`) -/
def Encoder.newHeapless (cap : Nat) (d : FrameDuration) (f : SamplingFrequency) (ib : List Int) (sb : List α) (cb : List (Cx α)) :
    Res (Encoder α × List Int × List α × List (Cx α)) := do
  let cfg := Lc3Config.new f d
  let (chs, ib, sb, cb) ← encChannelsHeapless cfg cap cap [] ib sb cb
  .ok (⟨cfg, chs⟩, ib, sb, cb)

/-- encoder/lc3_encoder.rs 271-286 (`encode_frame`): the test is against `NUM_CHANNELS`, the index may still be out of bounds -/
def encodeFrameHeapless (cap : Nat) (e : Encoder α) (channel : Nat) (x : List Int) (buf : List Nat) : Res (Encoder α × List Nat) :=
  if channel < cap then do
    let ch ← idx e.channels channel
    let (ch, buf) ← encodeChannel e.config ch x buf
    .ok ({ e with channels := e.channels.set channel ch }, buf)
  else .panic

/-- encoder/lc3_encoder.rs 289-304 (`calc_working_buffer_lengths`) -/
def encoderLensHeapless (cap : Nat) (d : FrameDuration) (f : SamplingFrequency) : Nat × Nat × Nat :=
  let cfg := Lc3Config.new f d
  let integerLen := cfg.nf * 2 + (encLtpfBufLens cfg).1 + cfg.ne
  let scalerLen := (encLtpfBufLens cfg).2 + cfg.nf + cfg.nb
  (integerLen * cap, scalerLen * cap, cfg.nf / 2 * 4 * cap)

/-- decoder/lc3_decoder.rs 260-279: the loop over the channels -/
def decChannelsHeapless (cfg : Lc3Config) (cap : Nat) : Nat → List (DecChannel α) → List α → List (Cx α) →
    Res (List (DecChannel α) × List α × List (Cx α))
  | 0, v, sb, cb => .ok (v, sb, cb)
  | n + 1, v, sb, cb => do
    let (ch, sb, cb) ← decChannelNew cfg sb cb
    decChannelsHeapless cfg cap n (heaplessPush cap v ch) sb cb

/-- decoder/lc3_decoder.rs 249-282 (`Lc3Decoder::<NUM_CHANNELS>::new`) -/
def Decoder.newHeapless (cap : Nat) (d : FrameDuration) (f : SamplingFrequency) (sb : List α) (cb : List (Cx α)) :
    Res (Decoder α × List α × List (Cx α)) := do
  let cfg := Lc3Config.new f d
  let (chs, sb, cb) ← decChannelsHeapless cfg cap cap [] sb cb
  .ok (⟨cfg, chs⟩, sb, cb)

/-- decoder/lc3_decoder.rs 284-300 (`decode_frame`) -/
def decodeFrameHeapless (checks : Bool) (cap : Nat) (d : Decoder α) (bits channel : Nat) (buf : List Nat) (out : List Int) :
    Res (DecResult × Decoder α × List Int) :=
  if channel < cap then do
    let ch ← idx d.channels channel
    let (r, ch, out) ← decodeChannel checks d.config ch bits buf out
    .ok (r, { d with channels := d.channels.set channel ch }, out)
  else .panic

/-- decoder/lc3_decoder.rs 302-309 (`calc_working_buffer_lengths`) -/
def decoderLensHeapless (cap : Nat) (d : FrameDuration) (f : SamplingFrequency) : Nat × Nat :=
  let cfg := Lc3Config.new f d
  let scalerLength := cfg.ne + cfg.ne + mdctDecLen cfg + ltpfDecLen cfg
  (cap * scalerLength, cap * (cfg.nf / 2 * 4))

end Lc3
