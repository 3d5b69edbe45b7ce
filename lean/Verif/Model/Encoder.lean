import Verif.Model.EncMdct
import Verif.Model.EncTns
import Verif.Model.EncLtpf
import Verif.Model.EncDetect
import Verif.Model.EncSns
import Verif.Model.EncQuant
import Verif.Model.EncResidual
import Verif.Model.BitstreamEnc
/-!
# The encoder

Model of encoder/lc3_encoder.rs. Simplifications: the frame counter is unbounded; the lengths of the scratch buffers are checked as
the code does, their contents are overwritten in every frame and not part of the model.
-/

namespace Lc3
open Scalar Tables

variable {α : Type} [Scalar α]

/-- encoder/lc3_encoder.rs 42-60: the state of a channel; of the scratch buffers the lengths -/
structure EncChannel (α : Type) where
  freq : List Int
  bw : BwDet
  attack : AttackSt α
  ltpf : EncLtpf α
  quant : QuantSt α
  bits : EncSt
  frameIndex : Nat
  outLen : Nat
  ebLen : Nat
  xqLen : Nat

/-- encoder/lc3_encoder.rs 31-34 -/
structure Encoder (α : Type) where
  config : Lc3Config
  channels : List (EncChannel α)

/-- encoder/lc3_encoder.rs 63-103: the parts of the state computed before the bits are written, the parameters of the frame, and (not
used by the code any further) the lines of the transform, the lines the quantiser got and the gain it used -/
structure EncAnalysis (α : Type) where
  freq : List Int
  attack : AttackSt α
  ltpf : EncLtpf α
  quant : QuantSt α
  p : FrameParams
  mdct : List α
  lines : List α
  gg : α

/-- encoder/lc3_encoder.rs 63-103: all stages of `EncoderChannel::encode` before `BitstreamEncoding::encode`; `nbytes` is the
length of the output buffer -/
def encAnalyse (cfg : Lc3Config) (ch : EncChannel α) (x : List Int) (nbytes : Nat) : Res (EncAnalysis α) := do
  let nbits := nbytes * 8
  if ch.outLen ≠ cfg.nf ∨ ch.ebLen ≠ cfg.nb then .panic
  else do
    let (freq, out, eb, nn) ← mdctEncRun (α := α) cfg ch.freq x
    if out.length < cfg.ne then .panic
    else do
      let lines := out.take cfg.ne
      let (bwInd, nbitsBw) ← bwRun ch.bw eb
      let (attack, det) ← attackRun cfg ch.attack x nbytes
      let sns ← snsEncRun cfg lines eb det
      let tns ← tnsEncRun cfg sns.x bwInd nbits nn
      let (ltpf, pf) ← ch.ltpf.run cfg x nn nbits
      if ch.xqLen ≠ cfg.ne then .panic
      else do
        let (quant, spec) ← quantRun cfg.ne cfg.fsInd ch.quant tns.lines nbits nbitsBw tns.nbitsTns pf.nbitsLtpf
        let res ← residualEncode spec.nbitsSpec spec.nbitsTrunc cfg.ne spec.gg tns.lines spec.xq
        let nf ← noiseFactor cfg.nMs cfg.ne tns.lines spec.xq bwInd spec.gg
        .ok ⟨freq, attack, ltpf, quant,
          { bandwidthInd := bwInd, nbitsBandwidth := nbitsBw, lastnz := spec.lastnzTrunc, lsbMode := spec.lsbMode
            ggInd := i32AsUsize spec.ggInd, numTns := tns.numFilters, rcOrder := tns.rcOrder, rcI := tns.rcI
            lpcWeighting := tns.lpcWeighting, pitchPresent := pf.pitchPresent, ltpfActive := pf.ltpfActive
            pitchIndex := pf.pitchIndex, indLf := sns.indLf, indHf := sns.indHf, shapeJ := sns.shapeJ, gind := sns.gind
            lsInda := i32AsUsize sns.lsInda, indexJoint := sns.indexJoint, noiseFactor := nf, rateFlag := spec.rateFlag
            nbitsLsb := spec.nbitsLsb, xq := spec.xq, residual := res }, lines, tns.lines, spec.gg⟩

/-- encoder/lc3_encoder.rs 63-112 (`EncoderChannel::encode`): the new state and the bytes written -/
def encodeChannel (cfg : Lc3Config) (ch : EncChannel α) (x : List Int) (buf : List Nat) : Res (EncChannel α × List Nat) := do
  let a ← encAnalyse cfg ch x buf.length
  let bits ← encodeFrame cfg.ne a.p ch.bits buf
  .ok ({ ch with freq := a.freq, attack := a.attack, ltpf := a.ltpf, quant := a.quant, bits := bits,
                 frameIndex := ch.frameIndex + 1 }, bits.buf)

/-- the state of a new bit stream encoder, encoder/bitstream_encoding.rs (`new`); every field is set before it is used -/
def EncSt.new : EncSt := ⟨⟨0, 0, 0⟩, [], ⟨0, 0, 0, 0, 0⟩⟩

/-- encoder/lc3_encoder.rs 133-167: one channel. Buffers: integers, scalars, complex numbers. -/
def encChannelNew (cfg : Lc3Config) (ib : List Int) (sb : List α) (cb : List (Cx α)) :
    Res (EncChannel α × List Int × List α × List (Cx α)) := do
  let (freq, ib, cb) ← mdctEncNew cfg ib cb
  let bw ← BwDet.new cfg.nMs cfg.fsInd
  let (ltpf, sb, ib) ← EncLtpf.new cfg sb ib
  let (out, sb) ← splitAt sb cfg.nf
  let (eb, sb) ← splitAt sb cfg.nb
  let (xq, ib) ← splitAt ib cfg.ne
  .ok (⟨freq, bw, AttackSt.new, ltpf, QuantSt.new, EncSt.new, 0, out.length, eb.length, xq.length⟩, ib, sb, cb)

/-- encoder/lc3_encoder.rs 132-169: the loop over the channels, with the unused rest of the buffers -/
def encChannelsNew (cfg : Lc3Config) : Nat → List Int → List α → List (Cx α) →
    Res (List (EncChannel α) × List Int × List α × List (Cx α))
  | 0, ib, sb, cb => .ok ([], ib, sb, cb)
  | n + 1, ib, sb, cb => do
    let (ch, ib, sb, cb) ← encChannelNew cfg ib sb cb
    let (chs, ib, sb, cb) ← encChannelsNew cfg n ib sb cb
    .ok (ch :: chs, ib, sb, cb)

/-- encoder/lc3_encoder.rs 117-173 (`Lc3Encoder::new`). The unused rest of the buffers is returned too; the code drops it. -/
def Encoder.new (n : Nat) (d : FrameDuration) (f : SamplingFrequency) (ib : List Int) (sb : List α) (cb : List (Cx α)) :
    Res (Encoder α × List Int × List α × List (Cx α)) := do
  let cfg := Lc3Config.new f d
  let (chs, ib, sb, cb) ← encChannelsNew cfg n ib sb cb
  .ok (⟨cfg, chs⟩, ib, sb, cb)

/-- encoder/lc3_encoder.rs 193-210 (`calc_working_buffer_lengths`): integer, scaler, complex -/
def encoderLens (n : Nat) (d : FrameDuration) (f : SamplingFrequency) : Nat × Nat × Nat :=
  let cfg := Lc3Config.new f d
  ((cfg.nf * 2 + (encLtpfBufLens cfg).1 + cfg.ne) * n, ((encLtpfBufLens cfg).2 + cfg.nf + cfg.nb) * n, cfg.nf / 2 * 4 * n)

/-- encoder/lc3_encoder.rs 175-190 (`encode_frame`) -/
def encodeFrameOn (e : Encoder α) (channel : Nat) (x : List Int) (buf : List Nat) : Res (Encoder α × List Nat) :=
  match e.channels[channel]? with
  | none => .panic
  | some ch => do
    let (ch, buf) ← encodeChannel e.config ch x buf
    .ok ({ e with channels := e.channels.set channel ch }, buf)

end Lc3
