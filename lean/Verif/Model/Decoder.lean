import Verif.Model.ReadFrame
import Verif.Model.DecSpectrum
import Verif.Model.SnsDec
import Verif.Model.Plc
import Verif.Model.MdctDec
import Verif.Model.LtpfDec
/-! Model of decoder/lc3_decoder.rs: the channel pipeline and the frame driver. -/

namespace Lc3
open Scalar

/-- decoder/lc3_decoder.rs 62-69: the state of a channel. `t_hat_mdct`, `half_nf_scratch` and the complex buffers are
overwritten before they are read in every frame and are not part of the state. -/
structure DecChannel (α : Type) where
  specLines : List α
  freqSamples : List α
  plc : Plc α
  memOla : List α
  ltpf : Ltpf α
  frameIndex : Nat

/-- the value returned by `decode`; decoding reports no other error -/
inductive DecResult where
  | ok
  | only16BitsPerAudioSampleSupported
  deriving Repr, DecidableEq

variable {α : Type} [Scalar α]

/-- decoder/lc3_decoder.rs 94-118: from the parsed frame to the spectrum before noise shaping is reversed -/
def dequantise (cfg : Lc3Config) (specLines : List α) (si : SideInfo) (ad : ArithmeticData) (x : List Int) :
    Res (List α) := do
  if x.length < cfg.ne then .panic
  else do
    let lines := zipInto specLines ((x.take cfg.ne).map ofInt)
    let lines := residualDecode si.lsbMode ad.residualBits lines
    let lines ← noiseFilling ad.isZeroFrame ad.noiseFillingSeed si.bandwidth cfg.nMs si.noiseFactor x lines
    .ok (globalGain ad.frameNumBits cfg.fsInd si.globalGainIndex lines)

/-- decoder/lc3_decoder.rs 94-131: from the parsed frame to the shaped spectrum -/
def specFromFrame (cfg : Lc3Config) (specLines : List α) (si : SideInfo) (ad : ArithmeticData) (x : List Int) :
    Res (List α) := do
  let lines ← dequantise cfg specLines si ad x
  let lines ← tnsDecode cfg.nMs si.bandwidth si.numTnsFilters ad.rcOrder ad.rcInts lines
  snsDecode cfg si.snsVq lines

/-- decoder/lc3_decoder.rs 91-142: the spectrum of the frame, or its concealment -/
def decodeSpectrum (checks : Bool) (cfg : Lc3Config) (ch : DecChannel α) (buf : List Nat) :
    Res (List α × Plc α × LtpfInfo) :=
  match readFrame checks cfg buf with
  | .ok (si, ad, x) => do
    let lines ← specFromFrame cfg ch.specLines si ad x
    let plc ← ch.plc.save lines
    .ok (lines, plc, si.ltpf)
  | .err =>
    let r := ch.plc.loadInto ch.specLines
    .ok (r.2, r.1, lostLtpfInfo)
  | .panic => .panic

/-- decoder/lc3_decoder.rs 73-154 (`DecoderChannel::decode`): the returned value, the new state and the new contents of
`samples_out`. `checks`: the build has overflow checks. -/
def decodeChannel (checks : Bool) (cfg : Lc3Config) (ch : DecChannel α) (bits : Nat) (buf : List Nat)
    (out : List Int) : Res (DecResult × DecChannel α × List Int) := do
  if bits ≠ 16 then .ok (.only16BitsPerAudioSampleSupported, ch, out)
  else do
    let (lines, plc, info) ← decodeSpectrum checks cfg ch buf
    if ch.freqSamples.length ≠ cfg.nf then .panic
    else do
      let (memOla, freq) ← mdctDecRun cfg ch.memOla lines
      let (ltpf, freq) ← ltpfRun cfg ch.ltpf info (buf.length * 8) freq
      .ok (.ok, { specLines := lines, freqSamples := freq, plc := plc, memOla := memOla, ltpf := ltpf,
                  frameIndex := ch.frameIndex + 1 }, scaleAndRound freq out)

/-- decoder/lc3_decoder.rs 51-54 -/
structure Decoder (α : Type) where
  config : Lc3Config
  channels : List (DecChannel α)

/-- `split_at_mut` -/
def splitAt {β : Type} (l : List β) (n : Nat) : Res (List β × List β) :=
  if n ≤ l.length then .ok (l.take n, l.drop n) else .panic

/-- decoder/packet_loss_concealment.rs 25-38 (`new`) -/
def Plc.new (ne : Nat) (sb : List α) : Res (Plc α × List α) := do
  let (l, sb) ← splitAt sb ne
  .ok (⟨l, 0, one, 24607, ne⟩, sb)

/-- common/dct_iv.rs 22-47 and common/kissfft.rs 17-41 (`new`): the four parts of the complex buffer; the
factorisation has to terminate -/
def dctNew (nf : Nat) (cb : List (Cx α)) : Res (List (Cx α)) := do
  let (_, cb) ← splitAt cb (nf / 2)
  let _ ← kfFactor (nf / 2)
  let (_, cb) ← splitAt cb (nf / 2)
  let (_, cb) ← splitAt cb (nf / 2)
  let (_, cb) ← splitAt cb (nf / 2)
  .ok cb

/-- decoder/modified_dct.rs 24-67 (`new`): the overlap memory and the remaining buffers -/
def mdctDecNew (cfg : Lc3Config) (sb : List α) (cb : List (Cx α)) : Res (List α × List α × List (Cx α)) := do
  let cb ← dctNew cfg.nf cb
  let n ← usub cfg.nf cfg.z
  let (memOla, sb) ← splitAt sb n
  let (_, sb) ← splitAt sb (cfg.nf * 2)
  let n ← usub cfg.nf cfg.ne
  let (_, sb) ← splitAt sb n
  let (_, sb) ← splitAt sb (cfg.nf / 2)
  let _ ← windowOf cfg.nMs cfg.nf
  .ok (memOla, sb, cb)

/-- decoder/long_term_post_filter.rs 61-102 (`new`) -/
def Ltpf.new (cfg : Lc3Config) (sb : List α) : Res (Ltpf α × List α) := do
  let lDen := lDenOf cfg.fs
  let lNum := lDen - 2
  let (xMem, sb) ← splitAt sb (ringSize cfg)
  let (yMem, sb) ← splitAt sb (ringSize cfg)
  let (cNum, sb) ← splitAt sb (lNum + 1)
  let (cDen, sb) ← splitAt sb (lDen + 1)
  let (cNumMem, sb) ← splitAt sb (lNum + 1)
  let (cDenMem, sb) ← splitAt sb (lDen + 1)
  let (_, sb) ← splitAt sb (lDen + 1)
  let (_, sb) ← splitAt sb (lNum + ltpfNorm cfg)
  .ok (⟨false, 0, cNum, cDen, cNumMem, cDenMem, 0, 0, yMem, xMem⟩, sb)

/-- decoder/lc3_decoder.rs 194-210: one channel. The buffers are not cleared: the state starts with whatever the
caller's buffers contain. -/
def decChannelNew (cfg : Lc3Config) (sb : List α) (cb : List (Cx α)) :
    Res (DecChannel α × List α × List (Cx α)) := do
  let (spec, sb) ← splitAt sb cfg.ne
  let (plc, sb) ← Plc.new cfg.ne sb
  let (memOla, sb, cb) ← mdctDecNew cfg sb cb
  let (ltpf, sb) ← Ltpf.new cfg sb
  let (freq, sb) ← splitAt sb cfg.nf
  .ok (⟨spec, freq, plc, memOla, ltpf, 0⟩, sb, cb)

/-- decoder/lc3_decoder.rs 193-213: the loop over the channels, with the unused rest of the buffers -/
def decChannelsNew (cfg : Lc3Config) : Nat → List α → List (Cx α) →
    Res (List (DecChannel α) × List α × List (Cx α))
  | 0, sb, cb => .ok ([], sb, cb)
  | n + 1, sb, cb => do
    let (ch, sb, cb) ← decChannelNew cfg sb cb
    let (chs, sb, cb) ← decChannelsNew cfg n sb cb
    .ok (ch :: chs, sb, cb)

/-- decoder/lc3_decoder.rs 181-215 (`Lc3Decoder::new`). The unused rest of the buffers is returned too; the code
drops it. -/
def Decoder.new (n : Nat) (d : FrameDuration) (f : SamplingFrequency) (sb : List α) (cb : List (Cx α)) :
    Res (Decoder α × List α × List (Cx α)) := do
  let cfg := Lc3Config.new f d
  let (chs, sb, cb) ← decChannelsNew cfg n sb cb
  .ok (⟨cfg, chs⟩, sb, cb)

/-- decoder/long_term_post_filter.rs 104-139 (`get_buffer_lengths`, `calc_working_buffer_length`) -/
def ltpfDecLen (cfg : Lc3Config) : Nat :=
  let lDen := lDenOf cfg.fs
  let lNum := lDen - 2
  (lDen + 1) * 3 + (lNum + 1) * 2 + ringSize cfg + ringSize cfg + (lNum + ltpfNorm cfg)

/-- decoder/modified_dct.rs 153-164 (`calc_working_buffer_length`), first component -/
def mdctDecLen (cfg : Lc3Config) : Nat :=
  cfg.nf / 2 + (cfg.nf - cfg.ne) + (cfg.nf - cfg.z) + cfg.nf * 2 + cfg.nf

/-- decoder/lc3_decoder.rs 156-162 and 236-245 (`calc_working_buffer_lengths`), common/dct_iv.rs 69-71,
decoder/packet_loss_concealment.rs 40-42 -/
def decoderLens (n : Nat) (d : FrameDuration) (f : SamplingFrequency) : Nat × Nat :=
  let cfg := Lc3Config.new f d
  (n * (cfg.ne + cfg.ne + mdctDecLen cfg + ltpfDecLen cfg), n * (cfg.nf / 2 * 4))

/-- decoder/lc3_decoder.rs 217-234 (`decode_frame`) -/
def decodeFrame (checks : Bool) (d : Decoder α) (bits channel : Nat) (buf : List Nat) (out : List Int) :
    Res (DecResult × Decoder α × List Int) :=
  match d.channels[channel]? with
  | none => .panic
  | some ch => do
    let (r, ch, out) ← decodeChannel checks d.config ch bits buf out
    .ok (r, { d with channels := d.channels.set channel ch }, out)

end Lc3
