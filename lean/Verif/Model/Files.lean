import Verif.Model.Wav
import Verif.Model.Encoder
import Verif.Model.Decoder
/-!
# The file programs

Model of `encode_wav_to_lc3` (examples/encode.rs) and `decode_lc3_to_wav` (examples/decode.rs). A file is the list of its bytes.
Every error returned (`?`) is `err`. Simplifications: the files can be opened, read and written; the log messages are left out; what has been
written to the output file before an error or a panic is not part of the result.
-/

namespace Lc3
open Scalar

/-- common/wav.rs 20 -/
def RIFF_HEADER_ONLY_LEN : Nat := 8

/-- `LittleEndian::read_i16` of two bytes -/
def i16OfBytes (lo hi : Nat) : Int := if lo + 256 * hi < 32768 then lo + 256 * hi else lo + 256 * hi - 65536

/-- `LittleEndian::read_i16_into(src, dst)` with `dst` half as long as `src` (rounded down): it panics if the number of
bytes is odd -/
def readI16s : List Nat → Res (List Int)
  | [] => .ok []
  | [_] => .panic
  | a :: b :: l => do
    let r ← readI16s l
    .ok (i16OfBytes a b :: r)

/-- `LittleEndian::write_i16_into`: the bytes of `x as u16` -/
def writeI16s (l : List Int) : List Nat := l.flatMap fun x => le16 (x % 65536).toNat

variable {α : Type} [Scalar α]

/-- examples/encode.rs 97-103 for one channel: the samples `samples_in[ch * nf .. ch * nf + nf]` -/
def channelOf (nf nch : Nat) (temp : List Int) (ch : Nat) : Res (List Int) :=
  (List.range nf).mapM fun i => idx temp (i * nch + ch)

/-- examples/encode.rs 105-115: encoding the channels `chs`; the encoder, `buf_out` and the bytes written -/
def encFileChannels (nf nch : Nat) (temp : List Int) : List Nat → Encoder α → List Nat → Res (Encoder α × List Nat × List Nat)
  | [], e, buf => .ok (e, buf, [])
  | c :: cs, e, buf => do
    let x ← channelOf nf nch temp c
    let (e, buf) ← encodeFrameOn e c x buf
    let (e, last, out) ← encFileChannels nf nch temp cs e buf
    .ok (e, last, buf ++ out)

/-- examples/encode.rs 81-94: `samples_in_temp` after a frame has been read -/
def readTemp (bpf : Nat) (temp : List Int) (chunk : List Nat) : Res (List Int) := do
  let s ← readI16s chunk
  if temp.length < s.length then .panic
  else if chunk.length < bpf then .ok (s ++ List.replicate (temp.length - s.length) 0)
  else .ok (s ++ temp.drop s.length)

/-- examples/encode.rs 73-116: the loop over the frames of the rest of the data; the bytes written. The first argument bounds the
number of frames. -/
def encFileFrames (nf nch bpf : Nat) : Nat → List Nat → List Int → Encoder α → List Nat → Res (List Nat)
  | 0, _, _, _, _ => .ok []
  | n + 1, data, temp, e, buf =>
    if data = [] then .ok []
    else do
      let temp ← readTemp bpf temp (data.take bpf)
      let (e, buf, out) ← encFileChannels nf nch temp (List.range nch) e buf
      let r ← encFileFrames nf nch bpf n (data.drop bpf) temp e buf
      .ok (out ++ r)

/-- examples/encode.rs 36-120 (`encode_wav_to_lc3`): the bytes of the new file. `step_by(0)` panics. -/
def encodeFile (α : Type) [Scalar α] (f : SamplingFrequency) (d : FrameDuration) (bits nch nbytes : Nat) (wav : List Nat) :
    Res (List Nat) := do
  match ← readWavHeader wav with
  | .error _ => .err
  | .ok h =>
    let (il, sl, cl) := encoderLens nch d f
    let cfg := Lc3Config.new f d
    let bpf := cfg.nf * nch * bits / 8
    let (e, _, _, _) ← Encoder.new (α := α) nch d f (List.replicate il 0) (List.replicate sl zero) (List.replicate cl ⟨zero, zero⟩)
    if bpf = 0 then .panic
    else encFileFrames cfg.nf nch bpf wav.length (wav.drop h.dataStartPosition) (List.replicate (cfg.nf * nch) 0) e (List.replicate nbytes 0)

/-- examples/decode.rs 93-112: decoding the channels `chs` of a frame; `none` if the loop ends the program. `outs` is
`samples_out_by_channel`. -/
def decFileChannels (checks : Bool) (bits n : Nat) :
    List Nat → List Nat → Decoder α → List (List Int) → Res (Option (List Nat × Decoder α × List (List Int)))
  | [], data, D, outs => .ok (some (data, D, outs))
  | c :: cs, data, D, outs =>
    if data = [] then .ok none
    else if data.length ≤ n then .ok none
    else do
      let out ← idx outs c
      match ← decodeFrame checks D bits c (data.take n) out with
      | (.ok, D, out) =>
        let outs ← setIdx outs c out
        decFileChannels checks bits n cs (data.drop n) D outs
      | (.only16BitsPerAudioSampleSupported, _, _) => .err

/-- examples/decode.rs 114-118 (`samples_out_interleved`) -/
def interleave (nf nch : Nat) (outs : List (List Int)) : Res (List Int) := do
  let rows ← (List.range nf).mapM fun i => (List.range nch).mapM fun c => do
    let o ← idx outs c
    idx o i
  .ok rows.flatten

/-- examples/decode.rs 85-123: the loop; the bytes written after the header. The first argument bounds the number of frames (the loop of the code
only ends at the end of the input, which it does not reach with 0 channels or 0 bytes per frame). `write_i16_into` panics if `buf_out` does not have two bytes per sample. -/
def decFileFrames (checks : Bool) (nf nch bits n : Nat) : Nat → List Nat → Decoder α → List (List Int) → Res (List Nat)
  | 0, _, _, _ => .ok []
  | k + 1, data, D, outs => do
    match ← decFileChannels checks bits n (List.range nch) data D outs with
    | none => .ok []
    | some (data, D, outs) =>
      let s ← interleave nf nch outs
      if nch * nf * bits / 8 ≠ 2 * s.length then .panic
      else do
        let r ← decFileFrames checks nf nch bits n k data D outs
        .ok (writeI16s s ++ r)

/-- examples/decode.rs 66-77: the header of the new file, written before anything is decoded -/
def decFileHeader (cfg : Lc3Config) (nch : Nat) : WavHeader where
  numChannels := nch
  sampleRate := cfg.fs
  byteRate := cfg.fs * nch * 16 / 8
  blockAlign := 4
  bitsPerSample := 16
  dataSize := FULL_WAV_HEADER_LEN - FULL_WAV_HEADER_LEN
  dataStartPosition := FULL_WAV_HEADER_LEN
  dataWithHeaderSize := FULL_WAV_HEADER_LEN - RIFF_HEADER_ONLY_LEN

/-- examples/decode.rs 36-124 (`decode_lc3_to_wav`): the bytes of the new file -/
def decodeFile (α : Type) [Scalar α] (checks : Bool) (f : SamplingFrequency) (d : FrameDuration) (bits nch n : Nat) (lc3 : List Nat) :
    Res (List Nat) := do
  let (sl, cl) := decoderLens nch d f
  let (D, _, _) ← Decoder.new (α := α) nch d f (List.replicate sl zero) (List.replicate cl ⟨zero, zero⟩)
  let cfg := Lc3Config.new f d
  match ← writeWavHeader (decFileHeader cfg nch) (List.replicate 256 0) with
  | (_, .error _) => .err
  | (hdr, .ok len) => do
    let r ← decFileFrames checks cfg.nf nch bits n (lc3.length + 1) lc3 D (List.replicate nch (List.replicate cfg.nf 0))
    .ok (hdr.take len ++ r)

end Lc3
