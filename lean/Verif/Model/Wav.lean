import Verif.Basic
/-!
# WAV headers

Model of common/wav.rs. Bytes are natural numbers; the result of a function is a `Res` (which is `panic` where an index is
out of range) of an `Except WavError`. Simplification: `str::from_utf8` is not modelled; both a failing conversion and a
string that differs from the expected (ASCII) one lead to the same error, so the bytes are compared.
-/

namespace Lc3

/-- common/wav.rs 8-18 -/
inductive WavError where
  | writeHeaderBufferTooSmall
  | readHeaderInvalidHeaderLength
  | readHeaderChunkIdNotRIFF
  | readHeaderFormatNotWAVE
  | readHeaderSubChunk1IdNotFmt
  | readHeaderInvalidPcmHeaderLength
  | readHeaderAudioFormatNotPcm
  | readHeaderMissingDataSection
  deriving Repr, DecidableEq

/-- common/wav.rs 26-43 -/
structure WavHeader where
  numChannels : Nat
  sampleRate : Nat
  byteRate : Nat
  blockAlign : Nat
  bitsPerSample : Nat
  dataSize : Nat
  dataStartPosition : Nat
  dataWithHeaderSize : Nat
  deriving Repr, DecidableEq

/-- common/wav.rs 21 -/
def FULL_WAV_HEADER_LEN : Nat := 44

/-- `&buf[a..b]` -/
def sliceOf (buf : List Nat) (a b : Nat) : Res (List Nat) :=
  if a ≤ b ∧ b ≤ buf.length then .ok ((buf.take b).drop a) else .panic

/-- `buf[a..b].copy_from_slice(v)`: panics if the range is out of bounds or the lengths differ -/
def copyTo (buf : List Nat) (a b : Nat) (v : List Nat) : Res (List Nat) :=
  if a ≤ b ∧ b ≤ buf.length ∧ v.length = b - a then .ok (buf.take a ++ v ++ buf.drop b) else .panic

/-- the bytes of `LittleEndian::write_u16(.., x as u16)` -/
def le16 (x : Nat) : List Nat := [x % 256, x / 256 % 256]

/-- the bytes of `LittleEndian::write_u32(.., x as u32)` -/
def le32 (x : Nat) : List Nat := [x % 256, x / 256 % 256, x / 65536 % 256, x / 16777216 % 256]

/-- `LittleEndian::read_u16` of a slice of at least two bytes -/
def readLe16 : List Nat → Res Nat
  | a :: b :: _ => .ok (a + 256 * b)
  | _ => .panic

/-- `LittleEndian::read_u32` of a slice of at least four bytes -/
def readLe32 : List Nat → Res Nat
  | a :: b :: c :: d :: _ => .ok (a + 256 * b + 65536 * c + 16777216 * d)
  | _ => .panic

/-- common/wav.rs 45-66 (`write_header`): the buffer after the call and the result -/
def writeWavHeader (h : WavHeader) (buf : List Nat) : Res (List Nat × Except WavError Nat) :=
  if buf.length < FULL_WAV_HEADER_LEN then .ok (buf, .error .writeHeaderBufferTooSmall)
  else do
    let buf ← copyTo buf 0 4 [0x52, 0x49, 0x46, 0x46]
    let buf ← copyTo buf 4 8 (le32 h.dataWithHeaderSize)
    let buf ← copyTo buf 8 12 [0x57, 0x41, 0x56, 0x45]
    let buf ← copyTo buf 12 16 [0x66, 0x6D, 0x74, 0x20]
    let buf ← copyTo buf 16 20 (le32 16)
    let buf ← copyTo buf 20 22 (le16 1)
    let buf ← copyTo buf 22 24 (le16 h.numChannels)
    let buf ← copyTo buf 24 28 (le32 h.sampleRate)
    let buf ← copyTo buf 28 32 (le32 h.byteRate)
    let buf ← copyTo buf 32 34 (le16 h.blockAlign)
    let buf ← copyTo buf 34 36 (le16 h.bitsPerSample)
    let buf ← copyTo buf 36 40 [0x64, 0x61, 0x74, 0x61]
    let buf ← copyTo buf 40 44 (le32 h.dataSize)
    .ok (buf, .ok FULL_WAV_HEADER_LEN)

/-- common/wav.rs 68-123 (`read_header`) -/
def readWavHeader (buf : List Nat) : Res (Except WavError WavHeader) :=
  if buf.length < FULL_WAV_HEADER_LEN then .ok (.error .readHeaderInvalidHeaderLength)
  else do
    let s ← sliceOf buf 0 4
    if s ≠ [0x52, 0x49, 0x46, 0x46] then .ok (.error .readHeaderChunkIdNotRIFF) else
    let s ← sliceOf buf 8 12
    if s ≠ [0x57, 0x41, 0x56, 0x45] then .ok (.error .readHeaderFormatNotWAVE) else
    let s ← sliceOf buf 12 16
    if s ≠ [0x66, 0x6D, 0x74, 0x20] then .ok (.error .readHeaderSubChunk1IdNotFmt) else
    let s ← sliceOf buf 16 20
    let v ← readLe32 s
    if v ≠ 16 then .ok (.error .readHeaderInvalidPcmHeaderLength) else
    let s ← sliceOf buf 20 22
    let v ← readLe16 s
    if v ≠ 1 then .ok (.error .readHeaderAudioFormatNotPcm) else
    let s ← sliceOf buf 4 8
    let dataWithHeaderSize ← readLe32 s
    let s ← sliceOf buf 22 24
    let numChannels ← readLe16 s
    let s ← sliceOf buf 24 28
    let sampleRate ← readLe32 s
    let s ← sliceOf buf 28 32
    let byteRate ← readLe32 s
    let s ← sliceOf buf 32 34
    let blockAlign ← readLe16 s
    let s ← sliceOf buf 34 36
    let bitsPerSample ← readLe16 s
    let section_ ← sliceOf buf 36 40
    if section_ = [0x64, 0x61, 0x74, 0x61] then
      let s ← sliceOf buf 40 44
      let dataSize ← readLe32 s
      .ok (.ok ⟨numChannels, sampleRate, byteRate, blockAlign, bitsPerSample, dataSize, FULL_WAV_HEADER_LEN, dataWithHeaderSize⟩)
    else if section_ = [0x4C, 0x49, 0x53, 0x54] then
      let s ← sliceOf buf 40 44
      let dataSize ← readLe32 s
      let s ← sliceOf buf 40 44
      let _ ← readLe32 s
      .ok (.ok ⟨numChannels, sampleRate, byteRate, blockAlign, bitsPerSample, dataSize, FULL_WAV_HEADER_LEN + 4, dataWithHeaderSize⟩)
    else .ok (.error .readHeaderMissingDataSection)

end Lc3
