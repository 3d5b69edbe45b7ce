import Verif.Model.Files
import Verif.Model.LtpfMachine
/-!
# Further example programs

Model of examples/compare.rs and examples/wav.rs. A file is the list of its bytes; a `read` of a file returns as many bytes as fit into the
buffer and are left (this is what a file does, the interface would allow fewer).
-/

namespace Lc3

/-- what examples/compare.rs reports -/
inductive CompareResult where
  /-- line 22: the last numbers of bytes read -/
  | completed (lenLeft lenRight : Nat)
  /-- line 28 -/
  | diff (frameIndex byteIndex left right : Nat)
  deriving Repr, DecidableEq

/-- examples/compare.rs 26-31: the first position at which the buffers differ -/
def firstDiff : List Nat → List Nat → Nat → Option (Nat × Nat × Nat)
  | l :: ls, r :: rs, i => if l ≠ r then some (i, l, r) else firstDiff ls rs (i + 1)
  | _, _, _ => none

/-- examples/compare.rs 16-32: the loop. `left` and `right` are the unread parts of the files, `bl` and `br` the buffers (a short read leaves
the rest of the buffer as it was). The first argument bounds the number of rounds. -/
def compareLoop (n : Nat) : Nat → Nat → List Nat → List Nat → List Nat → List Nat → Option CompareResult
  | 0, _, _, _, _, _ => none
  | fuel + 1, frame, left, right, bl, br =>
    let cl := left.take n
    let cr := right.take n
    let bl := cl ++ bl.drop cl.length
    let br := cr ++ br.drop cr.length
    if cl.length ≠ cr.length ∨ cl.length = 0 then some (.completed cl.length cr.length)
    else match firstDiff bl br 0 with
      | some (i, l, r) => some (.diff (frame + 1) i l r)
      | none => compareLoop n fuel (frame + 1) (left.drop n) (right.drop n) bl br

/-- examples/compare.rs 6-36 (`main`): buffers of 150 bytes -/
def compareFiles (left right : List Nat) : Option CompareResult :=
  compareLoop 150 (left.length + 1) 0 left right (List.replicate 150 0) (List.replicate 150 0)

/-- examples/wav.rs 107-113 (`triangle_wave`): `i32` with overflow checks; `length` is a `usize` -/
def triangleWave (x : Int) (length : Nat) (amplitude phase periods : Int) : Res Int := do
  let length := asI32 length
  let a ← i32Chk (2 * periods)
  let b ← i32Chk (x + phase)
  let c ← i32Chk (4 * periods)
  let q ← divI32 length c
  let b ← i32Chk (b + q)
  let a ← i32Chk (a * b)
  let a ← i32Chk (a * amplitude)
  let a ← divI32 a length
  let m ← i32Chk (2 * amplitude)
  let a ← remI32 a m
  let a ← i32Chk (a - amplitude)
  let a ← i32Chk a.natAbs
  let h ← divI32 amplitude 2
  let r ← i32Chk (amplitude - a)
  i32Chk (r - h)

/-- `x as i16` of an `i32` -/
def i32AsI16 (x : Int) : Int := (x + 32768) % 65536 - 32768

/-- examples/wav.rs 46-57 -/
def demoHeader : WavHeader where
  numChannels := 1
  sampleRate := 48000
  byteRate := 48000 * 1 * 16 / 8
  blockAlign := 4
  bitsPerSample := 16
  dataSize := 32 * 3750 * 2
  dataStartPosition := FULL_WAV_HEADER_LEN
  dataWithHeaderSize := 32 * 3750 * 2 + FULL_WAV_HEADER_LEN

/-- examples/wav.rs 59-62: the signal; `u16::MAX as i32 - 1` is 65534 -/
def demoSignal : Res (List Int) := (List.range 32).mapM fun (x : Nat) => do
  let v ← triangleWave x 32 (65535 - 1) 0 1
  .ok (i32AsI16 v)

/-- examples/wav.rs 33-105 (`main`): the bytes of the file -/
def demoFile : Res (List Nat) := do
  let signal ← demoSignal
  match ← writeWavHeader demoHeader (List.replicate 256 0) with
  | (_, .error _) => .err
  | (buf, .ok len) =>
    let out := writeI16s signal
    let quiet := List.replicate (32 * 2) 0
    .ok (buf.take len ++ (List.replicate 375 (out ++ (List.replicate 9 quiet).flatten)).flatten)

end Lc3
