import Verif.Basic
/-! Model of encoder/buffer_writer.rs. Bytes are natural numbers below 256. -/

namespace Lc3

/-- encoder/buffer_writer.rs 4-9. `bp_side` is a `u16`, `mask_side` a `u8`. -/
structure Writer where
  bp : Nat
  bpSide : Nat
  maskSide : Nat
  deriving Repr, DecidableEq

/-- encoder/buffer_writer.rs 12-18 (`new`): `buf_len as u16 - 1` -/
def Writer.new (bufLen : Nat) : Res Writer := do
  let b ← usub (bufLen % 65536) 1
  .ok ⟨0, b, 1⟩

/-- encoder/buffer_writer.rs 27-40 (`write_bool_backward`) -/
def Writer.writeBoolBackward (w : Writer) (buf : List Nat) (bit : Bool) :
    Res (Writer × List Nat) := do
  let old ← idx buf w.bpSide
  let new := if bit then old ||| w.maskSide else old &&& (255 ^^^ w.maskSide)
  let buf ← setIdx buf w.bpSide new
  if w.maskSide = 0x80 then do
    let b ← usub w.bpSide 1
    .ok ({ w with maskSide := 1, bpSide := b }, buf)
  else
    .ok ({ w with maskSide := w.maskSide <<< 1 }, buf)

/-- encoder/buffer_writer.rs 19-25 (`write_uint_backward`) -/
def Writer.writeUintBackward (w : Writer) (buf : List Nat) (val : Nat) :
    Nat → Res (Writer × List Nat)
  | 0 => .ok (w, buf)
  | n + 1 => do
    let (w, buf) ← w.writeBoolBackward buf (val % 65536 &&& 1 != 0)
    w.writeUintBackward buf (val >>> 1) n

/-- encoder/buffer_writer.rs 42-53 (`write_uint_forward`), the loop; `mask` is a `u8` -/
def writeUintForwardLoop (bp val : Nat) (buf : List Nat) (mask : Nat) : Nat → Res (List Nat)
  | 0 => .ok buf
  | n + 1 => do
    let old ← idx buf bp
    let bit := val % 256 &&& mask
    let buf ← setIdx buf bp (if bit = 0 then old &&& (255 ^^^ mask) else old ||| mask)
    writeUintForwardLoop bp val buf (mask >>> 1) n

/-- encoder/buffer_writer.rs 42-53 (`write_uint_forward`) -/
def Writer.writeUintForward (w : Writer) (buf : List Nat) (val numBits : Nat) : Res (List Nat) :=
  writeUintForwardLoop w.bp val buf 0x80 numBits

/-- encoder/buffer_writer.rs 55-58 (`write_byte_forward`) -/
def Writer.writeByteForward (w : Writer) (buf : List Nat) (val : Nat) :
    Res (Writer × List Nat) := do
  let buf ← setIdx buf w.bp val
  .ok ({ w with bp := w.bp + 1 }, buf)

/-- encoder/buffer_writer.rs 60-66 (`nbits_side_written`). `(mask as f64).log2()` is exact, the
mask is a power of two. -/
def Writer.nbitsSideWritten (w : Writer) (nbits : Nat) : Res Nat :=
  let value : Int := (nbits : Int) - (8 * w.bpSide + 8 - Nat.log2 w.maskSide)
  if value < 0 then .panic else .ok value.toNat

end Lc3
