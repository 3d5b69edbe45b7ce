import Verif.Basic
/-! Model of decoder/buffer_reader.rs. -/

namespace Lc3

/-- decoder/buffer_reader.rs 11-15 -/
structure Reader where
  head : Nat
  tail : Nat
  deriving Repr, DecidableEq

/-- decoder/buffer_reader.rs 24-26 (`new`) -/
def Reader.new : Reader := ⟨0, 0⟩

/-- decoder/buffer_reader.rs 43-51 (`read_head_byte`) -/
def Reader.readHeadByte (r : Reader) (buf : List Nat) : Res (Nat × Reader) :=
  match buf[r.head]? with
  | some b => .ok (b, { r with head := r.head + 1 })
  | none => .err

/-- decoder/buffer_reader.rs 53-61 (`read_head_u24`) -/
def Reader.readHeadU24 (r : Reader) (buf : List Nat) : Res (Nat × Reader) :=
  if r.head + 2 < buf.length then do
    let b0 ← idx buf r.head
    let b1 ← idx buf (r.head + 1)
    let b2 ← idx buf (r.head + 2)
    .ok ((b0 * 256 + b1) * 256 + b2, { r with head := r.head + 3 })
  else .err

/-- big-endian value of a byte slice (`BigEndian::read_u16` etc.) -/
def beVal (l : List Nat) : Nat := l.foldl (fun acc b => acc * 256 + b) 0

/-- decoder/buffer_reader.rs 64-97 (`read_tail_usize`). The shifts are on `u32`. -/
def Reader.readTailUsize (r : Reader) (buf : List Nat) (numBits : Nat) : Res (Nat × Reader) :=
  let byteIndex := r.tail / 8
  let bitIndex := r.tail % 8
  let bitsLeft := 8 - bitIndex
  let addBytes := if numBits > bitsLeft ∧ numBits < 8 then 2 else 1
  let numBytes := numBits / 8 + addBytes
  if (buf.length : Int) - r.head - byteIndex - numBytes < 0 then .err
  else do
    let fromIndex ← usub buf.length (byteIndex + numBytes)
    let slice := (buf.drop fromIndex).take numBytes
    let value := if 1 ≤ numBytes ∧ numBytes ≤ 4 then beVal slice else 0
    let shiftBy ← usub 32 (numBits + bitIndex)
    -- shifting a `u32` by 32 or more panics
    if numBits = 0 then .panic
    else
      let value := (value <<< shiftBy) % 2 ^ 32
      let value := value >>> (shiftBy + bitIndex)
      .ok (value, { r with tail := r.tail + numBits })

/-- decoder/buffer_reader.rs 99-114 (`read_tail_bool`). The shifts are on `u8`. -/
def Reader.readTailBool (r : Reader) (buf : List Nat) : Res (Bool × Reader) :=
  let byteIndex := r.tail / 8
  let bitIndex := r.tail % 8
  if (buf.length : Int) - r.head - byteIndex + 2 < 0 then .err
  else do
    let fromIndex ← usub buf.length (byteIndex + 1)
    let byte ← idx buf fromIndex
    let byte := (byte <<< (7 - bitIndex)) % 256
    let byte := byte >>> 7
    .ok (byte == 1, { r with tail := r.tail + 1 })

end Lc3
