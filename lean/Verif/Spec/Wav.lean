import Mathlib.Data.List.Basic
/-! # WAV headers: the format

Byte positions of the canonical 44 byte header; numbers are little endian. -/

namespace Lc3.Spec

/-- value of little endian bytes -/
def leValue : List Nat → Nat
  | [] => 0
  | b :: bs => b + 256 * leValue bs

/-- the `n` bytes from position `pos` on -/
def bytesAt (buf : List Nat) (pos n : Nat) : List Nat := (buf.drop pos).take n

/-- the number in the `n` bytes from position `pos` on -/
def numAt (buf : List Nat) (pos n : Nat) : Nat := leValue (bytesAt buf pos n)

def ascii (s : String) : List Nat := s.toList.map Char.toNat

/-- a PCM header followed by a data or a LIST section -/
def ValidWav (buf : List Nat) : Prop :=
  44 ≤ buf.length ∧ bytesAt buf 0 4 = ascii "RIFF" ∧ bytesAt buf 8 4 = ascii "WAVE" ∧ bytesAt buf 12 4 = ascii "fmt " ∧
    numAt buf 16 4 = 16 ∧ numAt buf 20 2 = 1 ∧ (bytesAt buf 36 4 = ascii "data" ∨ bytesAt buf 36 4 = ascii "LIST")

end Lc3.Spec
