import Verif.Spec.Decoder
/-!
# Specification: files of 16 bit samples and of frames

Sample `j` of a file stands in the bytes `2 j` and `2 j + 1`, low byte first, in two's complement. With `nch` channels the samples of
one instant stand next to each other.
-/

namespace Lc3.Spec

/-- sample number `j`; 0 behind the end of the data -/
def pcmAt (data : List Nat) (j : Nat) : Int :=
  if 2 * j + 1 < data.length then Int.bmod (data.getD (2 * j) 0 + 256 * data.getD (2 * j + 1) 0) 65536 else 0

/-- the samples of channel `c` in frame `t` -/
def pcmFrame (nf nch : Nat) (data : List Nat) (t c : Nat) : List Int :=
  (List.range nf).map fun i => pcmAt data ((t * nf + i) * nch + c)

/-- the number of frames that `len` bytes of samples need: the last one may be incomplete -/
def frameCount (nf nch len : Nat) : Nat := (len + (2 * nf * nch - 1)) / (2 * nf * nch)

/-- the frames in the order of the file: all channels of the first frame, then all channels of the second, … -/
def pcmFrames (nf nch : Nat) (data : List Nat) : List (Nat × List Int) :=
  (List.range (frameCount nf nch data.length)).flatMap fun t => (List.range nch).map fun c => (c, pcmFrame nf nch data t c)

/-- the first `k` frames of a file of frames of `n` bytes, with the channel each of them is for -/
def lc3Frames (nch n k : Nat) (data : List Nat) : List (Nat × List Nat) :=
  (List.range k).map fun i => (i % nch, (data.drop (i * n)).take n)

/-- the bytes of a 16 bit sample -/
def sampleBytes (x : Int) : List Nat := [(x % 256).toNat, (x / 256 % 256).toNat]

/-- the bytes of `k` frames: instant after instant, in each instant channel after channel; `g t c i` is sample `i` of
channel `c` in frame `t` -/
def pcmBytes (nf nch k : Nat) (g : Nat → Nat → Nat → Int) : List Nat :=
  (List.range k).flatMap fun t => (List.range nf).flatMap fun i => (List.range nch).flatMap fun c => sampleBytes (g t c i)

end Lc3.Spec
