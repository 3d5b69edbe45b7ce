import Verif.Model.Decoder
/-!
# Specification: operations on the decoded spectrum
-/

namespace Lc3.Spec
open Lc3 Scalar

variable {α : Type} [Scalar α]

/-- first line that can be filled with noise -/
def noiseStart : FrameDuration → Nat
  | .sevenPointFiveMs => 18
  | .tenMs => 24

/-- distance to the next non-zero line that noise filling keeps -/
def noiseDist : FrameDuration → Nat
  | .sevenPointFiveMs => 2
  | .tenMs => 3

/-- number of lines up to the bandwidth limit: 60 or 80 per step -/
def bandLimit (d : FrameDuration) (bw : Nat) : Nat :=
  match d with
  | .sevenPointFiveMs => 60 * (bw + 1)
  | .tenMs => 80 * (bw + 1)

/-- Line `k` is empty: between the start line and the bandwidth limit, and every quantised line at most `noiseDist` away
(and below the bandwidth limit) is zero. -/
def Empty (d : FrameDuration) (bw : Nat) (ints : List Int) (k : Nat) : Prop :=
  noiseStart d ≤ k ∧ k < bandLimit d bw ∧
    ∀ j, k ≤ j + noiseDist d → j ≤ k + noiseDist d → j < bandLimit d bw → ints.getD j 0 = 0

/-- the pseudo random state after `n` draws -/
def noiseState (seed : Nat) : Nat → Nat
  | 0 => seed
  | n + 1 => (13849 + 31821 * noiseState seed n) % 65536

open Classical in
/-- number of empty lines below `k` -/
noncomputable def emptyBelow (d : FrameDuration) (bw : Nat) (ints : List Int) (k : Nat) : Nat :=
  ((List.range k).filter fun j => Empty d bw ints j).length

/-- the common level -/
def noiseLevel (noiseFactor : Nat) : α := (ofRat 8 - ofRat noiseFactor) / ofRat 16

open Classical in
/-- line `k` after noise filling: plus or minus the level if the line is empty (the sign is drawn from the pseudo random
sequence, one draw per empty line), `x` otherwise -/
noncomputable def filledLine (d : FrameDuration) (bw seed noiseFactor : Nat) (ints : List Int) (k : Nat) (x : α) : α :=
  if Empty d bw ints k then
    if noiseState seed (emptyBelow d bw ints k + 1) < 32768 then noiseLevel noiseFactor else -noiseLevel noiseFactor
  else x

/-- the lines (first, one past the last) of temporal noise shaping filter `i`: one filter up to the third bandwidth, two
filters that share the lines evenly above -/
def tnsBand (d : FrameDuration) (bw i : Nat) : Nat × Nat :=
  let start := match d with
    | .sevenPointFiveMs => 9
    | .tenMs => 12
  let stop := bandLimit d bw
  if bw < 3 then (start, stop) else if i = 0 then (start, stop / 2) else (stop / 2, stop)

/-- sum of the magnitudes: the number of unit pulses -/
def unitPulses (l : List Int) : Nat := (l.map Int.natAbs).sum

/-- the pulse vectors of the four shapes: 16 entries; shape 0: 10 pulses in the first 10 entries, one in the last 6;
shape 1: 10 pulses in the first 10 entries; shape 2: 8 pulses; shape 3: 6 pulses -/
def ShapeVector (shape : Nat) (y : List Int) : Prop :=
  y.length = 16 ∧
  match shape with
  | 0 => unitPulses (y.take 10) = 10 ∧ unitPulses (y.drop 10) = 1
  | 1 => unitPulses (y.take 10) = 10 ∧ unitPulses (y.drop 10) = 0
  | 2 => unitPulses y = 8
  | 3 => unitPulses y = 6
  | _ => False

/-- band `b` of a band table contains line `k` -/
def InBand (tab : List Nat) (b k : Nat) : Prop := tab.getD b 0 ≤ k ∧ k < tab.getD (b + 1) 0

end Lc3.Spec
