import Verif.Spec.EncDetect
import Verif.Model.ScalarReal
import Mathlib.Algebra.BigOperators.Group.Finset.Basic
/-!
# Specification: attacks

The detector described on the whole signal, without frames and without a state: the signal is reduced to 16 kHz by adding neighbouring
samples, filtered, and cut into blocks of 40 samples (2.5 ms). A block is an attack if its energy is more than 8.5 times the energy of
every earlier block, where earlier energies fade by a factor of four per block.
-/

namespace Lc3.Spec
open Finset

/-- the signal at 16 kHz: sums of `L` neighbouring samples; the two values before the start are given -/
def lowRate (L : Nat) (x : List Int) (p1 p2 : Int) (t : Int) : Int :=
  if t = -1 then p1 else if t = -2 then p2 else ((x.drop (L * t.toNat)).take L).sum

/-- `3/8 x(t) - 1/2 x(t-1) + 1/8 x(t-2)` -/
noncomputable def highPass (D : Int → Int) (t : Int) : ℝ := 3 / 8 * (D t : ℝ) - 1 / 2 * (D (t - 1) : ℝ) + 1 / 8 * (D (t - 2) : ℝ)

/-- the energy of block `k` of 40 samples -/
noncomputable def blockEnergy (D : Int → Int) (k : Nat) : ℝ := ∑ i ∈ range 40, highPass D ((40 * k + i : Nat) : Int) ^ 2

/-- block `k` is an attack: it is louder than 8.5 times every block before, faded by four per block -/
def IsAttack (E : Nat → ℝ) (k : Nat) : Prop := 0 < E k ∧ ∀ j < k, 17 / 2 * (E j / 4 ^ (k - 1 - j)) < E k

/-- blocks in a frame, and the first block whose attack is still reported in the next frame -/
def blocksOf : FrameDuration → Nat × Nat
  | .tenMs => (4, 2)
  | .sevenPointFiveMs => (3, 1)

/-- frame `m` is reported: there is an attack in it, or an attack late in the frame before -/
def Reported (E : Nat → ℝ) (d : FrameDuration) (m : Nat) : Prop :=
  (∃ i < (blocksOf d).1, IsAttack E ((blocksOf d).1 * m + i)) ∨
    (0 < m ∧ ∃ i < (blocksOf d).1, (blocksOf d).2 ≤ i ∧ IsAttack E ((blocksOf d).1 * (m - 1) + i))

/-- the last two values at 16 kHz of the last frame in the operating range (nothing is remembered of the others) -/
noncomputable def lowMemory (f : SamplingFrequency) (d : FrameDuration) : List (List Int × Nat) → Int × Int → Int × Int
  | [], p => p
  | (x, n) :: fs, p =>
    open Classical in
    let L := x.length / (40 * (blocksOf d).1)
    lowMemory f d fs (if AttackRange f d n then ((x.drop (x.length - L)).sum, ((x.drop (x.length - 2 * L)).take L).sum) else p)

end Lc3.Spec
