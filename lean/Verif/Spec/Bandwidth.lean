import Verif.Model.Config
import Verif.Model.ScalarReal
import Mathlib.Algebra.BigOperators.Group.Finset.Basic
import Mathlib.Order.Interval.Finset.Nat
import Mathlib.Analysis.SpecialFunctions.Log.Base
/-!
# Specification: which bandwidth a signal has

The 64 band energies of a frame; the signal has bandwidth `k` if all the bands above are quiet and the energy drops at the edge. Bands,
thresholds and distances are those of the standard. The standard takes the drop in decibel, over `L` bands up to and including the
first band of the upper region.
-/

namespace Lc3.Spec
open Finset

/-- first and last band of the region that belongs to bandwidth `k + 1` but not to `k`, for the sampling rate with index `n` -/
def bwRegion : FrameDuration → Nat → Nat → Nat × Nat
  | .tenMs, 1, 0 => (53, 63)
  | .tenMs, 2, 0 => (47, 56) | .tenMs, 2, 1 => (59, 63)
  | .tenMs, 3, 0 => (44, 52) | .tenMs, 3, 1 => (54, 59) | .tenMs, 3, 2 => (60, 63)
  | .tenMs, 4, 0 => (41, 49) | .tenMs, 4, 1 => (51, 55) | .tenMs, 4, 2 => (57, 60) | .tenMs, 4, 3 => (61, 63)
  | .sevenPointFiveMs, 1, 0 => (51, 63)
  | .sevenPointFiveMs, 2, 0 => (45, 55) | .sevenPointFiveMs, 2, 1 => (58, 63)
  | .sevenPointFiveMs, 3, 0 => (42, 51) | .sevenPointFiveMs, 3, 1 => (53, 58) | .sevenPointFiveMs, 3, 2 => (60, 63)
  | .sevenPointFiveMs, 4, 0 => (40, 48) | .sevenPointFiveMs, 4, 1 => (51, 55) | .sevenPointFiveMs, 4, 2 => (57, 60)
  | .sevenPointFiveMs, 4, 3 => (61, 63)
  | _, _, _ => (0, 0)

/-- below this mean energy a region is quiet -/
def quietLimit : Nat → ℝ
  | 0 => 20
  | _ => 10

/-- how much the energy must drop -/
def dropLimit : Nat → ℝ
  | 0 => 15
  | 1 => 23
  | _ => 20

/-- over how many bands the drop is looked for -/
def dropWidth : FrameDuration → Nat → Nat
  | .tenMs, 3 => 1
  | .sevenPointFiveMs, 3 => 2
  | _, 2 => 3
  | _, _ => 4

/-- the mean energy of the region is below the limit -/
def QuietRegion (d : FrameDuration) (n : Nat) (E : Nat → ℝ) (k : Nat) : Prop :=
  (∑ i ∈ Icc (bwRegion d n k).1 (bwRegion d n k).2, E i) / (((bwRegion d n k).2 + 1 - (bwRegion d n k).1 : Nat) : ℝ) < quietLimit k

/-- all regions above bandwidth `c` are quiet, and the one below is not -/
def BwCandidate (d : FrameDuration) (n : Nat) (E : Nat → ℝ) (c : Nat) : Prop :=
  c ≤ n ∧ (∀ k, c ≤ k → k < n → QuietRegion d n E k) ∧ (0 < c → ¬ QuietRegion d n E (c - 1))

/-- the code's drop: the quotient of energies `L` bands apart is above the limit, for one of the `L - 1` bands below the region -/
def QuotientDrop (d : FrameDuration) (n : Nat) (E : Nat → ℝ) (c : Nat) : Prop :=
  ∃ i, (bwRegion d n c).1 + 1 - dropWidth d c ≤ i ∧ i < (bwRegion d n c).1 ∧ dropLimit c < E (i - dropWidth d c) / E i

/-- the same bands, the drop in decibel -/
def DecibelDrop (d : FrameDuration) (n : Nat) (E : Nat → ℝ) (c : Nat) : Prop :=
  ∃ i, (bwRegion d n c).1 + 1 - dropWidth d c ≤ i ∧ i < (bwRegion d n c).1 ∧
    dropLimit c < 10 * Real.logb 10 (E (i - dropWidth d c) / E i)

end Lc3.Spec
