import Verif.Basic
import Verif.Model.Config
/-!
# The ranges of the temporal noise shaping filters (for C123)

The edges of the parts of the ranges, three parts per filter, in one ascending list per bandwidth (narrowband to fullband).
-/

namespace Lc3.Spec

/-- the edges of the parts for a duration and a bandwidth index -/
def tnsEdges : FrameDuration → Nat → List Nat
  | .tenMs, bw => [[12, 34, 57, 80], [12, 61, 110, 160], [12, 88, 164, 240], [12, 61, 110, 160, 213, 266, 320],
      [12, 74, 137, 200, 266, 333, 400]].getD bw []
  | .sevenPointFiveMs, bw => [[9, 26, 43, 60], [9, 46, 83, 120], [9, 66, 123, 180], [9, 46, 82, 120, 159, 200, 240],
      [9, 56, 103, 150, 200, 250, 300]].getD bw []

/-- the three parts of the range of filter `i` -/
def tnsParts (d : FrameDuration) (bw i : Nat) : List (Nat × Nat) :=
  (List.range 3).map fun j => ((tnsEdges d bw).getD (3 * i + j) 0, (tnsEdges d bw).getD (3 * i + j + 1) 0)

/-- frames of fewer bits than this use the weighted predictor -/
def tnsWeightLimit : FrameDuration → Nat
  | .tenMs => 480
  | .sevenPointFiveMs => 360

end Lc3.Spec
