import Verif.Model.Config
import Verif.Spec.Spectrum
/-!
# Specification: attack detector, noise level
-/

namespace Lc3.Spec
open Lc3 Scalar

/-- The operating range of the attack detector: sampling rates from 32 kHz on, and frame sizes given for rate and
duration. -/
def AttackRange : SamplingFrequency → FrameDuration → Nat → Prop
  | .hz32000, .tenMs, n => 81 ≤ n
  | .hz32000, .sevenPointFiveMs, n => 61 ≤ n ∧ n ≤ 149
  | .hz44100, .tenMs, n => 100 ≤ n
  | .hz44100, .sevenPointFiveMs, n => 75 ≤ n ∧ n ≤ 149
  | .hz48000, .tenMs, n => 100 ≤ n
  | .hz48000, .sevenPointFiveMs, n => 75 ≤ n ∧ n ≤ 149
  | _, _, _ => False

variable {α : Type} [Scalar α]

open Classical in
/-- the lines that contribute to the noise level: the empty ones, in order -/
noncomputable def emptyLines (d : FrameDuration) (bw : Nat) (xq : List Int) (xf : List α) : List α :=
  (xf.zipIdx.filter fun p => Empty d bw xq p.2).map Prod.fst

/-- mean magnitude in units of the gain; zero if there is no line -/
def meanLevel (gg : α) (l : List α) : α :=
  if l = [] then zero else l.foldl (fun s x => s + absS x / gg) zero / ofInt l.length

end Lc3.Spec
