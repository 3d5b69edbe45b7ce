import Verif.Spec.Ltpf
import Verif.Model.ScalarReal
/-!
# Specification: sizes and distances of signals
-/

namespace Lc3.Spec

/-- all samples are at most `B` in size -/
def SizeAtMost (B : ℝ) (l : List ℝ) : Prop := ∀ v ∈ l, |v| ≤ B

/-- equally long, and corresponding samples differ by at most `B` -/
def DistAtMost (B : ℝ) (l m : List ℝ) : Prop := List.Forall₂ (fun v w => |v - w| ≤ B) l m

/-- two frames with the same side information and samples that differ by at most `B` -/
def FrameDist (B : ℝ) (a b : LtpfFrame ℝ) : Prop := a.info = b.info ∧ a.nbits = b.nbits ∧ DistAtMost B a.samples b.samples

end Lc3.Spec
