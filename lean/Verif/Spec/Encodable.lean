import Verif.Model.F32
import Verif.Model.Encoder
/-!
# Specification: signals the encoder accepts in binary32

The only two things in a signal that can stop the analysis of the encoder.
-/

namespace Lc3.F32
open Scalar

/-- The shape the second stage chooses can be written: it is not the first one, or the last six entries of the rotated residual hold a
pulse. -/
def Writable (el : Elem) (r1 : List F32) : Prop :=
  ∀ c, @snsCands F32 (scalar el) (@snsRotate F32 (scalar el) r1) = .ok c →
    (@snsChoose F32 (scalar el) (@snsRotate F32 (scalar el) r1) (@snsNormalize F32 (scalar el) c.y0) (@snsNormalize F32 (scalar el) c.y1)
      (@snsNormalize F32 (scalar el) c.y2) (@snsNormalize F32 (scalar el) c.y3)).shapeJ ≠ 0 ∨
    ∃ a ∈ (@snsRotate F32 (scalar el) r1).drop 10, F32.lt (fin 0) (absF a) = true

/-- no reflection coefficient of the filters of this spectrum is `±1` -/
def NoUnit (el : Elem) (cfg : Lc3Config) (x : List F32) (bw nbits : Nat) (nn : Bool) : Prop :=
  ∀ p, tnsParams cfg.nMs bw = .ok p → ∀ s ∈ p.subs, ∀ r, @tnsCorr F32 (scalar el) x s = .ok r →
    ∀ c ∈ @tnsAnalysis F32 (scalar el) r nn (lpcWeightingOf cfg.nMs nbits), c ≠ fin 1 ∧ c ≠ fin (-1)

/-- The two conditions on a signal: the shape chosen by the second stage of the noise shaping quantiser can be written (shape 0 needs a
pulse in the last six entries), and no reflection coefficient of the temporal noise shaping is exactly `1` or `-1`. -/
structure Encodable (el : Elem) (cfg : Lc3Config) (ch : EncChannel F32) (x : List Int) (nbytes : Nat) : Prop where
  shape : ∀ freq out eb nn att det scf lf hf st1 r1, @mdctEncRun F32 (scalar el) cfg ch.freq x = .ok (freq, out, eb, nn) →
    @attackRun F32 (scalar el) cfg ch.attack x nbytes = .ok (att, det) → @snsTarget F32 (scalar el) cfg eb det = .ok scf →
    @snsStage1 F32 (scalar el) scf = .ok (lf, hf, st1, r1) → Writable el r1
  unit : ∀ freq out eb nn bw nbw att det sns, @mdctEncRun F32 (scalar el) cfg ch.freq x = .ok (freq, out, eb, nn) →
    @bwRun F32 (scalar el) ch.bw eb = .ok (bw, nbw) → @attackRun F32 (scalar el) cfg ch.attack x nbytes = .ok (att, det) →
    @snsEncRun F32 (scalar el) cfg (out.take cfg.ne) eb det = .ok sns → NoUnit el cfg sns.x bw (nbytes * 8) nn

end Lc3.F32
