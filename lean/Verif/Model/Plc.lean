import Verif.Basic
import Verif.Model.Scalar
import Verif.Model.SideInfo
/-! Models of decoder/packet_loss_concealment.rs and decoder/output_scaling.rs. -/

namespace Lc3
open Scalar

/-- decoder/packet_loss_concealment.rs 7-22 -/
structure Plc (α : Type) where
  lastGood : List α
  numLost : Nat
  alpha : α
  seed : Nat
  ne : Nat

variable {α : Type} [Scalar α]

/-- decoder/packet_loss_concealment.rs 50-54 (`save`) -/
def Plc.save (p : Plc α) (lines : List α) : Res (Plc α) :=
  if lines.length < p.ne ∨ p.lastGood.length < p.ne then .panic
  else .ok { p with numLost := 0, alpha := one, lastGood := lines.take p.ne ++ p.lastGood.drop p.ne }

/-- decoder/packet_loss_concealment.rs 69-77: the loop over the lines. The seed is below 2^16, so the `usize`
computation does not overflow. -/
def plcLoop (alpha : α) : Nat → List α → List α → List α × Nat
  | seed, _ :: cur, g :: good =>
    let seed := (16831 + seed * 12821) &&& 0xFFFF
    let v := if seed < 0x8000 then g * alpha else g * -alpha
    let (l, s) := plcLoop alpha seed cur good
    (v :: l, s)
  | seed, cur, _ => (cur, seed)

/-- decoder/packet_loss_concealment.rs 64-66 -/
def plcAlpha (numLost : Nat) (alpha : α) : α :=
  if numLost ≥ 4 then alpha * (if numLost < 8 then ofRat (9 / 10) else ofRat (85 / 100)) else alpha

/-- the post filter information used when the frame is lost, decoder/packet_loss_concealment.rs 79-85 -/
def lostLtpfInfo : LtpfInfo := ⟨false, false, 0⟩

/-- decoder/packet_loss_concealment.rs 63-86 (`load_into`): new state and lines; the returned post filter information
is `lostLtpfInfo` -/
def Plc.loadInto (p : Plc α) (lines : List α) : Plc α × List α :=
  let alpha := plcAlpha p.numLost p.alpha
  let r := plcLoop alpha p.seed lines p.lastGood
  ({ p with numLost := p.numLost + 1, alpha := alpha, seed := r.2 }, r.1)

/-- decoder/output_scaling.rs 18-24: one sample -/
def roundSample (x : α) : Int :=
  let tmp := if pos x then toI32 (x + ofRat (1 / 2)) else toI32 (x - ofRat (1 / 2))
  max (min tmp 32767) (-32768)

/-- decoder/output_scaling.rs 13-26 (`scale_and_round`): new contents of the output buffer -/
def scaleAndRound : List α → List Int → List Int
  | x :: xs, _ :: out => roundSample x :: scaleAndRound xs out
  | _, out => out

end Lc3
