import Verif.Model.Decoder
import Mathlib.Data.Rat.Floor
/-!
# Specification: packet loss concealment and output samples

Only the frame history (`List (Option (List α))`, most recent frame first: `none` for a lost frame, `some lines` for a
good frame with the spectrum `lines`) determines a concealed spectrum.
-/

namespace Lc3.Spec
open Lc3 Scalar

variable {α : Type} [Scalar α]

/-- the factor of the `n`-th loss in a row: 1 for the first four losses, then times 0.9 for each of the next four, then
times 0.85 for each further one -/
def fade : Nat → α
  | 0 => one
  | n + 1 => if n < 4 then fade n else if n < 8 then fade n * ofRat (9 / 10) else fade n * ofRat (85 / 100)

/-- the 16 bit pseudo random state after `k` draws -/
def plcState : Nat → Nat
  | 0 => 24607
  | k + 1 => (16831 + 12821 * plcState k) % 65536

/-- number of frames lost in a row -/
def lossRun : List (Option (List α)) → Nat
  | none :: h => lossRun h + 1
  | _ => 0

/-- number of frames lost at all -/
def lossTotal : List (Option (List α)) → Nat
  | [] => 0
  | none :: h => lossTotal h + 1
  | some _ :: h => lossTotal h

/-- the last good spectrum; `l0` if there was none -/
def lastGood (l0 : List α) : List (Option (List α)) → List α
  | [] => l0
  | none :: h => lastGood l0 h
  | some l :: _ => l

/-- line `i` of the spectrum for a lost frame after the history `h`: the line of the last good spectrum times plus or
minus the fade factor; every line of every lost frame draws one number -/
def concealedLine (ne : Nat) (l0 : List α) (h : List (Option (List α))) (i : Nat) : α :=
  let a : α := fade (lossRun h + 1)
  let g := (lastGood l0 h).getD i zero
  if plcState (lossTotal h * ne + i + 1) < 32768 then g * a else g * -a

/-- The histories of a channel: `History f d ch0 ch h` says that some frames lead from `ch0` to `ch` and that their history
is `h`. Calls with an unsupported sample width do not count. -/
inductive History (f : SamplingFrequency) (d : FrameDuration) (ch0 : DecChannel α) :
    DecChannel α → List (Option (List α)) → Prop
  | start : History f d ch0 ch0 []
  | good {ch ch' : DecChannel α} {h : List (Option (List α))} {checks : Bool} {buf : List Nat} {out out' : List Int}
      {r : DecResult} {p : SideInfo × ArithmeticData × List Int} : History f d ch0 ch h →
      readFrame checks (Lc3Config.new f d) buf = .ok p →
      decodeChannel checks (Lc3Config.new f d) ch 16 buf out = .ok (r, ch', out') →
      History f d ch0 ch' (some ch'.specLines :: h)
  | lost {ch ch' : DecChannel α} {h : List (Option (List α))} {checks : Bool} {buf : List Nat} {out out' : List Int}
      {r : DecResult} : History f d ch0 ch h →
      readFrame checks (Lc3Config.new f d) buf = .err →
      decodeChannel checks (Lc3Config.new f d) ch 16 buf out = .ok (r, ch', out') →
      History f d ch0 ch' (none :: h)
  | refused {ch ch' : DecChannel α} {h : List (Option (List α))} {checks : Bool} {bits : Nat} {buf : List Nat}
      {out out' : List Int} {r : DecResult} : History f d ch0 ch h → bits ≠ 16 →
      decodeChannel checks (Lc3Config.new f d) ch bits buf out = .ok (r, ch', out') →
      History f d ch0 ch' h

/-- nearest integer, halves away from zero -/
def roundHalfAway (q : ℚ) : ℤ := if 0 ≤ q then ⌊q + 1 / 2⌋ else -⌊-q + 1 / 2⌋

/-- limitation to the range of 16 bit samples -/
def clamp16 (n : Int) : Int := if n < -32768 then -32768 else if 32767 < n then 32767 else n

end Lc3.Spec
