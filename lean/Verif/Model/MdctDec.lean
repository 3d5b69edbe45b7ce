import Verif.Model.Fft
import Verif.Model.Config
import Verif.Tables.Windows
/-! Model of decoder/modified_dct.rs. -/

namespace Lc3
open Scalar Tables

/-- the window of a configuration, decoder/modified_dct.rs 36-53, encoder/modified_dct.rs 35-52 -/
def windowOf : FrameDuration → Nat → Res (List Rat)
  | .sevenPointFiveMs, 60 => .ok W_N60_7P5MS
  | .sevenPointFiveMs, 120 => .ok W_N120_7P5MS
  | .sevenPointFiveMs, 180 => .ok W_N180_7P5MS
  | .sevenPointFiveMs, 240 => .ok W_N240_7P5MS
  | .sevenPointFiveMs, 360 => .ok W_N360_7P5MS
  | .tenMs, 80 => .ok W_N80_10MS
  | .tenMs, 160 => .ok W_N160_10MS
  | .tenMs, 240 => .ok W_N240_10MS
  | .tenMs, 320 => .ok W_N320_10MS
  | .tenMs, 480 => .ok W_N480_10MS
  | _, _ => .panic

variable {α : Type} [Scalar α]

/-- `1 / sqrt(2 nf)`, decoder/modified_dct.rs 132, encoder/modified_dct.rs 101 -/
def mdctGain (nf : Nat) : α := one / sqrt (ofRat 2 * ofRat nf)

/-- decoder/modified_dct.rs 97-136 (`apply_mdct_inverse`): the time aliased buffer `t_hat_mdct`. The three block moves
and the final negated copy are one rotation by half a frame. -/
def mdctUnfold (nf : Nat) (buf : List α) : Res (List α) := do
  let y ← dctIv nf buf
  let t := y ++ y.reverse.map (fun v => -v)
  let h := nf / 2
  let t := t.drop h ++ (t.take h).map (fun v => -v)
  .ok (t.map (· * mdctGain nf))

/-- decoder/modified_dct.rs 76-95 and 138-151 (`run`, `overlap_add`): the new overlap memory and the time samples -/
def mdctDecRun (cfg : Lc3Config) (memOla lines : List α) : Res (List α × List α) := do
  if lines.length ≠ cfg.ne then .panic
  else do
    let wn ← windowOf cfg.nMs cfg.nf
    let pad ← usub cfg.nf cfg.ne
    let t ← mdctUnfold cfg.nf (lines ++ List.replicate pad zero)
    let t := List.zipWith (fun x w => x * ofRat w) t wn.reverse
    let n ← usub cfg.nf cfg.z
    if memOla.length < n then .panic
    else
      let z := cfg.z
      let nf := cfg.nf
      let head := List.zipWith (· + ·) (memOla.take n) ((t.take nf).drop z)
      let tail := (t.take (nf + z)).drop nf
      .ok ((t.take (2 * nf)).drop (nf + z), head ++ tail)

end Lc3
