import Verif.Model.Fft
import Verif.Model.Config
import Verif.Model.MdctDec
import Verif.Model.SnsDec
import Verif.Model.EncLtpf
import Verif.Tables.Windows
/-! Model of encoder/modified_dct.rs. -/

namespace Lc3
open Scalar Tables

variable {α : Type} [Scalar α]

/-- encoder/modified_dct.rs 27-65 (`new`): the time buffer and the rests of the buffers. The code selects window and band table by
`fs_ind`, the model by `nf` (the same table in every configuration) and `fs_ind`. -/
def mdctEncNew (cfg : Lc3Config) (ib : List Int) (cb : List (Cx α)) : Res (List Int × List Int × List (Cx α)) := do
  let (freq, ib) ← splitAt ib (cfg.nf * 2)
  let cb ← dctNew cfg.nf cb
  let _ ← windowOf cfg.nMs cfg.nf
  let _ ← bandTable cfg.nMs cfg.fsInd
  .ok (freq, ib, cb)

/-- encoder/modified_dct.rs 126-138 (`update_time_buffer`) -/
def mdctUpdate (cfg : Lc3Config) (freq x : List Int) : Res (List Int) := do
  let n ← usub cfg.nf cfg.z
  if freq.length < cfg.nf + n ∨ freq.length < 2 * cfg.nf - cfg.z ∨ x.length ≠ cfg.nf then .panic
  else .ok ((freq.drop cfg.nf).take n ++ x ++ freq.drop (2 * cfg.nf - cfg.z))

/-- a sample times its window value -/
def winMul (p : Int × Rat) : α := ofInt p.1 * ofRat p.2

/-- encoder/modified_dct.rs 73-97: window and folding of two frames (`freq`) into one -/
def mdctFold (nf : Nat) (freq : List Int) (wn : List Rat) : Res (List α) := do
  let h := nf / 2
  let m := 3 * h
  let k ← usub m h
  let t1 ← sliceR freq k m
  let w1 ← sliceR wn k m
  let t2 ← sliceR freq m (m + h)
  let w2 ← sliceR wn m (m + h)
  let a := List.zipWith (fun p q => -(winMul p) - winMul q) (t1.reverse.zip w1.reverse) (t2.zip w2)
  let t3 ← sliceR freq 0 h
  let w3 ← sliceR wn 0 h
  let t4 ← sliceR freq h nf
  let w4 ← sliceR wn h nf
  let b := List.zipWith (fun p q => winMul p - winMul q) (t3.zip w3) (t4.reverse.zip w4.reverse)
  .ok (a ++ b)

/-- encoder/modified_dct.rs 73-105 (`apply_mdct`) -/
def mdctApply (nf : Nat) (freq : List Int) (wn : List Rat) : Res (List α) := do
  let t ← mdctFold nf freq wn
  let y ← dctIv nf t
  .ok (y.map (· * mdctGain nf))

/-- encoder/modified_dct.rs 140-152 (`apply_energy_estimation`): the bands `b ..` -/
def energyBands (tab : List Nat) (out : List α) : Nat → Nat → Res (List α)
  | _, 0 => .ok []
  | b, n + 1 => do
    let i ← idx tab b
    let j ← idx tab (b + 1)
    let w ← usub j i
    let part ← sliceR out i j
    let r ← energyBands tab out (b + 1) n
    .ok (part.foldl (fun e o => e + o * o / ofInt w) zero :: r)

/-- encoder/modified_dct.rs 154-177 (`is_near_nyquist`) -/
def isNearNyquist (cfg : Lc3Config) (eb : List α) : Res Bool :=
  if cfg.fs ≤ 32000 then do
    let nn ← usub cfg.nb (match cfg.nMs with | .sevenPointFiveMs => 4 | .tenMs => 2)
    let lo := (eb.take nn).foldl (· + ·) zero
    let hi := (eb.drop nn).foldl (· + ·) zero
    .ok (lt (ofRat 30 * lo) hi)
  else .ok false

/-- encoder/modified_dct.rs 108-124 (`run`): the time buffer, the lines, the energies and the near Nyquist flag -/
def mdctEncRun (cfg : Lc3Config) (freq x : List Int) : Res (List Int × List α × List α × Bool) :=
  if x.length ≠ cfg.nf then .panic
  else do
    let freq ← mdctUpdate cfg freq x
    let wn ← windowOf cfg.nMs cfg.nf
    let out ← mdctApply cfg.nf freq wn
    let tab ← bandTable cfg.nMs cfg.fsInd
    let eb ← energyBands tab out 0 cfg.nb
    let nn ← isNearNyquist cfg eb
    .ok (freq, out, eb, nn)

end Lc3
