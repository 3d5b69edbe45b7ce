import Verif.Model.EncResidual
import Verif.Model.Config
/-!
# Encoder: attack detector, bandwidth detector, noise level

Models of encoder/attack_detector.rs, encoder/bandwidth_detector.rs and encoder/noise_level_estimation.rs.
-/

namespace Lc3
open Scalar

variable {α : Type} [Scalar α]

/-- the mutable part of encoder/attack_detector.rs 9-22 -/
structure AttackSt (α : Type) where
  energyLast : α
  maxEnergyLast : α
  attackPosLast : Int
  tminus1 : Int
  tminus2 : Int

/-- encoder/attack_detector.rs 25-42 (`new`) -/
def AttackSt.new : AttackSt α := ⟨zero, zero, -1, 0, 0⟩

/-- `num_downsampled`, `num_blocks`, `attack_pos_limit`, encoder/attack_detector.rs 26-29 -/
def attackDims : FrameDuration → Nat × Nat × Int
  | .tenMs => (160, 4, 2)
  | .sevenPointFiveMs => (120, 3, 1)

/-- encoder/attack_detector.rs 90-104 (`is_active`) -/
def attackIsActive (cfg : Lc3Config) (nbytes : Nat) : Bool :=
  if cfg.fs < 32000 then false
  else match cfg.nMs with
    | .sevenPointFiveMs =>
      (cfg.fs == 32000 && decide (nbytes ≥ 61) && decide (nbytes < 150))
        || (decide (cfg.fs ≥ 44100) && decide (nbytes ≥ 75) && decide (nbytes < 150))
    | .tenMs =>
      (cfg.fs == 32000 && decide (nbytes > 80)) || (decide (cfg.fs ≥ 41000) && decide (nbytes ≥ 100))

/-- encoder/attack_detector.rs 106-115 (`downsample`), the blocks `i ..`. The sums of at most 480 `i16` values do not
overflow `i32`. -/
def attackDownsample (blockLen : Nat) (x : List Int) : Nat → Nat → Res (List Int)
  | _, 0 => .ok []
  | i, n + 1 =>
    if blockLen * i + blockLen ≤ x.length then do
      let r ← attackDownsample blockLen x (i + 1) n
      .ok (((x.drop (blockLen * i)).take blockLen).foldl (· + ·) 0 :: r)
    else .panic

/-- encoder/attack_detector.rs 117-127 (`filter`); `t1`, `t2` are the two samples before the list -/
def attackFilter : Int → Int → List Int → List α
  | _, _, [] => []
  | t1, t2, x :: xs =>
    (ofRat (3 / 8) * ofInt x - ofRat (1 / 2) * ofInt t1 + ofRat (1 / 8) * ofInt t2) :: attackFilter x t1 xs

/-- encoder/attack_detector.rs 69-84: the loop over the blocks `n ..`; result: energies and attack position -/
def attackBlocks (hp : List α) : Nat → Nat → α × α × Int → α × α × Int
  | _, 0, s => s
  | n, k + 1, (eLast, maxLast, pos) =>
    let energy := ((hp.drop (40 * n)).take 40).foldl (fun e h => e + h * h) zero
    let maxEnergy := maxS (ofRat (1 / 4) * maxLast) eLast
    let pos := if lt (ofRat (17 / 2) * maxEnergy) energy then (n : Int) else pos
    attackBlocks hp (n + 1) k (energy, maxEnergy, pos)

/-- encoder/attack_detector.rs 45-88 (`run`). The filter writes `num_downsampled` (120 or 160) values, of which
`num_blocks` (3 or 4) blocks of 40 are used. -/
def attackRun (cfg : Lc3Config) (s : AttackSt α) (x : List Int) (nbytes : Nat) : Res (AttackSt α × Bool) :=
  if x.length ≠ cfg.nf then .panic
  else if !attackIsActive cfg nbytes then
    .ok ({ s with energyLast := zero, maxEnergyLast := zero, attackPosLast := -1 }, false)
  else do
    let (nd, nblk, limit) := attackDims cfg.nMs
    let ds ← attackDownsample (cfg.nf / nd) x 0 nd
    let hp : List α := attackFilter s.tminus1 s.tminus2 ds
    let i1 ← usub ds.length 1
    let i2 ← usub ds.length 2
    let t1 ← idx ds i1
    let t2 ← idx ds i2
    let (e, m, pos) := attackBlocks hp 0 nblk (s.energyLast, s.maxEnergyLast, -1)
    .ok (⟨e, m, pos, t1, t2⟩, decide (pos ≥ 0) || decide (s.attackPosLast ≥ limit))

/-- encoder/bandwidth_detector.rs 5 -/
def BW_START_10 : List (List Nat) := [[53, 0, 0, 0], [47, 59, 0, 0], [44, 54, 60, 0], [41, 51, 57, 61]]
/-- encoder/bandwidth_detector.rs 6 -/
def BW_STOP_10 : List (List Nat) := [[63, 0, 0, 0], [56, 63, 0, 0], [52, 59, 63, 0], [49, 55, 60, 63]]
/-- encoder/bandwidth_detector.rs 7 -/
def BW_START_75 : List (List Nat) := [[51, 0, 0, 0], [45, 58, 0, 0], [42, 53, 60, 0], [40, 51, 57, 61]]
/-- encoder/bandwidth_detector.rs 8 -/
def BW_STOP_75 : List (List Nat) := [[63, 0, 0, 0], [55, 63, 0, 0], [51, 58, 63, 0], [48, 55, 60, 63]]
/-- encoder/bandwidth_detector.rs 9 -/
def NBITS_BW : List Nat := [0, 1, 2, 2, 3]
/-- encoder/bandwidth_detector.rs 12 -/
def QUIET_THRESH : List Nat := [20, 10, 10, 10]
/-- encoder/bandwidth_detector.rs 15 -/
def CUTOFF_THRESH : List Nat := [15, 23, 20, 20]
/-- encoder/bandwidth_detector.rs 17 -/
def BW_L_10 : List Nat := [4, 4, 3, 1]
/-- encoder/bandwidth_detector.rs 18 -/
def BW_L_75 : List Nat := [4, 4, 3, 2]

/-- encoder/bandwidth_detector.rs 20-25 -/
structure BwDet where
  fsInd : Nat
  start : List Nat
  stop : List Nat
  l : List Nat

/-- encoder/bandwidth_detector.rs 33-53 (`new`) -/
def BwDet.new (d : FrameDuration) (fsInd : Nat) : Res BwDet := do
  match d with
  | .tenMs => do
    let i ← usub fsInd 1
    let a ← idx BW_START_10 i
    let b ← idx BW_STOP_10 i
    .ok ⟨fsInd, a, b, BW_L_10⟩
  | .sevenPointFiveMs => do
    let i ← usub fsInd 1
    let a ← idx BW_START_75 i
    let b ← idx BW_STOP_75 i
    .ok ⟨fsInd, a, b, BW_L_75⟩

/-- encoder/bandwidth_detector.rs 55-57 (`get_num_bits_bandwidth`) -/
def BwDet.nbits (b : BwDet) : Res Nat := idx NBITS_BW b.fsInd

/-- encoder/bandwidth_detector.rs 78-97: first stage, the bands `k - 1, .., 0` -/
def bwQuiet (b : BwDet) (eb : List α) : Nat → Res Nat
  | 0 => .ok 0
  | k + 1 => do
    let start ← idx b.start k
    let stop ← idx b.stop k
    let w ← usub (stop + 1) start
    if stop + 1 ≤ eb.length then do
      let quiet := ((eb.drop start).take w).foldl (fun q e => q + e / ofInt w) (zero : α)
      let th ← idx QUIET_THRESH k
      if geS quiet (ofInt th) then .ok (k + 1) else bwQuiet b eb k
    else .panic

/-- encoder/bandwidth_detector.rs 109-118: the loop over `n`, `cnt` rounds -/
def bwCutoff (eb : List α) (l : Nat) : Nat → Nat → α → Res α
  | _, 0, m => .ok m
  | n, cnt + 1, m => do
    let j ← usub n l
    let a ← idx eb j
    let c ← idx eb n
    bwCutoff eb l (n + 1) cnt (maxS (a / c) m)

/-- encoder/bandwidth_detector.rs 64-132 (`run`): `bandwidth_ind` and `nbits_bandwidth` -/
def bwRun (b : BwDet) (eb : List α) : Res (Nat × Nat) := do
  let nbits ← idx NBITS_BW b.fsInd
  if b.fsInd = 0 then .ok (0, nbits)
  else do
    let ind ← bwQuiet b eb b.fsInd
    if b.fsInd = ind then .ok (ind, nbits)
    else do
      let l ← idx b.l ind
      let hi ← idx b.start ind
      let frm ← usub (hi + 1) l
      let m ← bwCutoff eb l frm (hi - frm) zero
      let th ← idx CUTOFF_THRESH ind
      if lt (ofInt th) m then .ok (ind, nbits) else .ok (b.fsInd, nbits)

/-- encoder/noise_level_estimation.rs 22-23 -/
def NOISE_BW_STOP_10 : List Nat := [80, 160, 240, 320, 400]
def NOISE_BW_STOP_75 : List Nat := [60, 120, 180, 240, 300]

/-- `bw_stop`, `nf_start`, `nf_width`, encoder/noise_level_estimation.rs 24-27 -/
def noiseDims (d : FrameDuration) (bw : Nat) : Res (Nat × Nat × Nat) :=
  match d with
  | .tenMs => do
    let s ← idx NOISE_BW_STOP_10 bw
    .ok (s, 24, 3)
  | .sevenPointFiveMs => do
    let s ← idx NOISE_BW_STOP_75 bw
    .ok (s, 18, 2)

/-- encoder/noise_level_estimation.rs 29-46: the loop over the lines from `k` on, `n` rounds. -/
def noiseSum (bwStop w : Nat) (xf : List α) (xq : List Int) (gg : α) : Nat → Nat → α × Nat → Res (α × Nat)
  | _, 0, s => .ok s
  | k, n + 1, (sum, count) => do
    let x ← idx xf k
    let frm ← usub k w
    let hi := min bwStop (k + w + 1)
    if frm ≤ hi ∧ hi ≤ xq.length then
      if ((xq.drop frm).take (hi - frm)).all (fun v => v == 0) then
        noiseSum bwStop w xf xq gg (k + 1) n (sum + absS x / gg, count + 1)
      else noiseSum bwStop w xf xq gg (k + 1) n (sum, count)
    else .panic

/-- `x as usize` for an `i32` -/
def i32AsUsize (x : Int) : Nat := (x % 18446744073709551616).toNat

/-- encoder/noise_level_estimation.rs 48-56: from the noise level to the noise factor -/
def noiseQuant (level : α) : Nat :=
  let diff := ofRat 8 - ofRat 16 * level
  if geS diff zero then i32AsUsize (min 7 (toI32 (diff + ofRat (1 / 2)))) else 0

/-- encoder/noise_level_estimation.rs 21-57 (`calc_noise_factor`); the iteration ends with the shorter of `x_f` and
`nf_stop` -/
def noiseFactor (d : FrameDuration) (ne : Nat) (xf : List α) (xq : List Int) (bw : Nat) (gg : α) : Res Nat := do
  let (bwStop, start, w) ← noiseDims d bw
  let stop := min xf.length (min ne bwStop)
  let (sum, count) ← noiseSum bwStop w xf xq gg start (stop - start) (zero, 0)
  let level := if count > 0 then sum / ofInt count else zero
  .ok (noiseQuant level)

end Lc3
