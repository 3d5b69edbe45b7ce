import Verif.Basic
import Verif.Model.Scalar
import Verif.Model.SideInfo
import Verif.Tables.Mpvq
import Verif.Tables.BandIndex
import Verif.Tables.SnsFloat
/-! Model of decoder/spectral_noise_shaping.rs. -/

namespace Lc3
open Scalar Tables

/-- decoder/spectral_noise_shaping.rs 229-235 (`mind2vec_one`) -/
def mind2vecOne (k : Nat) (neg : Bool) : Int := if neg then -(k : Int) else (k : Int)

/-- decoder/spectral_noise_shaping.rs 172-188: the search for `k_acc`, downwards from the argument.
Result: (`k_acc`, `ul_diff`). -/
def deenumSearch (row : List Nat) (ind : Nat) : Nat → Res (Nat × Nat)
  | 0 => do
    let h ← idx row 0
    if ind < h then .panic else .ok (0, ind - h)
  | k + 1 => do
    let h ← idx row (k + 1)
    if ind < h then deenumSearch row ind k else .ok (k + 1, ind - h)

/-- decoder/spectral_noise_shaping.rs 168-198: the loop over positions. The first argument is the number of
remaining positions (`dim_in - pos`), the result are the remaining entries of the vector. `neg` is
`leading_sign < 0`. Includes `setval_update_sign` 201-216 and `get_lead_sign` 218-227. -/
def deenumLoop : Nat → Nat → Bool → Nat → Res (List Int)
  | 0, _, _, _ => .ok []
  | n + 1, kMax, neg, ind => do
    let row ← idx MPVQ_OFFSETS n
    if ind ≠ 0 then do
      let (kAcc, diff) ← deenumSearch row ind kMax
      let kDelta ← usub kMax kAcc
      if kDelta ≠ 0 then do
        let kMax' ← usub kMax kDelta
        let l ← deenumLoop n kMax' (diff &&& 1 != 0) (diff >>> 1)
        .ok (mind2vecOne kDelta neg :: l)
      else do
        let l ← deenumLoop n kMax neg diff
        .ok (0 :: l)
    else .ok (mind2vecOne kMax neg :: List.replicate n 0)

/-- decoder/spectral_noise_shaping.rs 155-199 (`mpvq_deenum`): the first `dim` entries of `vec_out` -/
def mpvqDeenum (dim k lsInd ind : Nat) : Res (List Int) := deenumLoop dim k (lsInd != 0) ind

/-- decoder/spectral_noise_shaping.rs 26-48: the pulse vector `y` (16 entries) -/
def snsPulses (sns : SnsVq) : Res (List Int) :=
  match (sns.submodeMsb <<< 1) + sns.submodeLsb with
  | 0 => do
    let y ← mpvqDeenum 10 10 sns.lsInda sns.idxA
    let z ← mpvqDeenum 6 1 sns.lsIndb sns.idxB
    .ok (y ++ z)
  | 1 => do
    let y ← mpvqDeenum 10 10 sns.lsInda sns.idxA
    .ok (y ++ List.replicate 6 0)
  | 2 => mpvqDeenum 16 8 sns.lsInda sns.idxA
  | 3 => mpvqDeenum 16 6 sns.lsInda sns.idxA
  | _ => .panic

/-- decoder/spectral_noise_shaping.rs 58-67: the adjustment gain of the shape -/
def snsGain (sns : SnsVq) : Res Rat :=
  match (sns.submodeMsb <<< 1) + sns.submodeLsb with
  | 0 => idx SNS_VQ_REG_ADJ_GAINS sns.gInd
  | 1 => idx SNS_VQ_REG_LF_ADJ_GAINS sns.gInd
  | 2 => idx SNS_VQ_NEAR_ADJ_GAINS sns.gInd
  | 3 => idx SNS_VQ_FAR_ADJ_GAINS sns.gInd
  | _ => .panic

/-- the band table of a configuration, decoder/spectral_noise_shaping.rs 125-142, encoder/modified_dct.rs 35-52 -/
def bandTable : FrameDuration → Nat → Res (List Nat)
  | .sevenPointFiveMs, 0 => .ok I_8000_7P5MS
  | .sevenPointFiveMs, 1 => .ok I_16000_7P5MS
  | .sevenPointFiveMs, 2 => .ok I_24000_7P5MS
  | .sevenPointFiveMs, 3 => .ok I_32000_7P5MS
  | .sevenPointFiveMs, 4 => .ok I_48000_7P5MS
  | .tenMs, 0 => .ok I_8000_10MS
  | .tenMs, 1 => .ok I_16000_10MS
  | .tenMs, 2 => .ok I_24000_10MS
  | .tenMs, 3 => .ok I_32000_10MS
  | .tenMs, 4 => .ok I_48000_10MS
  | _, _ => .panic

variable {α : Type} [Scalar α]

/-- decoder/spectral_noise_shaping.rs 51-55: `y_norm` -/
def snsNorm (y : List Int) : α :=
  sqrt (y.foldl (fun acc x => acc + ofInt x * ofInt x) zero)

/-- decoder/spectral_noise_shaping.rs 76-79: one row of the synthesis -/
def snsRow (y : List Int) (row : List Rat) : α :=
  (y.zip row).foldl (fun acc p => acc + ofInt p.1 * ofRat p.2) zero

/-- decoder/spectral_noise_shaping.rs 22-24, 57-82: the 16 scale factors -/
def snsScaleFactors (sns : SnsVq) : Res (List α) := do
  let lf ← idx LFCB sns.indLf
  let hf ← idx HFCB sns.indHf
  let y ← snsPulses sns
  let norm : α := snsNorm y
  let g ← snsGain sns
  let gain : α := if !(eq norm zero) then ofRat g / norm else ofRat g
  .ok (((lf ++ hf).zip D).map fun p => ofRat p.1 + gain * snsRow y p.2)

/-- decoder/spectral_noise_shaping.rs 89-96: the interpolated factors between `a` and `b` -/
def interp4 (a b : α) : List α :=
  let d := b - a
  [a + ofRat (1 / 8) * d, a + ofRat (3 / 8) * d, a + ofRat (5 / 8) * d, a + ofRat (7 / 8) * d]

/-- decoder/spectral_noise_shaping.rs 89-98: all factors after the first two; the argument is a
non-empty suffix of the scale factors, `prev` the one before it -/
def interpTail : α → List α → List α
  | prev, [last] =>
    [last + ofRat (1 / 8) * (last - prev), last + ofRat (3 / 8) * (last - prev)]
  | _, a :: b :: l => interp4 a b ++ interpTail a (b :: l)
  | _, [] => []

/-- decoder/spectral_noise_shaping.rs 84-98: 64 interpolated factors of 16 scale factors -/
def snsInterp (scf : List α) : List α :=
  match scf with
  | [] => []
  | a :: l => a :: a :: interpTail a (a :: l)

/-- decoder/spectral_noise_shaping.rs 100-111: reduction to `nb` factors. The two loops only
read entries that no earlier iteration has written (entry `i` reads `2 i`, `2 i + 1` or `i + n2`, all at or after `i`),
so the result is computed from the original factors. -/
def snsReduce (nb : Nat) (f : List α) : Res (List α) := do
  let n2 ← usub 64 nb
  if n2 ≠ 0 then do
    let a ← (List.range n2).mapM fun i => do
      let x ← idx f (2 * i)
      let y ← idx f (2 * i + 1)
      .ok ((x + y) / ofRat 2)
    let b ← (List.range (nb - n2)).mapM fun i => idx f (i + n2 + n2)
    .ok (a ++ b)
  else .ok f

/-- decoder/spectral_noise_shaping.rs 147-149: `spec_lines[a..b]` is multiplied by `g` -/
def scaleRange (lines : List α) (a b : Nat) (g : α) : Res (List α) :=
  if a ≤ b ∧ b ≤ lines.length then
    .ok (lines.take a ++ ((lines.take b).drop a).map (· * g) ++ lines.drop b)
  else .panic

/-- decoder/spectral_noise_shaping.rs 145-150: the loop over the bands `b`, `b + 1`, .. -/
def shapeLoop (tab : List Nat) : Nat → List α → List α → Res (List α)
  | _, [], lines => .ok lines
  | b, g :: gs, lines => do
    let i0 ← idx tab b
    let i1 ← idx tab (b + 1)
    let lines ← scaleRange lines i0 i1 g
    shapeLoop tab (b + 1) gs lines

/-- decoder/spectral_noise_shaping.rs 113-123: the gains of the bands -/
def snsGains (nb : Nat) (sns : SnsVq) : Res (List α) := do
  let scf ← snsScaleFactors sns
  let f ← snsReduce nb (snsInterp scf)
  .ok ((f.take nb).map exp2Raw)

/-- decoder/spectral_noise_shaping.rs 21-151 (`decode`) -/
def snsDecode (cfg : Lc3Config) (sns : SnsVq) (lines : List α) : Res (List α) := do
  let g ← snsGains cfg.nb sns
  let tab ← bandTable cfg.nMs cfg.fsInd
  shapeLoop tab 0 g lines

end Lc3
