import Verif.Model.EncDetect
import Verif.Model.SnsDec
import Verif.Model.SnsPack
/-!
# Encoder: spectral noise shaping

Model of encoder/spectral_noise_shaping.rs. Simplifications: reads at constant indices of arrays of fixed size (always in
range) are written `at0`; a sum of scalars starts at `0.0`; counters of type `usize` that only grow by non-negative
`i32` values are unbounded.
-/

namespace Lc3
open Scalar Tables

/-- result of an `i32` operation with the overflow check -/
def i32Chk (x : Int) : Res Int := if -2147483648 ≤ x ∧ x ≤ 2147483647 then .ok x else .panic

/-- result of an `i8` operation with the overflow check -/
def i8Chk (x : Int) : Res Int := if -128 ≤ x ∧ x ≤ 127 then .ok x else .panic

/-- result of a `usize` operation with the overflow check -/
def usizeChk (x : Nat) : Res Nat := if x < 18446744073709551616 then .ok x else .panic

/-- `x as i8` -/
def toI8Wrap (x : Int) : Int := (x + 128) % 256 - 128

/-! ## Enumeration of pulse vectors -/

/-- the sentinel `i32::MIN` -/
def signSentinel : Int := -2147483648

/-- encoder/spectral_noise_shaping.rs 614-627 (`enc_push_sign`): index and sign index. The sign bit of an `i32` is set iff
it is negative. -/
def encPushSign (val next : Int) (index : Nat) : Nat × Int :=
  (if 0 ≤ next ∧ val ≠ 0 then 2 * index + next.toNat else index,
   if val < 0 then 1 else if 0 < val then 0 else next)

/-- the variables of the loop of encoder/spectral_noise_shaping.rs 585-612 -/
structure EnumSt where
  index : Nat
  next : Int
  kAcc : Int
  n : Nat
  hRow : Nat
  deriving Repr, DecidableEq

/-- encoder/spectral_noise_shaping.rs 595-608: one position; `last` is `pos == 0` -/
def enumStep (last : Bool) (s : EnumSt) (v : Int) : Res EnumSt := do
  let val := toI8Wrap v
  let (index, next) := encPushSign val s.next s.index
  let index := index + s.hRow
  let a ← (if val < 0 then i8Chk (-val) else .ok val)
  let kAcc ← i8Chk (s.kAcc + a)
  let n := if last then s.n else s.n + 1
  let hRow ← (if kAcc ≥ 11 then do
      let row ← idx MPVQ_OFFSETS (n + 1)
      idx row (i32AsUsize (Int.tmod kAcc 11))
    else do
      let row ← idx MPVQ_OFFSETS n
      idx row (i32AsUsize kAcc))
  .ok ⟨index, next, kAcc, n, hRow⟩

/-- encoder/spectral_noise_shaping.rs 594-609: the loop from the last position down to the first; the argument are the
entries from `pos` on -/
def enumLoop : Nat → List Int → Res EnumSt
  | _, [] => .ok ⟨0, signSentinel, 0, 0, (MPVQ_OFFSETS.getD 0 []).getD 0 0⟩
  | pos, v :: vs => do
    let s ← enumLoop (pos + 1) vs
    enumStep (pos == 0) s v

/-- encoder/spectral_noise_shaping.rs 585-612 (`mvpq_enum`): index and leading sign index. `dim_in` entries of `vec_in`
are used. -/
def mvpqEnum (dim : Nat) (v : List Int) : Res (Nat × Int) :=
  if v.length < dim then .panic
  else do
    let s ← enumLoop 0 (v.take dim)
    .ok (s.index, s.next)

/-- encoder/spectral_noise_shaping.rs 520-549: enumeration of the selected candidate: `index_joint_j`, `ls_inda`,
`ls_indb` -/
def snsEnumerate (shapeJ gind : Nat) (y0 y1 y2 y3 : List Int) : Res (Nat × Int × Int) :=
  let lsbGain := gind &&& 1
  match shapeJ with
  | 0 => do
    let (idxa, lsa) ← mvpqEnum 10 y0
    let (idxb, lsb) ← mvpqEnum 6 (y0.drop 10)
    let t ← usizeChk (2 * idxb + i32AsUsize lsb)
    let t ← usizeChk (t + 2)
    let t ← usizeChk (t * 2390004)
    let j ← usizeChk (t + idxa)
    .ok (j, lsa, lsb)
  | 1 => do
    let (idxa, lsa) ← mvpqEnum 10 y1
    .ok (lsbGain * 2390004 + idxa, lsa, 0)
  | 2 => do
    let (idxa, lsa) ← mvpqEnum 16 y2
    .ok (idxa, lsa, 0)
  | _ => do
    let (idxa, lsa) ← mvpqEnum 16 y3
    .ok (15158272 + lsbGain + 2 * idxa, lsa, 0)

variable {α : Type} [Scalar α]

/-- a read at a constant index of an array of fixed size -/
def at0 (l : List α) (i : Nat) : α := l.getD i zero

/-! ## Pulse search -/

/-- encoder/spectral_noise_shaping.rs 303-311: the scan over the positions from `n` on. State: `n_best`, `best_corr_sq`,
`best_en` and the output variables `corr_xy`, `energy_y`. -/
def pulseScan (corrLast enLast : α) : List α → List Int → Nat → Nat × α × α → α × α → Res (Nat × α × α)
  | x :: xs, c :: cs, n, (nb, sq, en), _ =>
    let corr := corrLast + x
    let e := enLast + ofRat 2 * ofInt c + one
    pulseScan corrLast enLast xs cs (n + 1)
      (if lt (sq * e) (corr * corr * en) then (n, corr * corr, e) else (nb, sq, en)) (corr, e)
  | [], _, _, (nb, _, _), (corr, e) => .ok (nb, corr, e)
  | _ :: _, [], _, _, _ => .panic

/-- encoder/spectral_noise_shaping.rs 285-316 (`add_unit_pulse`): `rounds` is `k_max - k`. The arguments after the
candidate are `corr_xy_last`, `energy_y_last`, `*corr_xy`, `*energy_y`; the latter two are returned (they hold the values of the
last position scanned, not those of the chosen one). -/
def addUnitPulse (absX : List α) (nMax : Nat) : Nat → List Int → α → α → α → α → Res (List Int × α × α)
  | 0, cand, _, _, corr, en => .ok (cand, corr, en)
  | r + 1, cand, corrLast, enLast, _, en => do
    let x0 ← idx absX 0
    let c0 ← idx cand 0
    let corr := corrLast + x0
    let (nb, corr, en) ← pulseScan corrLast enLast ((absX.take nMax).drop 1) (cand.drop 1) 1
      (0, corr * corr, enLast + ofRat 2 * ofInt c0 + one) (corr, en)
    let xb ← idx absX nb
    let cb ← idx cand nb
    let c ← i32Chk (cb + 1)
    let cand ← setIdx cand nb c
    addUnitPulse absX nMax r cand (corrLast + xb) (enLast + ofRat 2 * ofInt cb + one) corr en

/-- encoder/spectral_noise_shaping.rs 379-384: the rotated target -/
def snsRotate (r1 : List α) : List α :=
  (r1.zip D).foldl (fun t p => (t.zip p.2).map fun q => q.1 + p.1 * ofRat q.2) (List.replicate 16 zero)

/-- encoder/spectral_noise_shaping.rs 390-400: projection to the pyramid: the integer parts -/
def snsProject (kMax : Nat) (absX : List α) : List Int :=
  let absSum := absX.foldl (· + ·) zero
  let pf := (ofInt kMax - one) / absSum
  absX.map fun a => toI32 (floorS (a * pf))

/-- encoder/spectral_noise_shaping.rs 397-406: `k`, `corr_xy`, `energy_y` of the projection -/
def snsProjStats (y : List Int) (absX : List α) : Nat × α × α :=
  (y.zip absX).foldl (fun s p => if p.1 ≠ 0 then
    (s.1 + i32AsUsize p.1, s.2.1 + ofInt p.1 * p.2, s.2.2 + ofInt p.1 * ofInt p.1) else s) (0, zero, zero)

/-- encoder/spectral_noise_shaping.rs 424-432: removal of the pulses outside set A -/
def snsRemove : List Int → List α → Int → α → α → Res (Int × α × α)
  | y :: ys, a :: as, k, corr, en =>
    if y ≠ 0 then do
      let k ← i32Chk (k - y)
      snsRemove ys as k (corr - ofInt y * a) (en - ofInt y * ofInt y)
    else snsRemove ys as k corr en
  | _, _, k, corr, en => .ok (k, corr, en)

/-- encoder/spectral_noise_shaping.rs 441-451: the position of the pulse of set B: the first largest magnitude, 0 if none is
positive -/
def snsBestB : List α → Nat → Nat → α → Nat
  | [], _, best, _ => best
  | a :: as, n, best, m => if lt m a then snsBestB as (n + 1) n a else snsBestB as (n + 1) best m

/-- encoder/spectral_noise_shaping.rs 453-479: signs -/
def snsSigns (t : List α) (y : List Int) : List Int :=
  (t.zip y).map fun p => if lt p.1 zero then p.2 * (-1) else p.2

/-- the four candidates, encoder/spectral_noise_shaping.rs 386-479 -/
structure SnsCands where
  y0 : List Int
  y1 : List Int
  y2 : List Int
  y3 : List Int
  deriving Repr, DecidableEq

/-- encoder/spectral_noise_shaping.rs 386-451: the candidates before the signs are added -/
def snsSearch (absX : List α) : Res SnsCands := do
  let y3 := snsProject 6 absX
  let (k, corr, en) := snsProjStats y3 absX
  let (y3, corr, en) ← addUnitPulse absX 16 (6 - k) y3 corr en corr en
  let (y2, corr, en) ← addUnitPulse absX 16 (8 - 6) y3 corr en corr en
  let (k, corr, en) ← snsRemove (y2.drop 10) (absX.drop 10) 8 corr en
  let (y1, _, _) ← addUnitPulse absX 10 (10 - i32AsUsize k) (y2.take 10) corr en corr en
  let y0 ← setIdx (y1 ++ List.replicate 6 0) (snsBestB (absX.drop 10) 10 0 zero) 1
  .ok ⟨y0, y1, y2, y3⟩

/-- encoder/spectral_noise_shaping.rs 629-648 (`normalize_candidate`) -/
def snsNormalize (y : List Int) : List α :=
  let norm : α := sqrt (y.foldl (fun s v => if v ≠ 0 then s + ofInt v * ofInt v else s) zero)
  (y.map fun v => if v ≠ 0 then (ofInt v : α) / norm else ofInt v) ++ List.replicate (16 - y.length) zero

/-- the choice of shape and gain; `dmin` is `none` for the initial infinity -/
structure SnsChoice (α : Type) where
  shapeJ : Nat
  gind : Nat
  gain : α
  xq : List α
  dmin : Option α

/-- encoder/spectral_noise_shaping.rs 504-508: the distance -/
def snsDist (t xq : List α) (g : α) : α :=
  (xq.zip t).foldl (fun s p => let d := p.2 - g * p.1; s + d * d) zero

/-- encoder/spectral_noise_shaping.rs 503-517: the gains of one shape -/
def snsTryGains (t xq : List α) (j : Nat) : List Rat → Nat → SnsChoice α → SnsChoice α
  | [], _, s => s
  | g :: gs, i, s =>
    let d := snsDist t xq (ofRat g)
    let better := match s.dmin with
      | none => ltInf d
      | some m => lt d m
    snsTryGains t xq j gs (i + 1) (if better then ⟨j, i, ofRat g, xq, some d⟩ else s)

/-- encoder/spectral_noise_shaping.rs 487-518: shape and gain. The gain lists are cut to `g_maxind_j` entries, so the last
gain of every shape is never used. -/
def snsChoose (t : List α) (x0 x1 x2 x3 : List α) : SnsChoice α :=
  let s : SnsChoice α := ⟨0, 0, zero, x0, none⟩
  let s := snsTryGains t x0 0 (SNS_VQ_REG_ADJ_GAINS.take 1) 0 s
  let s := snsTryGains t x1 1 (SNS_VQ_REG_LF_ADJ_GAINS.take 3) 0 s
  let s := snsTryGains t x2 2 (SNS_VQ_NEAR_ADJ_GAINS.take 3) 0 s
  snsTryGains t x3 3 (SNS_VQ_FAR_ADJ_GAINS.take 7) 0 s

/-- encoder/spectral_noise_shaping.rs 33-39 with the quantised scale factors -/
structure SnsStage2 (α : Type) where
  shapeJ : Nat
  gind : Nat
  lsInda : Int
  lsIndb : Int
  indexJoint : Nat
  scfq : List α

/-- the candidates with signs -/
def snsCands (t : List α) : Res SnsCands := do
  let c ← snsSearch (t.map absS)
  .ok ⟨snsSigns t c.y0, snsSigns t c.y1, snsSigns t c.y2, snsSigns t c.y3⟩

/-- encoder/spectral_noise_shaping.rs 363-568 (`sns_quant_stage2`) -/
def snsStage2 (r1 st1 : List α) : Res (SnsStage2 α) := do
  let t := snsRotate r1
  let c ← snsCands t
  let s := snsChoose t (snsNormalize c.y0) (snsNormalize c.y1) (snsNormalize c.y2) (snsNormalize c.y3)
  let (joint, lsa, lsb) ← snsEnumerate s.shapeJ s.gind c.y0 c.y1 c.y2 c.y3
  .ok ⟨s.shapeJ, s.gind, lsa, lsb, joint,
    (st1.zip D).map fun p => p.1 + s.gain * (s.xq.zip p.2).foldl (fun f q => f + q.1 * ofRat q.2) zero⟩

/-! ## First stage -/

/-- the distance of encoder/spectral_noise_shaping.rs 334-338 -/
def snsDmse (x : List α) (code : List Rat) : α :=
  (x.zip code).foldl (fun s p => s + (p.1 - ofRat p.2) * (p.1 - ofRat p.2)) zero

/-- encoder/spectral_noise_shaping.rs 324-350: the first best entry of a code book; `none` is the initial infinity -/
def snsNearest (x : List α) : List (List Rat) → Nat → Nat → Option α → Nat
  | [], _, best, _ => best
  | c :: cs, i, best, m =>
    let d := snsDmse x c
    let better := match m with
      | none => ltInf d
      | some m => lt d m
    if better then snsNearest x cs (i + 1) i (some d) else snsNearest x cs (i + 1) best m

/-- encoder/spectral_noise_shaping.rs 318-361 (`sns_quant_stage1`): `ind_lf`, `ind_hf`, `st1`, `r1` -/
def snsStage1 (scf : List α) : Res (Nat × Nat × List α × List α) :=
  if scf.length ≠ 16 then .panic
  else do
    let lf := snsNearest (scf.take 8) LFCB 0 0 none
    let hf := snsNearest (scf.drop 8) HFCB 0 0 none
    let a ← idx LFCB lf
    let b ← idx HFCB hf
    let st1 : List α := (a ++ b).map ofRat
    .ok (lf, hf, st1, (scf.zip st1).map fun p => p.1 - p.2)

/-! ## Scale factors -/

/-- encoder/spectral_noise_shaping.rs 50-56 -/
def G_TILT : List Nat := [14, 18, 22, 26, 30]

/-- encoder/spectral_noise_shaping.rs 75-90 (`apply_padding_for_narrow_band`). For 60 bands the second loop writes behind the
end of the 64 entries. -/
def snsPad (nb : Nat) (input : List α) : Res (List α) := do
  let diff ← usub 64 nb
  if diff > 0 then
    if input.length < diff ∨ 64 < 2 * diff + nb ∨ input.length < diff + nb then .panic
    else .ok (((input.take diff).flatMap fun x => [x, x]) ++ (input.drop diff).take nb ++ List.replicate (64 - (2 * diff + nb)) zero)
  else if input.length = 64 then .ok input else .panic

/-- encoder/spectral_noise_shaping.rs 92-98 (`energy_band_smoothing`) -/
def snsSmooth (x : List α) : List α :=
  (ofRat (3 / 4) * at0 x 0 + ofRat (1 / 4) * at0 x 1) ::
    ((List.range 62).map fun i => ofRat (1 / 4) * at0 x i + ofRat (1 / 2) * at0 x (i + 1) + ofRat (1 / 4) * at0 x (i + 2)) ++
    [ofRat (1 / 4) * at0 x 62 + ofRat (3 / 4) * at0 x 63]

/-- encoder/spectral_noise_shaping.rs 58 -/
def WEIGHTING : List α :=
  [ofRat 1 / ofRat 12, ofRat 2 / ofRat 12, ofRat 3 / ofRat 12, ofRat 3 / ofRat 12, ofRat 2 / ofRat 12, ofRat 1 / ofRat 12]

/-- encoder/spectral_noise_shaping.rs 101-125 (`downsample`) -/
def snsDownsample (e : List α) : List α :=
  ((List.range 5).foldl (fun s k => s + at0 WEIGHTING (k + 1) * at0 e k) (at0 WEIGHTING 0 * at0 e 0)) ::
    ((List.range 14).map fun i => (WEIGHTING.zip (e.drop (4 * (i + 1) - 1))).foldl (fun s p => s + p.1 * p.2) zero) ++
    [(List.range 5).foldl (fun s k => s + at0 WEIGHTING k * at0 e (59 + k)) (at0 WEIGHTING 5 * at0 e 63)]

/-- a sum of scalars -/
def sumS (l : List α) : α := l.foldl (· + ·) zero

/-- encoder/spectral_noise_shaping.rs 127-133 (`mean_removal_and_scaling`) -/
def snsMeanRemoval (d : List α) : List α :=
  let avg := sumS d / ofInt d.length
  d.map fun x => ofRat (17 / 20) * (x - avg)

/-- encoder/spectral_noise_shaping.rs 135-161 (`attack_handling`) -/
def snsAttack (attack : Bool) (dur : FrameDuration) (x : List α) : List α :=
  if attack then
    let o : List α := [(at0 x 0 + at0 x 1 + at0 x 2) / ofRat 3, (at0 x 0 + at0 x 1 + at0 x 2 + at0 x 3) / ofRat 4] ++
      ((List.range 12).map fun n => sumS ((x.drop n).take 5) / ofRat 5) ++
      [(at0 x 12 + at0 x 13 + at0 x 14 + at0 x 15) / ofRat 4, (at0 x 13 + at0 x 14 + at0 x 15) / ofRat 3]
    let avg := sumS o / ofInt o.length
    let f : α := match dur with
      | .tenMs => ofRat (1 / 2)
      | .sevenPointFiveMs => ofRat (3 / 10)
    o.map fun y => f * (y - avg)
  else x

/-- encoder/spectral_noise_shaping.rs 185-201 (`reduce_scale_factors_for_narrow_band`). The second loop reads the constant index
`diff + 1`. -/
def snsReduceEnc (nb : Nat) (f : List α) : Res (List α) := do
  let diff ← usub 64 nb
  if diff > 0 then do
    let a ← (List.range diff).mapM fun i => do
      let x ← idx f (2 * i)
      let y ← idx f (2 * i + 1)
      .ok ((x + y) / ofRat 2)
    let c ← idx f (diff + 1)
    .ok (a ++ List.replicate (nb - diff) c ++ f.drop nb)
  else .ok f

/-- encoder/spectral_noise_shaping.rs 203-241: the 16 scale factors of the band energies -/
def snsTarget (cfg : Lc3Config) (eb : List α) (attack : Bool) : Res (List α) := do
  let tilt ← idx G_TILT cfg.fsInd
  let padded ← snsPad cfg.nb eb
  let ex : α := ofInt tilt / ofRat 630
  let e := (snsSmooth padded).zipIdx.map fun p => p.1 * pow10 (ofInt p.2 * ex)
  let floor := maxS (powi (ofRat 2) (-32)) (sumS e / ofRat 64 * powi (ofRat 10) (-4))
  let e := e.map fun x => log2 (ofRat (1 / 8388608) + maxS x floor) / ofRat 2
  .ok (snsAttack attack cfg.nMs (snsMeanRemoval (snsDownsample e)))

/-- encoder/spectral_noise_shaping.rs 19-27 with the shaped lines -/
structure SnsEncResult (α : Type) where
  indLf : Nat
  indHf : Nat
  shapeJ : Nat
  gind : Nat
  lsInda : Int
  lsIndb : Int
  indexJoint : Nat
  x : List α

/-- encoder/spectral_noise_shaping.rs 247-261: the factors of the bands -/
def snsEncFactors (nb : Nat) (scfq : List α) : Res (List α) := do
  let f ← snsReduceEnc nb (snsInterp scfq)
  .ok (f.map fun x => exp2 (-x))

/-- encoder/spectral_noise_shaping.rs 203-282 (`run`): the bands are scaled; `shapeLoop` of the decoder has the same loop. The number
of bands is the smaller one of the number of factors and of the table. -/
def snsEncRun (cfg : Lc3Config) (x eb : List α) (attack : Bool) : Res (SnsEncResult α) := do
  if x.length ≠ cfg.ne then .panic
  else do
    let scf ← snsTarget cfg eb attack
    let (lf, hf, st1, r1) ← snsStage1 scf
    let s2 ← snsStage2 r1 st1
    let f ← snsEncFactors cfg.nb s2.scfq
    let tab ← bandTable cfg.nMs cfg.fsInd
    let x ← shapeLoop tab 0 (f.take (tab.length - 1)) x
    .ok ⟨lf, hf, s2.shapeJ, s2.gind, s2.lsInda, s2.lsIndb, s2.indexJoint, x⟩

end Lc3
