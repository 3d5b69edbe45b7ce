import Verif.Basic
import Verif.Model.Config
import Verif.Model.Scalar
/-!
# Decoder: operations on the spectral lines

Models of decoder/residual_spectrum.rs, decoder/noise_filling.rs, decoder/global_gain.rs and
decoder/temporal_noise_shaping.rs.
-/

namespace Lc3
open Scalar

variable {α : Type} [Scalar α]

/-- decoder/residual_spectrum.rs 19-35: one line and one bit -/
def refineLine (bit : Bool) (x : α) : α :=
  if bit then
    if pos x then x + ofRat (3125 / 10000) else x + ofRat (1875 / 10000)
  else
    if pos x then x - ofRat (1875 / 10000) else x - ofRat (3125 / 10000)

/-- decoder/residual_spectrum.rs 17-37: the loop over the lines -/
def residualLoop : List Bool → List α → List α
  | _, [] => []
  | bits, x :: xs =>
    if !(eq x zero) then
      match bits with
      | [] => x :: xs
      | b :: bs => refineLine b x :: residualLoop bs xs
    else x :: residualLoop bits xs

/-- decoder/residual_spectrum.rs 13-39 (`decode`) -/
def residualDecode (lsbMode : Bool) (bits : List Bool) (lines : List α) : List α :=
  if !lsbMode then residualLoop bits lines else lines

/-- decoder/noise_filling.rs 28-29 -/
def bwStopTable : FrameDuration → List Nat
  | .sevenPointFiveMs => [60, 120, 180, 240, 300]
  | .tenMs => [80, 160, 240, 320, 400]

/-- `nf_start`, decoder/noise_filling.rs 32-33 -/
def nfStart : FrameDuration → Nat
  | .sevenPointFiveMs => 18
  | .tenMs => 24

/-- `nf_width`, decoder/noise_filling.rs 32-33 -/
def nfWidth : FrameDuration → Nat
  | .sevenPointFiveMs => 2
  | .tenMs => 3

/-- decoder/noise_filling.rs 51: the pseudo random generator, an `i32` computation (with overflow check) -/
def noiseNext (s : Nat) : Res Nat :=
  if 2 ^ 31 ≤ 13849 + s * 31821 then .panic else .ok ((13849 + s * 31821) &&& 0xFFFF)

/-- decoder/noise_filling.rs 40-54: the loop over the lines `k`; lines before `start` and from `stop` on are not
visited. `seed` is `noise_fill`. -/
def noiseFillLoop (stop start width : Nat) (level : α) (ints : List Int) : Nat → Nat → List α → Res (List α)
  | _, _, [] => .ok []
  | k, seed, x :: xs =>
    if k < start ∨ stop ≤ k then do
      let l ← noiseFillLoop stop start width level ints (k + 1) seed xs
      .ok (x :: l)
    else do
      let lo ← usub k width
      let s1 ← usub stop 1
      let hi := min s1 (k + width)
      if ints.length ≤ hi then .panic
      else if ((ints.drop lo).take (hi + 1 - lo)).all (· == 0) then do
        let seed ← noiseNext seed
        let l ← noiseFillLoop stop start width level ints (k + 1) seed xs
        .ok ((if seed < 0x8000 then level else -level) :: l)
      else do
        let l ← noiseFillLoop stop start width level ints (k + 1) seed xs
        .ok (x :: l)

/-- decoder/noise_filling.rs 18-56 (`apply_noise_filling`) -/
def noiseFilling (isZeroFrame : Bool) (seed bandwidth : Nat) (d : FrameDuration) (noiseFactor : Nat)
    (ints : List Int) (lines : List α) : Res (List α) :=
  if !isZeroFrame then do
    let stop ← idx (bwStopTable d) bandwidth
    let level : α := (ofRat 8 - ofRat noiseFactor) / ofRat 16
    noiseFillLoop stop (nfStart d) (nfWidth d) level ints 0 seed lines
  else .ok lines

/-- `as i32` of an unsigned 64 bit value -/
def toI32Wrap (n : Nat) : Int :=
  let m : Nat := n % 2 ^ 32
  if m < 2 ^ 31 then (m : Int) else (m : Int) - 2 ^ 32

/-- `gg_off`, decoder/global_gain.rs 16-18. Rust integer division truncates towards zero. -/
def ggOffDec (frameNumBits fsInd : Nat) : Int :=
  let fs : Int := fsInd + 1
  let nbits := toI32Wrap frameNumBits;
  -(min (Int.tdiv nbits (10 * fs)) 115) - 105 - 5 * fs

/-- decoder/global_gain.rs 19-20: the gain factor -/
def globalGainFactor (frameNumBits fsInd ggInd : Nat) : α :=
  pow10 ((ofRat (ggInd : Rat) + ofInt (ggOffDec frameNumBits fsInd)) / ofRat 28)

/-- decoder/global_gain.rs 15-25 (`apply_global_gain`) -/
def globalGain (frameNumBits fsInd ggInd : Nat) (lines : List α) : List α :=
  lines.map (· * globalGainFactor frameNumBits fsInd ggInd)

/-- decoder/temporal_noise_shaping.rs 83-138 (`split_into_frequency_bands`) -/
def tnsBandsDec : FrameDuration → Nat → List (Nat × Nat)
  | .tenMs, 0 => [(12, 80)]
  | .tenMs, 1 => [(12, 160)]
  | .tenMs, 2 => [(12, 240)]
  | .tenMs, 3 => [(12, 160), (160, 320)]
  | .tenMs, _ => [(12, 200), (200, 400)]
  | .sevenPointFiveMs, 0 => [(9, 60)]
  | .sevenPointFiveMs, 1 => [(9, 120)]
  | .sevenPointFiveMs, 2 => [(9, 180)]
  | .sevenPointFiveMs, 3 => [(9, 120), (120, 240)]
  | .sevenPointFiveMs, _ => [(9, 150), (150, 300)]

/-- decoder/temporal_noise_shaping.rs 42-46: one entry of `rc_quant` -/
def rcQuantOf (i : Nat) : α :=
  if i ≠ 0 then sin (piOver17 * ofInt ((i : Int) - 8)) else zero

/-- decoder/temporal_noise_shaping.rs 38-46: `rc_quant` (16 entries) -/
def rcQuant (ints : List Nat) : List α :=
  ((ints.take 16).map rcQuantOf) ++ List.replicate (16 - ints.length) zero

/-- decoder/temporal_noise_shaping.rs 63-67: the inner loop, `k` counts down -/
def latticeLoop (rc : List α) (off : Nat) : Nat → α → List α → Res (α × List α)
  | 0, t, st => .ok (t, st)
  | k + 1, t, st => do
    let r ← idx rc (k + off)
    let s ← idx st k
    let t := t - r * s
    let st ← setIdx st (k + 1) (r * t + s)
    latticeLoop rc off k t st

/-- decoder/temporal_noise_shaping.rs 61-70: one spectral line; `order > 0` -/
def latticeLine (rc : List α) (off order : Nat) (x : α) (st : List α) : Res (α × List α) := do
  let r ← idx rc (order - 1 + off)
  let s ← idx st (order - 1)
  let (t, st) ← latticeLoop rc off (order - 1) (x - r * s) st
  let st ← setIdx st 0 t
  .ok (t, st)

/-- decoder/temporal_noise_shaping.rs 60-71: all lines of a band -/
def latticeBand (rc : List α) (off order : Nat) : List α → List α → Res (List α × List α)
  | [], st => .ok ([], st)
  | x :: xs, st => do
    let (t, st) ← latticeLine rc off order x st
    let (l, st) ← latticeBand rc off order xs st
    .ok (t :: l, st)

/-- decoder/temporal_noise_shaping.rs 51-73: the loop over bands `f`, `f + 1`, .. and their orders; the state of the
lattice is carried from one band to the next as in the code -/
def tnsLoop (rc : List α) : Nat → List (Nat × Nat) → List Nat → List α → List α → Res (List α)
  | f, (a, b) :: bands, o :: orders, lines, st =>
    if o > 0 then do
      let (l, st) ← latticeBand rc (f * 8) o ((lines.take b).drop a) st
      tnsLoop rc (f + 1) bands orders (lines.take a ++ l ++ lines.drop b) st
    else tnsLoop rc (f + 1) bands orders lines st
  | _, _, _, lines, _ => .ok lines

/-- decoder/temporal_noise_shaping.rs 24-74 (`apply_temporal_noise_shaping`). The slicing into bands panics when the
spectrum is too short, `reflect_coef_order[..num]` when there are too few orders. -/
def tnsDecode (d : FrameDuration) (bandwidth numFilters : Nat) (orders ints : List Nat) (lines : List α) :
    Res (List α) :=
  let bands := tnsBandsDec d bandwidth
  if bands.any (fun p => lines.length < p.2) then .panic
  else if orders.length < numFilters then .panic
  else tnsLoop (rcQuant ints) 0 bands (orders.take numFilters) lines (List.replicate 8 zero)

end Lc3
