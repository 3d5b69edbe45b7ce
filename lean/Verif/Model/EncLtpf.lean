import Verif.Basic
import Verif.Model.Scalar
import Verif.Model.Config
import Verif.Model.LtpfDec
import Verif.Model.EncResidual
import Verif.Model.EncDetect
import Verif.Model.Decoder
import Verif.Tables.LtpfFloat
/-!
# Encoder: long term post filter

Model of encoder/long_term_post_filter.rs. Simplifications: `t_nbits` is computed exactly (`ltpfTNbits`); sums start at
`0.0`; the `i32`, `i16` and `i8` computations of indices are not checked for overflow here (the indices they produce are); `LtpfMachine` has
them with the checks, and C112 proves that both give the same.
-/

namespace Lc3
open Scalar Tables

/-- encoder/long_term_post_filter.rs 18 -/
def NMEM_12P8D : Nat := 232
/-- encoder/long_term_post_filter.rs 19 -/
def K_MIN : Nat := 17
/-- encoder/long_term_post_filter.rs 20 -/
def K_MAX : Nat := 114

/-- `len12p8`, `len6p4`, `delay_ltpf`: encoder/long_term_post_filter.rs 98-101 -/
def len12p8Of : FrameDuration → Nat
  | .tenMs => 128
  | .sevenPointFiveMs => 96

def len6p4Of : FrameDuration → Nat
  | .tenMs => 64
  | .sevenPointFiveMs => 48

def delayLtpfOf : FrameDuration → Nat
  | .tenMs => 24
  | .sevenPointFiveMs => 44

/-- `upsampling_factor`, encoder/long_term_post_filter.rs 103-111 (0 stands for `unreachable!()`) -/
def upFactorOf (fs : Nat) : Nat :=
  if fs = 8000 then 24 else if fs = 16000 then 12 else if fs = 24000 then 8 else if fs = 32000 then 6
  else if fs = 44100 then 4 else if fs = 48000 then 4 else 0

/-- `resampling_factor` -/
def resampFactorOf (fs : Nat) : Rat := if fs = 8000 then 1 / 2 else 1

/-- `x_s_extended_length` -/
def xsExtLen (cfg : Lc3Config) : Nat :=
  (if cfg.fs = 8000 then 10 else if cfg.fs = 16000 then 20 else if cfg.fs = 24000 then 30 else if cfg.fs = 32000 then 40
    else 60) + cfg.nf

/-- `x_tilde_12p8d_extended_length`, encoder/long_term_post_filter.rs 114 -/
def xtExtLen (cfg : Lc3Config) : Nat := len12p8Of cfg.nMs + delayLtpfOf cfg.nMs + NMEM_12P8D

/-- `x_6p4_extended_length`, encoder/long_term_post_filter.rs 116 -/
def x6ExtLen : Nat := 64 + K_MAX

/-- encoder/long_term_post_filter.rs 131-137 (`calc_working_buffer_length`): integer and scaler lengths -/
def encLtpfBufLens (cfg : Lc3Config) : Nat × Nat := (xsExtLen cfg, xtExtLen cfg + x6ExtLen)

/-- the mutable part of encoder/long_term_post_filter.rs 22-42 -/
structure EncLtpf (α : Type) where
  tPrev : Nat
  memPitch : α
  memActive : Bool
  memNc : α
  memMemNc : α
  xs : List Int
  xt : List α
  x6 : List α
  h1 : α
  h2 : α

/-- encoder/long_term_post_filter.rs 44-49 -/
structure EncLtpfResult where
  pitchIndex : Nat
  pitchPresent : Bool
  ltpfActive : Bool
  nbitsLtpf : Nat
  deriving Repr, DecidableEq

variable {α : Type} [Scalar α]

/-- encoder/long_term_post_filter.rs 63-95 (`new`): the filter and the rests of the buffers -/
def EncLtpf.new (cfg : Lc3Config) (sb : List α) (ib : List Int) : Res (EncLtpf α × List α × List Int) := do
  let (xs, ib) ← splitAt ib (xsExtLen cfg)
  let (xt, sb) ← splitAt sb (xtExtLen cfg)
  let (x6, sb) ← splitAt sb x6ExtLen
  .ok (⟨K_MIN, zero, false, zero, zero, xs, xt, x6, zero, zero⟩, sb, ib)

/-- `&l[a..b]` -/
def sliceR {β : Type} (l : List β) (a b : Nat) : Res (List β) :=
  if a ≤ b ∧ b ≤ l.length then .ok ((l.take b).drop a) else .panic

/-- `l.copy_within(a.., 0)` -/
def shiftDown {β : Type} (l : List β) (a : Nat) : Res (List β) :=
  if a ≤ l.length then .ok (l.drop a ++ l.drop (l.length - a)) else .panic

/-- encoder/long_term_post_filter.rs 217-229 (`shift_out_old_samples`) -/
def ltpfShift (cfg : Lc3Config) (s : EncLtpf α) (x : List Int) : Res (EncLtpf α) := do
  let num := 240 / upFactorOf cfg.fs
  let start ← usub s.xs.length num
  let xs ← shiftDown s.xs start
  if num ≤ xs.length ∧ x.length = xs.length - num then do
    let xt ← shiftDown s.xt (len12p8Of cfg.nMs)
    let x6 ← shiftDown s.x6 (len6p4Of cfg.nMs)
    .ok { s with xs := xs.take num ++ x, xt := xt, x6 := x6 }
  else .panic

/-- encoder/long_term_post_filter.rs 155-163: the terms of one output sample; `cnt` values of `k` from `k` on -/
def resampleSum (xs : List Int) (p n : Nat) : Nat → Int → α → Res α
  | 0, _, acc => .ok acc
  | cnt + 1, k, acc => do
    let indexXs : Int := (15 * n / p : Nat) + k - (120 / p : Nat)
    let indexH : Int := p * k - (15 * n % p : Nat)
    let acc ← (if -120 < indexH ∧ indexH < 120 then do
        let v ← idx xs (i32AsUsize ((240 / p : Nat) + indexXs))
        let h ← idx TAB_RESAMP_FILTER (i32AsUsize (119 + indexH))
        .ok (acc + ofInt v * ofRat h)
      else .ok acc)
    resampleSum xs p n cnt (k + 1) acc

/-- encoder/long_term_post_filter.rs 153-166: the resampled samples `n ..` -/
def resampleAll (cfg : Lc3Config) (xs : List Int) : Nat → Nat → Res (List α)
  | _, 0 => .ok []
  | n, cnt + 1 => do
    let p := upFactorOf cfg.fs
    let s ← resampleSum xs p n (2 * (120 / p) + 1) (-((120 / p : Nat) : Int)) zero
    let r ← resampleAll cfg xs (n + 1) cnt
    .ok (s * (ofInt p * ofRat (resampFactorOf cfg.fs)) :: r)

/-- encoder/long_term_post_filter.rs 169-177: the 50 Hz high pass; the state is (`h50_minus1`, `h50_minus2`) -/
def highPass50 : List α → α → α → List α × α × α
  | [], h1, h2 => ([], h1, h2)
  | x :: xs, h1, h2 =>
    let h := x - ofRat (-19652933726226904 / 10000000000000000) * h1 - ofRat (9658854605688177 / 10000000000000000) * h2
    let y := ofRat (9827947082978771 / 10000000000000000) * h + ofRat (-1965589416595754 / 1000000000000000) * h1
      + ofRat (9827947082978771 / 10000000000000000) * h2
    let (ys, h1', h2') := highPass50 xs h h1
    (y :: ys, h1', h2')

/-- encoder/long_term_post_filter.rs 233-245: down sampling by windows of 5 samples and steps of 2; as many results as the list
has windows, at most `cnt` -/
def downsample2 : Nat → List α → List α
  | 0, _ => []
  | cnt + 1, s0 :: s1 :: s2 :: s3 :: s4 :: r =>
    (ofRat (1236796411180537 / 10000000000000000) * s0 + ofRat (2353512128364889 / 10000000000000000) * s1
      + ofRat (2819382920909148 / 10000000000000000) * s2 + ofRat (2353512128364889 / 10000000000000000) * s3
      + ofRat (1236796411180537 / 10000000000000000) * s4) :: downsample2 cnt (s2 :: s3 :: s4 :: r)
  | _ + 1, _ => []

/-- sum of products of two lists -/
def dotS (a b : List α) : α := (a.zip b).foldl (fun s p => s + p.1 * p.2) zero

/-- encoder/long_term_post_filter.rs 247-257: autocorrelation of the lags `K_MIN + k ..` -/
def autocorr (x6 : List α) (len : Nat) : Nat → Nat → Res (List α)
  | _, 0 => .ok []
  | k, cnt + 1 => do
    let a ← sliceR x6 K_MAX (K_MAX + len)
    let from_ ← usub K_MAX (K_MIN + k)
    let b ← sliceR x6 from_ (from_ + len)
    let r ← autocorr x6 len (k + 1) cnt
    .ok (dotS a b :: r)

/-- encoder/long_term_post_filter.rs 258-259: the weighted autocorrelation -/
def weightCorr : Nat → List α → List α
  | _, [] => []
  | k, r :: rs => ((one - ofRat (1 / 2) * ofInt k / ofInt ((K_MAX - K_MIN : Nat) : Int)) * r) :: weightCorr (k + 1) rs

/-- encoder/long_term_post_filter.rs 427-443 (`index_of_max_value`): scan from index `n` -/
def indexOfMaxFrom : List α → Nat → Nat → α → Nat
  | [], _, index, _ => index
  | v :: vs, n, index, m => if lt m v then indexOfMaxFrom vs (n + 1) n v else indexOfMaxFrom vs (n + 1) index m

def indexOfMax : List α → Nat
  | [] => 0
  | v :: vs => indexOfMaxFrom (v :: vs) 0 0 v

/-- encoder/long_term_post_filter.rs 445-455 (`compute_normalized_value`) -/
def normValue (x6 : List α) (len lag : Nat) : Res α := do
  let from_ ← usub K_MAX lag
  let a ← sliceR x6 from_ (from_ + len)
  .ok (a.foldl (fun s x => s + x * x) zero)

/-- encoder/long_term_post_filter.rs 232-290 (`pitch_detection`): lag, `pitch_present` and the new `x_6p4_extended` -/
def pitchDetection (cfg : Lc3Config) (tPrev : Nat) (xt x6 : List α) : Res (Nat × Bool × List α) := do
  let len := len6p4Of cfg.nMs
  let src ← sliceR xt (NMEM_12P8D - 3) xt.length
  let _ ← sliceR x6 K_MAX (K_MAX + len)
  let d := downsample2 len src
  let x6 := x6.take K_MAX ++ d ++ x6.drop (K_MAX + d.length)
  let r ← autocorr x6 len 0 (K_MAX + 1 - K_MIN)
  let lag1 := indexOfMax (weightCorr 0 r) + K_MIN
  let t4 ← usub tPrev 4
  let kFrom ← usub (Max.max K_MIN t4) K_MIN
  let kTo0 ← usub (Min.min K_MAX (tPrev + 4)) K_MIN
  let kTo := kTo0 + 1
  let part ← sliceR r kFrom kTo
  let lag2 := indexOfMax part + kFrom + K_MIN
  let n0 ← normValue x6 len 0
  let n1 ← normValue x6 len lag1
  let i1 ← usub lag1 K_MIN
  let r1 ← idx r i1
  let corr1 := maxS zero (r1 / sqrt (n0 * n1))
  let corr2 ← (if lag1 = lag2 then Res.ok corr1 else do
    let n2 ← normValue x6 len lag2
    let i2 ← usub lag2 K_MIN
    let r2 ← idx r i2
    .ok (maxS zero (r2 / sqrt (n0 * n2))))
  if lt (ofRat (85 / 100) * corr1) corr2 then .ok (lag2, lt (ofRat (6 / 10)) corr2, x6)
  else .ok (lag1, lt (ofRat (6 / 10)) corr1, x6)

/-- encoder/long_term_post_filter.rs 298-316: the correlations of `cnt` lags from `k` on, and the best lag. State:
`max_correlation_val`, `pitch_int`. -/
def lagSearch (xt : List α) (len kMin kMax : Nat) : Nat → Nat → α → Nat → Res (List α × Nat)
  | _, 0, _, best => .ok ([], best)
  | k, cnt + 1, m, best => do
    let a ← sliceR xt NMEM_12P8D (NMEM_12P8D + len)
    let from_ ← usub NMEM_12P8D k
    let to_ ← usub (NMEM_12P8D + len) k
    let b ← sliceR xt from_ to_
    let c := dotS a b
    let better := lt m c && decide (kMin ≤ k) && decide (k ≤ kMax)
    let (r, best) ← lagSearch xt len kMin kMax (k + 1) cnt (if better then c else m) (if better then k else best)
    .ok (c :: r, best)

/-- encoder/long_term_post_filter.rs 457-469 (`interpolate`): `cnt` values of `m` from `m` on -/
def interpolateR (r : List α) (rel : Nat) (d : Int) : Nat → Int → α → Res α
  | 0, _, acc => .ok acc
  | cnt + 1, m, acc => do
    let n := 4 * m - d
    let acc ← (if -16 < n ∧ n < 16 then do
        let h ← idx TAB_LTPF_INTERP_R (i32AsUsize (n + 15))
        let v ← idx r (i32AsUsize ((rel : Int) + m))
        .ok (acc + v * ofRat h)
      else .ok acc)
    interpolateR r rel d cnt (m + 1) acc

/-- encoder/long_term_post_filter.rs 319-347: the best of the fractions in a list -/
def bestFraction (r : List α) (rel : Nat) : List Int → α → Int → Res Int
  | [], _, fr => .ok fr
  | d :: ds, m, fr => do
    let v ← interpolateR r rel d 9 (-4) zero
    if lt m v then bestFraction r rel ds v d else bestFraction r rel ds m fr

/-- encoder/long_term_post_filter.rs 320-347: the fractions that are tried -/
def fractionsOf (pitchInt : Nat) : List Int :=
  if pitchInt = 32 then [0, 1, 2, 3]
  else if pitchInt < 127 ∧ pitchInt > 32 then [-3, -2, -1, 0, 1, 2, 3]
  else if 127 ≤ pitchInt ∧ pitchInt < 157 then [-2, 0, 2]
  else []

/-- encoder/long_term_post_filter.rs 354-360: the pitch index -/
def pitchIndexOf (pitchInt : Nat) (fr : Int) : Nat :=
  if pitchInt < 127 then i32AsUsize (4 * pitchInt + fr - 128)
  else if 127 ≤ pitchInt ∧ pitchInt < 157 then i32AsUsize (2 * pitchInt + Int.tdiv fr 2 - 126)
  else pitchInt + 283

/-- encoder/long_term_post_filter.rs 292-363 (`pitch_lag_parameter`): index, integer part, fraction -/
def pitchLagParameter (cfg : Lc3Config) (xt : List α) (t : Nat) : Res (Nat × Nat × Int) := do
  let t4 ← usub (2 * t) 4
  let kMin := Max.max 32 t4
  let kMax := Min.min 228 (2 * t + 4)
  let k0 ← usub kMin 4
  let cnt0 ← usub (kMax + 4) k0
  let cnt := cnt0 + 1
  if cnt > 228 + 4 + 1 then .panic
  else do
    let (r, pitchInt) ← lagSearch xt (len12p8Of cfg.nMs) kMin kMax k0 cnt zero kMin
    let rel ← usub pitchInt k0
    let fr ← bestFraction r rel (fractionsOf pitchInt) zero 0
    let (pitchInt, fr) ← (if fr < 0 then do
        let p ← usub pitchInt 1
        .ok (p, fr + 4)
      else .ok (pitchInt, fr))
    .ok (pitchIndexOf pitchInt fr, pitchInt, fr)

/-- encoder/long_term_post_filter.rs 412-424 (`dot_product`): `cnt` values of `k` from `k` on -/
def interpX (xt : List α) (n d : Int) : Nat → Int → α → Res α
  | 0, _, acc => .ok acc
  | cnt + 1, k, acc => do
    let h := 4 * k - d
    let acc ← (if -8 < h ∧ h < 8 then do
        let v ← idx xt (i32AsUsize ((NMEM_12P8D : Int) + n - k))
        let c ← idx TAB_LTPF_INTERP_X12K8 (i32AsUsize (h + 7))
        .ok (acc + v * ofRat c)
      else .ok acc)
    interpX xt n d cnt (k + 1) acc

/-- encoder/long_term_post_filter.rs 376-382: the loop over `n`: `nc_numerator`, `no_delay_total`, `shifted_total` -/
def activationSums (xt : List α) (pitchInt : Nat) (fr : Int) : Nat → Nat → α × α × α → Res (α × α × α)
  | _, 0, s => .ok s
  | n, cnt + 1, (num, t0, t1) => do
    let a ← interpX xt n 0 5 (-2) zero
    let b ← interpX xt ((n : Int) - pitchInt) fr 5 (-2) zero
    activationSums xt pitchInt fr (n + 1) cnt (num + a * b, t0 + a * a, t1 + b * b)

/-- encoder/long_term_post_filter.rs 365-409 (`activation_bit`): active, `nc`, `pitch` -/
def activationBit (cfg : Lc3Config) (s : EncLtpf α) (pitchInt : Nat) (fr : Int) (nearNyquist gainOn : Bool) :
    Res (Bool × α × α) := do
  let (num, t0, t1) ← activationSums s.xt pitchInt fr 0 (len12p8Of cfg.nMs) (zero, zero, zero)
  let den := sqrt (t0 * t1)
  let nc := if lt zero den then num / den else zero
  let pitch := ofInt pitchInt + ofInt fr / ofRat 4
  let active := if gainOn && !nearNyquist then
      (!s.memActive && (decide (cfg.nMs = .tenMs) || lt (ofRat (94 / 100)) s.memMemNc) && lt (ofRat (94 / 100)) s.memNc
          && lt (ofRat (94 / 100)) nc)
        || (s.memActive && lt (ofRat (9 / 10)) nc)
        || (s.memActive && lt (absS (pitch - s.memPitch)) (ofRat 2) && lt (ofRat (-1 / 10)) (nc - s.memNc)
          && lt (ofRat (84 / 100)) nc)
    else false
  .ok (active, nc, pitch)

/-- encoder/long_term_post_filter.rs 139-215 (`run`) -/
def EncLtpf.run (cfg : Lc3Config) (s : EncLtpf α) (x : List Int) (nearNyquist : Bool) (nbits : Nat) :
    Res (EncLtpf α × EncLtpfResult) :=
  if x.length ≠ cfg.nf then .panic
  else do
    let gainOn := decide (ltpfTNbits cfg.nMs nbits < 560 + cfg.fsInd * 80)
    let s ← ltpfShift cfg s x
    let len := len12p8Of cfg.nMs
    let start := delayLtpfOf cfg.nMs + NMEM_12P8D
    let _ ← sliceR s.xt start (start + len)
    let y ← resampleAll cfg s.xs 0 len
    let (y, h1, h2) := highPass50 y s.h1 s.h2
    let s := { s with xt := s.xt.take start ++ y ++ s.xt.drop (start + len), h1 := h1, h2 := h2 }
    let (t, present, x6) ← pitchDetection cfg s.tPrev s.xt s.x6
    let s := { s with x6 := x6 }
    let (index, pitchInt, fr) ← pitchLagParameter cfg s.xt t
    let (active, nc, pitch) ← activationBit cfg s pitchInt fr nearNyquist gainOn
    let s := { s with
      tPrev := t
      memMemNc := s.memNc
      memPitch := if present then pitch else zero
      memActive := if present then active else false
      memNc := if present then nc else zero }
    .ok (s, ⟨if present then index else 0, present, active, if present then 11 else 1⟩)

end Lc3
