import Verif.Model.EncLtpf
import Verif.Model.EncSns
import Verif.Model.EncQuant
/-!
# Encoder: long term post filter with the integer types of the code

The functions of `Model/EncLtpf.lean` that compute with `i8`, `i16` and `i32`, again, with every conversion and with the overflow check of every
operation, as in a build with overflow checks. C112 proves that they give the same.
-/

namespace Lc3
open Scalar Tables

/-- `n as i32` -/
def asI32 (n : Nat) : Int := ((n : Int) + 2147483648) % 4294967296 - 2147483648
/-- `n as i16` -/
def asI16 (n : Nat) : Int := ((n : Int) + 32768) % 65536 - 32768
/-- division of `i32`: panics when the divisor is zero -/
def divI32 (a b : Int) : Res Int := if b = 0 then .panic else i32Chk (Int.tdiv a b)
/-- remainder of `i32`: panics when the divisor is zero -/
def remI32 (a b : Int) : Res Int := if b = 0 then .panic else i32Chk (Int.tmod a b)

variable {α : Type} [Scalar α]

/-- encoder/long_term_post_filter.rs 155-163 -/
def resampleSumM (xs : List Int) (p : Int) (n : Nat) : Nat → Int → α → Res α
  | 0, _, acc => .ok acc
  | cnt + 1, k, acc => do
    let t ← i32Chk (15 * asI32 n)
    let q ← divI32 t p
    let a ← i32Chk (q + k)
    let c ← divI32 120 p
    let indexXs ← i32Chk (a - c)
    let b ← i32Chk (p * k)
    let r ← remI32 t p
    let indexH ← i32Chk (b - r)
    let acc ← (if -120 < indexH ∧ indexH < 120 then do
        let e ← divI32 240 p
        let i ← i32Chk (e + indexXs)
        let v ← idx xs (i32AsUsize i)
        let j ← i32Chk (119 + indexH)
        let h ← idx TAB_RESAMP_FILTER (i32AsUsize j)
        .ok (acc + ofInt v * ofRat h)
      else .ok acc)
    resampleSumM xs p n cnt (k + 1) acc

/-- encoder/long_term_post_filter.rs 150-166: with the range `(-120 / p as i32)..=(120 / p as i32)` -/
def resampleAllM (cfg : Lc3Config) (xs : List Int) : Nat → Nat → Res (List α)
  | _, 0 => .ok []
  | n, cnt + 1 => do
    let p := asI32 (upFactorOf cfg.fs)
    let lo ← divI32 (-120) p
    let hi ← divI32 120 p
    let s ← resampleSumM xs p n (hi - lo + 1).toNat lo zero
    let r ← resampleAllM cfg xs (n + 1) cnt
    .ok (s * (ofInt p * ofRat (resampFactorOf cfg.fs)) :: r)

/-- encoder/long_term_post_filter.rs 457-469 (`interpolate`): `m`, `d` and `n` are `i8` -/
def interpolateRM (r : List α) (rel : Nat) (d : Int) : Nat → Int → α → Res α
  | 0, _, acc => .ok acc
  | cnt + 1, m, acc => do
    let m4 ← i8Chk (4 * m)
    let n ← i8Chk (m4 - d)
    let acc ← (if -16 < n ∧ n < 16 then do
        let i ← i8Chk (n + 15)
        let h ← idx TAB_LTPF_INTERP_R (i32AsUsize i)
        let j ← i32Chk (asI32 rel + m)
        let v ← idx r (i32AsUsize j)
        .ok (acc + v * ofRat h)
      else .ok acc)
    interpolateRM r rel d cnt (m + 1) acc

/-- encoder/long_term_post_filter.rs 319-347 -/
def bestFractionM (r : List α) (rel : Nat) : List Int → α → Int → Res Int
  | [], _, fr => .ok fr
  | d :: ds, m, fr => do
    let v ← interpolateRM r rel d 9 (-4) zero
    if lt m v then bestFractionM r rel ds v d else bestFractionM r rel ds m fr

/-- encoder/long_term_post_filter.rs 354-360: `pitch_int as i32`, `pitch_fr as i32` -/
def pitchIndexOfM (pitchInt : Nat) (fr : Int) : Res Nat :=
  if pitchInt < 127 then do
    let a ← i32Chk (4 * asI32 pitchInt)
    let b ← i32Chk (a + fr)
    let c ← i32Chk (b - 128)
    .ok (i32AsUsize c)
  else if 127 ≤ pitchInt ∧ pitchInt < 157 then do
    let a ← i32Chk (2 * asI32 pitchInt)
    let h ← divI32 fr 2
    let b ← i32Chk (a + h)
    let c ← i32Chk (b - 126)
    .ok (i32AsUsize c)
  else .ok (pitchInt + 283)

/-- encoder/long_term_post_filter.rs 292-363 (`pitch_lag_parameter`): `pitch_fr` is an `i8` -/
def pitchLagParameterM (cfg : Lc3Config) (xt : List α) (t : Nat) : Res (Nat × Nat × Int) := do
  let t4 ← usub (2 * t) 4
  let kMin := Max.max 32 t4
  let kMax := Min.min 228 (2 * t + 4)
  let k0 ← usub kMin 4
  let cnt0 ← usub (kMax + 4) k0
  let cnt := cnt0 + 1
  if cnt > 228 + 4 + 1 then .panic
  else do
    let (r, pitchInt) ← lagSearch xt (len12p8Of cfg.nMs) kMin kMax k0 cnt zero kMin
    let rel ← usub pitchInt k0
    let fr ← bestFractionM r rel (fractionsOf pitchInt) zero 0
    let (pitchInt, fr) ← (if fr < 0 then do
        let p ← usub pitchInt 1
        let fr ← i8Chk (fr + 4)
        .ok (p, fr)
      else .ok (pitchInt, fr))
    let index ← pitchIndexOfM pitchInt fr
    .ok (index, pitchInt, fr)

/-- encoder/long_term_post_filter.rs 412-424 (`dot_product`): `n`, `k` and `h_i_index` are `i16`, `d` is an `i8` -/
def interpXM (xt : List α) (n d : Int) : Nat → Int → α → Res α
  | 0, _, acc => .ok acc
  | cnt + 1, k, acc => do
    let k4 ← i16Chk (4 * k)
    let h ← i16Chk (k4 - d)
    let acc ← (if -8 < h ∧ h < 8 then do
        let a ← i16Chk (asI16 NMEM_12P8D + n)
        let i ← i16Chk (a - k)
        let v ← idx xt (i32AsUsize i)
        let j ← i16Chk (h + 7)
        let c ← idx TAB_LTPF_INTERP_X12K8 (i32AsUsize j)
        .ok (acc + v * ofRat c)
      else .ok acc)
    interpXM xt n d cnt (k + 1) acc

/-- encoder/long_term_post_filter.rs 376-382: `n as i16 - pitch_int as i16` -/
def activationSumsM (xt : List α) (pitchInt : Nat) (fr : Int) : Nat → Nat → α × α × α → Res (α × α × α)
  | _, 0, s => .ok s
  | n, cnt + 1, (num, t0, t1) => do
    let a ← interpXM xt (asI16 n) 0 5 (-2) zero
    let m ← i16Chk (asI16 n - asI16 pitchInt)
    let b ← interpXM xt m fr 5 (-2) zero
    activationSumsM xt pitchInt fr (n + 1) cnt (num + a * b, t0 + a * a, t1 + b * b)

/-- encoder/long_term_post_filter.rs 365-409 (`activation_bit`) -/
def activationBitM (cfg : Lc3Config) (s : EncLtpf α) (pitchInt : Nat) (fr : Int) (nearNyquist gainOn : Bool) :
    Res (Bool × α × α) := do
  let (num, t0, t1) ← activationSumsM s.xt pitchInt fr 0 (len12p8Of cfg.nMs) (zero, zero, zero)
  let den := sqrt (t0 * t1)
  let nc := if lt zero den then num / den else zero
  let pitch := ofInt pitchInt + ofInt fr / ofRat 4
  let active := if gainOn && !nearNyquist then
      (!s.memActive && (decide (cfg.nMs = .tenMs) || lt (ofRat (94 / 100)) s.memMemNc) && lt (ofRat (94 / 100)) s.memNc
          && lt (ofRat (94 / 100)) nc)
        || (s.memActive && lt (ofRat (9 / 10)) nc)
        || (s.memActive && lt (absS (pitch - s.memPitch)) (ofRat 2) && lt (ofRat (-1 / 10)) (nc - s.memNc)
          && lt (ofRat (84 / 100)) nc)
    else false
  .ok (active, nc, pitch)

/-- encoder/long_term_post_filter.rs 139-215 (`run`) with the integer types of the code -/
def EncLtpf.runM (cfg : Lc3Config) (s : EncLtpf α) (x : List Int) (nearNyquist : Bool) (nbits : Nat) :
    Res (EncLtpf α × EncLtpfResult) :=
  if x.length ≠ cfg.nf then .panic
  else do
    let gainOn := decide (ltpfTNbits cfg.nMs nbits < 560 + cfg.fsInd * 80)
    let s ← ltpfShift cfg s x
    let len := len12p8Of cfg.nMs
    let start := delayLtpfOf cfg.nMs + NMEM_12P8D
    let _ ← sliceR s.xt start (start + len)
    let y ← resampleAllM cfg s.xs 0 len
    let (y, h1, h2) := highPass50 y s.h1 s.h2
    let s := { s with xt := s.xt.take start ++ y ++ s.xt.drop (start + len), h1 := h1, h2 := h2 }
    let (t, present, x6) ← pitchDetection cfg s.tPrev s.xt s.x6
    let s := { s with x6 := x6 }
    let (index, pitchInt, fr) ← pitchLagParameterM cfg s.xt t
    let (active, nc, pitch) ← activationBitM cfg s pitchInt fr nearNyquist gainOn
    let s := { s with
      tPrev := t
      memMemNc := s.memNc
      memPitch := if present then pitch else zero
      memActive := if present then active else false
      memNc := if present then nc else zero }
    .ok (s, ⟨if present then index else 0, present, active, if present then 11 else 1⟩)

end Lc3
