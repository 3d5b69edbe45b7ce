import Verif.Model.EncResidual
import Verif.Model.Config
import Verif.Tables.SpectralData
/-!
# Encoder: spectral quantisation

Model of encoder/spectral_quantization.rs. `log2` of the number of line pairs is the exact integer `clog2` (the arguments
are not near a power of two), as in the model of the bit stream writer.
-/

namespace Lc3
open Scalar Tables

/-- `n as i16` for an unsigned value -/
def toI16Wrap (n : Nat) : Int :=
  let m : Nat := n % 65536
  if m < 32768 then (m : Int) else (m : Int) - 65536

/-- result of an `i16` operation with the overflow check -/
def i16Chk (x : Int) : Res Int := if -32768 ≤ x ∧ x ≤ 32767 then .ok x else .panic

/-- the bits needed besides the spectrum, without the three variable parts: encoder/spectral_quantization.rs 119-129.
38 is `NBITS_SNS` (encoder/spectral_noise_shaping.rs). -/
def nbitsFixed (ne nbits : Nat) : Nat :=
  38 + 8 + 3 + (clog2 (ne / 2) + if nbits ≤ 1280 then 3 else if nbits ≤ 2560 then 4 else 5)

/-- encoder/spectral_quantization.rs 118-131 (`calc_bit_budget`) -/
def bitBudget (ne nbits nbitsBw nbitsTns nbitsLtpf : Nat) : Res Nat :=
  usub nbits (nbitsBw + nbitsTns + nbitsLtpf + nbitsFixed ne nbits)

/-- `gg_off`, encoder/spectral_quantization.rs 164 -/
def ggOffEnc (nbits fsInd : Nat) : Int :=
  -(min 115 (Int.tdiv (toI16Wrap nbits) (10 * (fsInd + 1)))) - 105 - 5 * (fsInd + 1)

/-- encoder/spectral_quantization.rs 271-273 -/
def encRateFlag (nbits fsInd : Nat) : Nat := if nbits > 160 + fsInd * 160 then 512 else 0
def encModeFlag (nbits fsInd : Nat) : Bool := decide (nbits ≥ 480 + fsInd * 160)

variable {α : Type} [Scalar α]

/-- `x as i16` (saturating, NaN to 0): the saturation to `i32` followed by the one to `i16` -/
def toI16 (x : α) : Int := max (-32768) (min 32767 (toI32 x))

/-- `x as u16` (saturating, NaN to 0) -/
def toU16 (x : α) : Nat := min 65535 (toUsize x)

/-- the mutable part of encoder/spectral_quantization.rs 53-63 -/
structure QuantSt (α : Type) where
  resetOffsetOld : Bool
  nbitsOffsetOld : α
  nbitsSpecOld : Nat
  nbitsEstOld : Nat

/-- encoder/spectral_quantization.rs 66-75 (`new`) -/
def QuantSt.new : QuantSt α := ⟨false, zero, 0, 0⟩

/-- encoder/spectral_quantization.rs 155-161: `nbits_offset` -/
def nbitsOffset (s : QuantSt α) : α :=
  if s.resetOffsetOld then zero
  else
    let prev := s.nbitsOffsetOld + ofInt s.nbitsSpecOld - ofInt s.nbitsEstOld
    ofRat (4 / 5) * s.nbitsOffsetOld + ofRat (1 / 5) * minS (ofRat 40) (maxS (ofRat (-40)) prev)

/-- encoder/spectral_quantization.rs 163: `nbits_spec_adj` -/
def nbitsSpecAdj (nbitsSpec : Nat) (offset : α) : Nat := toU16 (ofInt nbitsSpec + offset + ofRat (1 / 2))

/-- encoder/spectral_quantization.rs 393-398 (`compute_spectral_energy`): groups of four lines; the output has `n` entries.
`EPSILON` is 2^-23. -/
def spectralEnergy : Nat → List α → List α
  | n + 1, x0 :: x1 :: x2 :: x3 :: xs =>
    (ofRat 10 * log10 (ofRat (1 / 8388608) + (x0 * x0 + x1 * x1 + x2 * x2 + x3 * x3))) :: spectralEnergy n xs
  | n, _ => List.replicate n zero

/-- encoder/spectral_quantization.rs 184-203: one entry of the loop over the energies, state `tmp`, `is_zero` -/
def ggEnergyStep (g : α) (s : α × Bool) (e : α) : α × Bool :=
  let e28 := e * ofRat 28 / ofRat 20
  if lt e28 g then
    (if !s.2 then s.1 + ofRat (27 / 10) * ofRat 28 / ofRat 20 else s.1, s.2)
  else if lt g (e28 - ofRat 43 * ofRat 28 / ofRat 20) then
    (s.1 + (ofRat 2 * e * ofRat 28 / ofRat 20 - ofRat 2 * g - ofRat 36 * ofRat 28 / ofRat 20), false)
  else (s.1 + (e28 - g + ofRat 7 * ofRat 28 / ofRat 20), false)

/-- encoder/spectral_quantization.rs 204: the decision of one round -/
def ggTooFine (es : List α) (adj : Nat) (ggOff ggInd : Int) : Bool :=
  let g : α := ofInt ggInd + ofInt ggOff
  let r := es.reverse.foldl (ggEnergyStep g) (zero, true)
  lt (ofInt adj * ofRat (7 / 5) * ofRat 28 / ofRat 20) r.1 && !r.2

/-- encoder/spectral_quantization.rs 173-210 (`global_gain_estimation`): the loop, `n` rounds -/
def ggSearch (es : List α) (adj : Nat) (ggOff : Int) : Nat → Int → Int → Int
  | 0, _, ind => ind
  | n + 1, fac, ind =>
    let fac := fac / 2
    let ind := ind - fac
    ggSearch es adj ggOff n fac (if ggTooFine es adj ggOff ind then ind + fac else ind)

/-- encoder/spectral_quantization.rs 214-217: the largest magnitude -/
def maxAbs (xf : List α) : α := xf.foldl (fun m x => maxS m (absS x)) zero

/-- encoder/spectral_quantization.rs 218-222: `gg_min`, before the overflow check of the subtraction. The literal
`32768.0 - 0.375` is exact. -/
def ggMinOf (xf : List α) (ggOff : Int) : Int :=
  if lt zero (maxAbs xf) then
    toI16 (ceilS (ofRat 28 * log10 (maxAbs xf / (ofRat 32768 - ofRat (3 / 8))))) - ggOff
  else 0

/-- encoder/spectral_quantization.rs 213-229 (`global_gain_limitation`): `reset_offset`, `gg_min`, `gg_ind` -/
def ggLimit (xf : List α) (ggOff ggInd : Int) : Res (Bool × Int × Int) := do
  let ggMin ← i16Chk (ggMinOf xf ggOff)
  if decide (ggInd < ggMin) || eq (maxAbs xf) zero then .ok (true, ggMin, ggMin)
  else .ok (false, ggMin, ggInd)

/-- the gain of an index, encoder/spectral_quantization.rs 240 -/
def ggValue (ggInd ggOff : Int) : α := pow10 ((ofInt ggInd + ofInt ggOff) / ofRat 28)

/-- one line, encoder/spectral_quantization.rs 242-246 -/
def quantLine (gg x : α) : Int :=
  if geS x zero then toI16 (x / gg + ofRat (3 / 8)) else toI16 (x / gg - ofRat (3 / 8))

/-- encoder/spectral_quantization.rs 275-278: the number of lines up to the last pair that is not zero; the argument are
the reversed lines -/
def lastNz : Nat → List Int → Nat
  | n + 2, x1 :: x0 :: xs => if n > 0 ∧ x1 = 0 ∧ x0 = 0 then lastNz n xs else n + 2
  | n, _ => n

/-- encoder/spectral_quantization.rs 299-311: the escape loop; result `a`, `b`, `lev`, bits, postponed bits. `a`, `b` are
`u16`, at most 14 rounds are possible; running out of fuel is `panic`. -/
def estEscapes (modeFlag : Bool) (t : Nat) : Nat → Nat → Nat → Nat → Nat → Nat → Res (Nat × Nat × Nat × Nat × Nat)
  | fuel, a, b, lev, est, lsb =>
    if max a b ≥ 4 then
      match fuel with
      | 0 => .panic
      | fuel + 1 => do
        let pki ← idx AC_SPEC_LOOKUP (t + lev * 1024)
        let row ← idx AC_SPEC_BITS pki
        let bits ← idx row 16
        let post := lev == 0 && modeFlag
        estEscapes modeFlag t fuel (a >>> 1) (b >>> 1) (min 3 (lev + 1)) (est + bits + if post then 0 else 2 * 2048)
          (lsb + if post then 2 else 0)
    else .ok (a, b, lev, est, lsb)

/-- the accumulators of encoder/spectral_quantization.rs 280-284 -/
structure EstSt where
  est : Nat
  trunc : Nat
  lsb : Nat
  lastTrunc : Nat
  c : Nat
  deriving Repr, DecidableEq

/-- `(n as Scaler / 2048.0).ceil() as usize` -/
def bits2048 (α : Type) [Scalar α] (n : Nat) : Nat := toUsize (ceilS ((ofInt n : α) / ofRat 2048))

/-- encoder/spectral_quantization.rs 286-347: the loop over the pairs; the list holds the lines from `n` on. The `u32`
accumulators do not overflow (at most 200 pairs of less than 2^20). -/
def estPairs (α : Type) [Scalar α] (modeFlag : Bool) (rateFlag ne nbitsSpec : Nat) : List Int → Nat → EstSt → Res EstSt
  | x0 :: x1 :: xs, n, s => do
    let t := s.c + rateFlag + if n > ne / 2 then 256 else 0
    let (a, b, lev, est, lsb) ← estEscapes modeFlag t 16 x0.natAbs x1.natAbs 0 s.est s.lsb
    let pki ← idx AC_SPEC_LOOKUP (t + lev * 1024)
    let row ← idx AC_SPEC_BITS pki
    let bits ← idx row (a + 4 * b)
    let est := est + bits + (if x0.natAbs > 0 then 2048 else 0) + (if x1.natAbs > 0 then 2048 else 0)
    let lsb := if lev > 0 && modeFlag then
        lsb + (if x0.natAbs >>> 1 = 0 ∧ x0 ≠ 0 then 1 else 0) + (if x1.natAbs >>> 1 = 0 ∧ x1 ≠ 0 then 1 else 0)
      else lsb
    let keep := (x0 ≠ 0 ∨ x1 ≠ 0) ∧ bits2048 α est ≤ nbitsSpec
    let t' := if lev ≤ 1 then 1 + (a + b) * (lev + 1) else 12 + lev
    estPairs α modeFlag rateFlag ne nbitsSpec xs (n + 2)
      { est := est
        trunc := if keep then est else s.trunc
        lsb := lsb
        lastTrunc := if keep then n + 2 else s.lastTrunc
        c := (s.c &&& 15) * 16 + t' }
  | [], _, s => .ok s
  | [_], _, _ => .panic  -- `x_q[n + 1]` is out of range (odd `lastnz`, not used)

/-- encoder/spectral_quantization.rs 17-25 -/
structure BitConsumption where
  rateFlag : Nat
  lastnz : Nat
  nbitsLsb : Nat
  lastnzTrunc : Nat
  nbitsEst : Nat
  nbitsTrunc : Nat
  modeFlag : Bool
  deriving Repr, DecidableEq

/-- encoder/spectral_quantization.rs 270-360 (`compute_bit_consumption`) -/
def bitConsumption (α : Type) [Scalar α] (ne fsInd nbits nbitsSpec : Nat) (xq : List Int) : Res BitConsumption := do
  let rateFlag := encRateFlag nbits fsInd
  let modeFlag := encModeFlag nbits fsInd
  if xq.length < ne then .panic
  else do
    let lastnz := lastNz ne (xq.take ne).reverse
    let s ← estPairs α modeFlag rateFlag ne nbitsSpec (xq.take lastnz) 0 ⟨0, 0, 0, 2, 0⟩
    .ok ⟨rateFlag, lastnz, s.lsb, s.lastTrunc, bits2048 α s.est + s.lsb, bits2048 α s.trunc, modeFlag⟩

/-- encoder/spectral_quantization.rs 33-37 with the lines -/
structure QuantResult (α : Type) where
  xq : List Int
  lsbMode : Bool
  bc : BitConsumption
  gg : α

/-- encoder/spectral_quantization.rs 231-268 (`quantize_spectrum`) -/
def quantSpectrum (ne fsInd : Nat) (xf : List α) (nbits : Nat) (ggOff ggInd : Int) (nbitsSpec : Nat) :
    Res (QuantResult α) := do
  let gg : α := ggValue ggInd ggOff
  let xq := xf.map (quantLine gg)
  let bc ← bitConsumption α ne fsInd nbits nbitsSpec xq
  if bc.lastnzTrunc ≤ bc.lastnz ∧ bc.lastnz ≤ xq.length then
    .ok { xq := xq.take bc.lastnzTrunc ++ List.replicate (bc.lastnz - bc.lastnzTrunc) 0 ++ xq.drop bc.lastnz
          lsbMode := bc.modeFlag && decide (bc.nbitsEst > nbitsSpec)
          bc := bc
          gg := gg }
  else .panic

/-- encoder/spectral_quantization.rs 363-365 -/
def GG_T1 : List Nat := [80, 230, 380, 530, 680]
def GG_T2 : List Nat := [500, 1025, 1550, 2075, 2600]
def GG_T3 : List Nat := [850, 1700, 2550, 3400, 4250]

/-- encoder/spectral_quantization.rs 371-382: `delta` before rounding -/
def ggDelta0 (t1 t2 t3 est : Nat) : α :=
  if est < t1 then (ofInt est + ofRat 48) / ofRat 16
  else if est < t2 then
    let tmp1 : α := ofInt t1 / ofRat 16 + ofRat 3
    let tmp2 : α := ofInt t2 / ofRat 48
    (ofInt est - ofInt t1) * (tmp2 - tmp1) / (ofInt t2 - ofInt t1) + tmp1
  else if est < t3 then ofInt est / ofRat 48
  else ofInt t3 / ofRat 48

/-- encoder/spectral_quantization.rs 383: `delta` -/
def ggDelta (t1 t2 t3 est : Nat) : α := floorS (ggDelta0 t1 t2 t3 est + ofRat (1 / 2))

/-- encoder/spectral_quantization.rs 362-402 (`global_gain_adjustment`): the new gain index -/
def ggAdjust (α : Type) [Scalar α] (fsInd : Nat) (ggInd ggMin : Int) (spec est : Nat) : Res Int := do
  let t1 ← idx GG_T1 fsInd
  let t2 ← idx GG_T2 fsInd
  let t3 ← idx GG_T3 fsInd
  let delta : α := ggDelta t1 t2 t3 est
  let delta2 := delta + ofRat 2
  let low := lt (ofInt est) (ofInt spec - delta2)
  if (ggInd < 255 ∧ est > spec) ∨ (ggInd > 0 ∧ low = true) then do
    let g ← (if low then i16Chk (ggInd - 1)
      else if ggInd = 254 ∨ lt (ofInt est) (ofInt spec + delta) = true then i16Chk (ggInd + 1)
      else i16Chk (ggInd + 2))
    .ok (max g ggMin)
  else .ok ggInd

/-- encoder/spectral_quantization.rs 39-48 with the lines -/
structure QuantOut (α : Type) where
  xq : List Int
  ggInd : Int
  nbitsSpec : Nat
  nbitsLsb : Nat
  nbitsTrunc : Nat
  lsbMode : Bool
  rateFlag : Nat
  lastnzTrunc : Nat
  gg : α

/-- encoder/spectral_quantization.rs 77-116 (`run`) -/
def quantRun (ne fsInd : Nat) (s : QuantSt α) (xf : List α) (nbits nbitsBw nbitsTns nbitsLtpf : Nat) :
    Res (QuantSt α × QuantOut α) := do
  if xf.length ≠ ne then .panic
  else do
    let nbitsSpec ← bitBudget ne nbits nbitsBw nbitsTns nbitsLtpf
    let offset := nbitsOffset s
    let adj := nbitsSpecAdj nbitsSpec offset
    let ggOff := ggOffEnc nbits fsInd
    if ne / 4 > 100 then .panic
    else do
      let ind0 := ggSearch (spectralEnergy (ne / 4) xf) adj ggOff 8 256 255
      let (reset, ggMin, ggInd) ← ggLimit xf ggOff ind0
      let q ← quantSpectrum ne fsInd xf nbits ggOff ggInd nbitsSpec
      let s' : QuantSt α := ⟨reset, offset, s.nbitsSpecOld, q.bc.nbitsEst⟩
      let ggInd' ← ggAdjust α fsInd ggInd ggMin nbitsSpec q.bc.nbitsEst
      let q ← (if ggInd ≠ ggInd' then quantSpectrum ne fsInd xf nbits ggOff ggInd' nbitsSpec else .ok q)
      .ok (s', ⟨q.xq, ggInd', nbitsSpec, q.bc.nbitsLsb, q.bc.nbitsTrunc, q.lsbMode, q.bc.rateFlag, q.bc.lastnzTrunc, q.gg⟩)

end Lc3
