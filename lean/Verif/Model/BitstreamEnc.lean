import Verif.Model.BufferWriter
import Verif.Model.ArithDecode
import Verif.Tables.Mpvq
/-! Model of encoder/bitstream_encoding.rs. -/

namespace Lc3
open Tables

/-- encoder/bitstream_encoding.rs 27-34 (`ArithmeticEncoderState`). `low`, `range` are `u32`,
`carry` is 0 or 1, `cache` is -1 or a byte. -/
structure AcEnc where
  low : Nat
  range : Nat
  cache : Int
  carry : Nat
  carryCount : Nat
  deriving Repr, DecidableEq

/-- writer state, output buffer and range coder of `BitstreamEncoding` -/
structure EncSt where
  w : Writer
  buf : List Nat
  ac : AcEnc
  deriving Repr, DecidableEq

namespace EncSt

/-- `write_bool_backward` -/
def bool (s : EncSt) (b : Bool) : Res EncSt := do
  let (w, buf) ← s.w.writeBoolBackward s.buf b
  .ok { s with w := w, buf := buf }

/-- `write_uint_backward` -/
def uint (s : EncSt) (val n : Nat) : Res EncSt := do
  let (w, buf) ← s.w.writeUintBackward s.buf val n
  .ok { s with w := w, buf := buf }

/-- `write_byte_forward` -/
def byte (s : EncSt) (v : Nat) : Res EncSt := do
  let (w, buf) ← s.w.writeByteForward s.buf v
  .ok { s with w := w, buf := buf }

/-- `write_uint_forward` -/
def uintFwd (s : EncSt) (v n : Nat) : Res EncSt := do
  let buf ← s.w.writeUintForward s.buf v n
  .ok { s with buf := buf }

end EncSt

/-- encoder/bitstream_encoding.rs 222-228 (`ac_enc_init`) -/
def acEncInit (s : EncSt) : EncSt := { s with ac := ⟨0, 0x00ffffff, -1, 0, 0⟩ }

/-- encoder/bitstream_encoding.rs 403-407: the pending 0xff bytes -/
def flushCarries (s : EncSt) : Nat → Res EncSt
  | 0 => .ok { s with ac := { s.ac with carryCount := 0 } }
  | n + 1 => do
    let s ← s.byte ((s.ac.carry + 0xff) % 256)
    flushCarries s n

/-- encoder/bitstream_encoding.rs 397-415 (`ac_shift`) -/
def acShift (s : EncSt) : Res EncSt := do
  if s.ac.low < 0x00ff0000 ∨ s.ac.carry = 1 then do
    let s ← (if s.ac.cache ≥ 0 then s.byte ((s.ac.cache.toNat + s.ac.carry) % 256) else .ok s)
    let s ← flushCarries s s.ac.carryCount
    .ok { s with ac := { s.ac with
      cache := ((s.ac.low >>> 16 : Nat) : Int), carry := 0, low := s.ac.low <<< 8 &&& 0x00ffffff } }
  else
    .ok { s with ac := { s.ac with
      carryCount := s.ac.carryCount + 1, low := s.ac.low <<< 8 &&& 0x00ffffff } }

/-- encoder/bitstream_encoding.rs 425-428: renormalisation; with a positive frequency the loop runs
at most twice, running out of fuel is `panic` -/
def acEncRenorm : Nat → EncSt → Res EncSt
  | fuel, s =>
    if s.ac.range < 0x10000 then
      match fuel with
      | 0 => .panic
      | fuel + 1 => do
        let s ← acShift { s with ac := { s.ac with range := s.ac.range <<< 8 } }
        acEncRenorm fuel s
    else .ok s

/-- encoder/bitstream_encoding.rs 417-429 (`ac_encode`) -/
def acEncode (s : EncSt) (cum freq : Nat) : Res EncSt :=
  let r := s.ac.range >>> 10
  let low := s.ac.low + r * cum
  let carry := if low >>> 24 ≠ 0 then 1 else s.ac.carry
  acEncRenorm 3 { s with ac := { s.ac with
    low := low &&& 0x00ffffff, range := r * freq, carry := carry } }

/-- encoder/bitstream_encoding.rs 355-358: number of significant bits; the Rust loop
`while range >> (24 - bits) == 0 { bits += 1 }`, entered with `bits = 1`. The fuel is `24 - bits`;
`range = 0` (impossible) would make the shift amount negative, which panics. -/
def finishBits (range : Nat) : Nat → Res Nat
  | 0 => if range >>> 0 = 0 then .panic else .ok 24
  | n + 1 => if range >>> (n + 1) = 0 then finishBits range n else .ok (24 - (n + 1))

/-- encoder/bitstream_encoding.rs 377-380: `while bits > 0 { ac_shift; bits -= 8 }`, returns the
final (non-positive) `bits`. -/
def finishShift : Nat → Int → EncSt → Res (Int × EncSt)
  | fuel, bits, s =>
    if bits > 0 then
      match fuel with
      | 0 => .panic
      | fuel + 1 => do
        let s ← acShift s
        finishShift fuel (bits - 8) s
    else .ok (bits, s)

/-- encoder/bitstream_encoding.rs 387-390: `while carry_count > 1 { write 0xff }` -/
def finishCarries (s : EncSt) : Nat → Res EncSt
  | 0 => .ok s
  | n + 1 => do
    let s ← s.byte 0xff
    finishCarries { s with ac := { s.ac with carryCount := s.ac.carryCount - 1 } } n

/-- encoder/bitstream_encoding.rs 359-376: choice of the final value. Returns
(`bits`, `low`, `carry`). -/
def finishValue (ac : AcEnc) (bits : Nat) : Nat × Nat × Nat :=
  let mask := 0x00ffffff >>> bits
  let val := ac.low + mask
  let over1 := val >>> 24
  let high := ac.low + ac.range
  let over2 := high >>> 24
  let val := val &&& (0x00ffffff &&& (0xffffffff ^^^ mask))
  if over1 = over2 then
    if val + mask ≥ high then
      let mask := mask >>> 1
      let val := (ac.low + mask &&& 0x00ffffff) &&& (0xffffffff ^^^ mask)
      (bits + 1, val, if val < ac.low then 1 else ac.carry)
    else (bits, val, if val < ac.low then 1 else ac.carry)
  else (bits, val, ac.carry)

/-- encoder/bitstream_encoding.rs 354-395 (`ac_enc_finish`) -/
def acEncFinish (s : EncSt) : Res EncSt := do
  let bits ← finishBits s.ac.range 23
  let (bits, low, carry) := finishValue s.ac bits
  let s := { s with ac := { s.ac with low := low, carry := carry } }
  let (bits, s) ← finishShift 4 (bits : Int) s
  let bits := bits + 8
  if bits < 0 then .panic
  else if s.ac.carryCount > 0 then do
    let s ← s.byte (s.ac.cache % 256).toNat
    let s ← finishCarries s (s.ac.carryCount - 1)
    s.uintFwd (0xff >>> (8 - bits.toNat)) bits.toNat
  else s.uintFwd (s.ac.cache % 65536).toNat bits.toNat

/-- encoder/bitstream_encoding.rs 64-75 (`nbits_side_forcast`); `carry >= 0` always holds -/
def nbitsAriForecast (s : EncSt) : Nat :=
  s.w.bp * 8 + (25 - Nat.log2 s.ac.range) + 8 + s.ac.carryCount * 8

/-- Everything that `BitstreamEncoding::encode` receives
(encoder/bitstream_encoding.rs 77-88, the fields it uses), except the buffer. -/
structure FrameParams where
  bandwidthInd : Nat
  nbitsBandwidth : Nat
  lastnz : Nat
  lsbMode : Bool
  ggInd : Nat
  numTns : Nat
  rcOrder : List Nat
  rcI : List Nat
  lpcWeighting : Nat
  pitchPresent : Bool
  ltpfActive : Bool
  pitchIndex : Nat
  indLf : Nat
  indHf : Nat
  shapeJ : Nat
  gind : Nat
  lsInda : Nat
  indexJoint : Nat
  noiseFactor : Nat
  rateFlag : Nat
  nbitsLsb : Nat
  xq : List Int
  residual : List Bool
  deriving Repr, DecidableEq

/-- encoder/bitstream_encoding.rs 166-171 (`tns_activation_flag`) -/
def encTnsFlags : List Nat → EncSt → Res EncSt
  | [], s => .ok s
  | o :: os, s => do
    let s ← s.bool (o != 0)
    encTnsFlags os s

/-- encoder/bitstream_encoding.rs 182-209 (`encode_scf_vq_2nd_stage`) -/
def encScf2 (p : FrameParams) (s : EncSt) : Res EncSt := do
  let msb := p.shapeJ >>> 1 != 0
  let s ← s.bool msb
  let nb ← idx SNS_GAIN_MSB_BITS p.shapeJ
  let lb ← idx SNS_GAIN_LSB_BITS p.shapeJ
  let s ← s.uint (p.gind >>> lb) nb
  let s ← s.bool (p.lsInda != 0)
  if !msb then do
    let s ← s.uint p.indexJoint 13
    s.uint (p.indexJoint >>> 13) 12
  else do
    let s ← s.uint p.indexJoint 12
    s.uint (p.indexJoint >>> 12) 12

/-- side information part of `encode`, encoder/bitstream_encoding.rs 92-112 -/
def encSideInfo (ne : Nat) (p : FrameParams) (s : EncSt) : Res EncSt := do
  let s ← (if p.nbitsBandwidth > 0 then s.uint p.bandwidthInd p.nbitsBandwidth else .ok s)
  let v ← usub (p.lastnz >>> 1) 1
  let s ← s.uint v (clog2 (ne / 2))
  let s ← s.bool p.lsbMode
  let s ← s.uint p.ggInd 8
  let s ← (if p.numTns ≤ p.rcOrder.length then encTnsFlags (p.rcOrder.take p.numTns) s else .panic)
  let s ← s.bool p.pitchPresent
  let s ← s.uint p.indLf 5
  let s ← s.uint p.indHf 5
  let s ← encScf2 p s
  let s ← (if p.pitchPresent then do
      let s ← s.bool p.ltpfActive
      s.uint p.pitchIndex 9
    else .ok s)
  s.uint p.noiseFactor 3

/-- inner loop of encoder/bitstream_encoding.rs 241-245 -/
def encTnsCoefs (rcI : List Nat) (f : Nat) (k : Nat) : Nat → EncSt → Res EncSt
  | 0, s => .ok s
  | n + 1, s => do
    let cums ← idx AC_TNS_COEF_CUMFREQ k
    let freqs ← idx AC_TNS_COEF_FREQ k
    let i ← idx rcI (k + 8 * f)
    let cum ← idx cums i
    let freq ← idx freqs i
    let s ← acEncode s cum freq
    encTnsCoefs rcI f (k + 1) n s

/-- encoder/bitstream_encoding.rs 230-249 (`tns_data`), loop over the filters `f ..` -/
def encTnsData (w : Nat) (rcOrder rcI : List Nat) (f : Nat) : Nat → EncSt → Res EncSt
  | 0, s => .ok s
  | n + 1, s => do
    let o ← idx rcOrder f
    let s ← (if o > 0 then do
        let cums ← idx AC_TNS_ORDER_CUMFREQ w
        let freqs ← idx AC_TNS_ORDER_FREQ w
        let cum ← idx cums (o - 1)
        let freq ← idx freqs (o - 1)
        let s ← acEncode s cum freq
        encTnsCoefs rcI f 0 o s
      else .ok s)
    encTnsData w rcOrder rcI (f + 1) n s

/-- look-up of the probability of a symbol, encoder/bitstream_encoding.rs 275-279 and 291-296 -/
def encSym (t lev sym : Nat) (s : EncSt) : Res EncSt := do
  let pki ← idx AC_SPEC_LOOKUP (t + min lev 3 * 1024)
  let cums ← idx AC_SPEC_CUMFREQ pki
  let freqs ← idx AC_SPEC_FREQ pki
  let cum ← idx cums sym
  let freq ← idx freqs sym
  acEncode s cum freq

/-- encoder/bitstream_encoding.rs 274-290: the escape loop. `a`, `b` are `u16`, at most 14 rounds
are possible; running out of fuel is `panic`. Returns the reduced values and `lev`. -/
def encEscapes (lsbMode : Bool) (t : Nat) : Nat → Nat → Nat → Nat → EncSt → Res ((Nat × Nat × Nat) × EncSt)
  | fuel, a, b, lev, s =>
    if max a b ≥ 4 then
      match fuel with
      | 0 => .panic
      | fuel + 1 => do
        let s ← encSym t lev 16 s
        let s ← (if lsbMode && lev == 0 then .ok s
          else do
            let s ← s.bool (a &&& 1 == 1)
            s.bool (b &&& 1 == 1))
        encEscapes lsbMode t fuel (a >>> 1) (b >>> 1) (lev + 1) s
    else .ok ((a, b, lev), s)

/-- encoder/bitstream_encoding.rs 298-316: the postponed bits of one pair. `lsb0`, `lsb1` are the
lowest bits of both magnitudes (they are only assigned in the first round of the escape loop, and
this code runs only if there was one). -/
def pairLsbs (x0 x1 : Int) : List Bool :=
  let a := x0.natAbs
  let b := x1.natAbs
  [a &&& 1 == 1] ++ (if a >>> 1 = 0 ∧ x0 ≠ 0 then [decide (¬ x0 > 0)] else []) ++
  [b &&& 1 == 1] ++ (if b >>> 1 = 0 ∧ x1 ≠ 0 then [decide (¬ x1 > 0)] else [])

/-- encoder/bitstream_encoding.rs 246-326 (`spectral_data`), loop over `k` (step 2). The list
argument holds the lines from `k` on. `lsbs` collects the postponed bits; writing more than
`nbitsLsb` of them is out of range of the vector `lsbs`. -/
def encPairs (lsbMode : Bool) (rateFlag ne nbitsLsb : Nat) :
    List Int → Nat → Nat → List Bool → EncSt → Res (List Bool × EncSt)
  | x0 :: x1 :: xs, k, c, lsbs, s => do
    let t := c + rateFlag + if k > ne / 2 then 256 else 0
    let ((a, b, lev), s) ← encEscapes lsbMode t 16 x0.natAbs x1.natAbs 0 s
    let s ← encSym t lev (a + 4 * b) s
    let post := lsbMode && lev > 0
    let lsbs := if post then lsbs ++ pairLsbs x0 x1 else lsbs
    if lsbs.length > nbitsLsb then .panic
    else do
      let aLsb := if post then x0.natAbs >>> 1 else x0.natAbs
      let bLsb := if post then x1.natAbs >>> 1 else x1.natAbs
      let s ← (if aLsb > 0 then s.bool (decide (x0 ≤ 0)) else .ok s)
      let s ← (if bLsb > 0 then s.bool (decide (x1 ≤ 0)) else .ok s)
      let c' := (c &&& 15) * 16 + ctxT a b lev
      encPairs lsbMode rateFlag ne nbitsLsb xs (k + 2) c' lsbs s
  | [], _, _, lsbs, s => .ok (lsbs, s)
  | [_], _, _, _, _ => .panic  -- `x_q[k + 1]` is out of range (odd `lastnz`, not used)

/-- encoder/bitstream_encoding.rs 246-326 (`spectral_data`). The capacity of `lsbs` is 3840. -/
def encSpectral (ne : Nat) (p : FrameParams) (s : EncSt) : Res (List Bool × EncSt) := do
  let _ ← s.w.nbitsSideWritten (s.buf.length * 8)
  if p.nbitsLsb > 3840 then .panic
  else if p.lastnz > p.xq.length then .panic
  else encPairs p.lsbMode p.rateFlag ne p.nbitsLsb (p.xq.take p.lastnz) 0 0 [] s

/-- `for bit in bits { write_bool_backward(bit) }` -/
def encBools : List Bool → EncSt → Res EncSt
  | [], s => .ok s
  | b :: bs, s => do
    let s ← s.bool b
    encBools bs s

/-- encoder/bitstream_encoding.rs 328-352 (`residual_data_and_finalization`) -/
def encResidual (p : FrameParams) (lsbs : List Bool) (s : EncSt) : Res EncSt := do
  let nbitsSide ← s.w.nbitsSideWritten (s.buf.length * 8)
  let n := s.buf.length * 8 - (nbitsSide + nbitsAriForecast s)
  let s ← encBools ((if p.lsbMode then lsbs else p.residual).take n) s
  acEncFinish s

/-- encoder/bitstream_encoding.rs 135-141 (`init`) and the part of `encode` before the residual data
(77-128); `ac` and `w` are the stale states of the previous frame, `buf` the caller's buffer. -/
def encodeBody (ne : Nat) (p : FrameParams) (stale : EncSt) (buf : List Nat) : Res (List Bool × EncSt) := do
  let w ← Writer.new buf.length
  let s : EncSt := { stale with w := w, buf := List.replicate buf.length 0 }
  let s ← encSideInfo ne p s
  let s := acEncInit s
  let s ← encTnsData p.lpcWeighting p.rcOrder p.rcI 0 p.numTns s
  encSpectral ne p s

/-- encoder/bitstream_encoding.rs 77-133 (`encode`) -/
def encodeFrame (ne : Nat) (p : FrameParams) (stale : EncSt) (buf : List Nat) : Res EncSt := do
  let (lsbs, s) ← encodeBody ne p stale buf
  encResidual p lsbs s

end Lc3
