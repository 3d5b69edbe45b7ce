import Verif.Model.BitstreamEnc
import Verif.Model.EncQuant
import Verif.Model.EncDetect
import Verif.Spec.Symbols
/-!
# Specification: the entropy coder and the rate loop in machine integers

The model computes with unbounded numbers where the code has `u32` and `i32` variables. Here are the same functions with the arithmetic of
these types: sums and products that leave the type panic (a build with overflow checks), shifts to the left lose the bits that leave the type.
The functions are written from the same lines of the code as those of the model, which are cited there.
-/

namespace Lc3.Machine
open Lc3.Tables

/-- result of a sum or product of `u32` values (and of `usize` values on a machine with 32 bits) -/
def u32 (n : Nat) : Res Nat := if n < 2 ^ 32 then .ok n else .panic

/-- result of a sum of `i32` values that are not negative -/
def i32 (n : Nat) : Res Nat := if n < 2 ^ 31 then .ok n else .panic

/-- result of a sum of `i32` values -/
def i32s (n : Int) : Res Int := if -(2 ^ 31) ≤ n ∧ n < 2 ^ 31 then .ok n else .panic

/-- `x << 8` for a `u32` -/
def shl8 (n : Nat) : Nat := n <<< 8 % 2 ^ 32

/-! ## Range encoder (encoder/bitstream_encoding.rs) -/

/-- lines 397-415 -/
def acShift (s : EncSt) : Res EncSt := do
  if s.ac.low < 0x00ff0000 ∨ s.ac.carry = 1 then do
    let s ← (if s.ac.cache ≥ 0 then do
        let c ← i32 (s.ac.cache.toNat + s.ac.carry)
        s.byte (c % 256)
      else .ok s)
    let s ← flushCarries s s.ac.carryCount
    .ok { s with ac := { s.ac with
      cache := ((s.ac.low >>> 16 : Nat) : Int), carry := 0, low := shl8 s.ac.low &&& 0x00ffffff } }
  else do
    let c ← i32 (s.ac.carryCount + 1)
    .ok { s with ac := { s.ac with carryCount := c, low := shl8 s.ac.low &&& 0x00ffffff } }

/-- lines 425-428 -/
def acEncRenorm : Nat → EncSt → Res EncSt
  | fuel, s =>
    if s.ac.range < 0x10000 then
      match fuel with
      | 0 => .panic
      | fuel + 1 => do
        let s ← acShift { s with ac := { s.ac with range := shl8 s.ac.range } }
        acEncRenorm fuel s
    else .ok s

/-- lines 417-429 -/
def acEncode (s : EncSt) (cum freq : Nat) : Res EncSt := do
  let r := s.ac.range >>> 10
  let step ← u32 (r * cum)
  let low ← u32 (s.ac.low + step)
  let carry := if low >>> 24 ≠ 0 then 1 else s.ac.carry
  let range ← u32 (r * freq)
  acEncRenorm 3 { s with ac := { s.ac with low := low &&& 0x00ffffff, range := range, carry := carry } }

/-- lines 359-376 -/
def finishValue (ac : AcEnc) (bits : Nat) : Res (Nat × Nat × Nat) := do
  let mask := 0x00ffffff >>> bits
  let val ← u32 (ac.low + mask)
  let over1 := val >>> 24
  let high ← u32 (ac.low + ac.range)
  let over2 := high >>> 24
  let val := val &&& (0x00ffffff &&& (0xffffffff ^^^ mask))
  if over1 = over2 then do
    let v ← u32 (val + mask)
    if v ≥ high then do
      let mask := mask >>> 1
      let w ← u32 (ac.low + mask)
      let val := (w &&& 0x00ffffff) &&& (0xffffffff ^^^ mask)
      .ok (bits + 1, val, if val < ac.low then 1 else ac.carry)
    else .ok (bits, val, if val < ac.low then 1 else ac.carry)
  else .ok (bits, val, ac.carry)

/-- lines 377-380 -/
def finishShift : Nat → Int → EncSt → Res (Int × EncSt)
  | fuel, bits, s =>
    if bits > 0 then
      match fuel with
      | 0 => .panic
      | fuel + 1 => do
        let s ← acShift s
        finishShift fuel (bits - 8) s
    else .ok (bits, s)

/-- lines 354-395 -/
def acEncFinish (s : EncSt) : Res EncSt := do
  let bits ← finishBits s.ac.range 23
  let (bits, low, carry) ← finishValue s.ac bits
  let s := { s with ac := { s.ac with low := low, carry := carry } }
  let (bits, s) ← finishShift 4 (bits : Int) s
  let bits := bits + 8
  if bits < 0 then .panic
  else if s.ac.carryCount > 0 then do
    let s ← s.byte (s.ac.cache % 256).toNat
    let s ← finishCarries s (s.ac.carryCount - 1)
    s.uintFwd (0xff >>> (8 - bits.toNat)) bits.toNat
  else s.uintFwd (s.ac.cache % 65536).toNat bits.toNat

/-- lines 241-245 -/
def encTnsCoefs (rcI : List Nat) (f : Nat) (k : Nat) : Nat → EncSt → Res EncSt
  | 0, s => .ok s
  | n + 1, s => do
    let cums ← idx AC_TNS_COEF_CUMFREQ k
    let freqs ← idx AC_TNS_COEF_FREQ k
    let i ← idx rcI (k + 8 * f)
    let cum ← idx cums i
    let freq ← idx freqs i
    let s ← acEncode s cum freq
    encTnsCoefs rcI f (k + 1) n s

/-- lines 230-249 -/
def encTnsData (w : Nat) (rcOrder rcI : List Nat) (f : Nat) : Nat → EncSt → Res EncSt
  | 0, s => .ok s
  | n + 1, s => do
    let o ← idx rcOrder f
    let s ← (if o > 0 then do
        let cums ← idx AC_TNS_ORDER_CUMFREQ w
        let freqs ← idx AC_TNS_ORDER_FREQ w
        let cum ← idx cums (o - 1)
        let freq ← idx freqs (o - 1)
        let s ← acEncode s cum freq
        encTnsCoefs rcI f 0 o s
      else .ok s)
    encTnsData w rcOrder rcI (f + 1) n s

/-- lines 275-279 and 291-296 -/
def encSym (t lev sym : Nat) (s : EncSt) : Res EncSt := do
  let pki ← idx AC_SPEC_LOOKUP (t + min lev 3 * 1024)
  let cums ← idx AC_SPEC_CUMFREQ pki
  let freqs ← idx AC_SPEC_FREQ pki
  let cum ← idx cums sym
  let freq ← idx freqs sym
  acEncode s cum freq

/-- lines 274-290 -/
def encEscapes (lsbMode : Bool) (t : Nat) : Nat → Nat → Nat → Nat → EncSt → Res ((Nat × Nat × Nat) × EncSt)
  | fuel, a, b, lev, s =>
    if max a b ≥ 4 then
      match fuel with
      | 0 => .panic
      | fuel + 1 => do
        let s ← encSym t lev 16 s
        let s ← (if lsbMode && lev == 0 then .ok s
          else do
            let s ← s.bool (a &&& 1 == 1)
            s.bool (b &&& 1 == 1))
        encEscapes lsbMode t fuel (a >>> 1) (b >>> 1) (lev + 1) s
    else .ok ((a, b, lev), s)

/-- lines 246-326, the loop -/
def encPairs (lsbMode : Bool) (rateFlag ne nbitsLsb : Nat) :
    List Int → Nat → Nat → List Bool → EncSt → Res (List Bool × EncSt)
  | x0 :: x1 :: xs, k, c, lsbs, s => do
    let t := c + rateFlag + if k > ne / 2 then 256 else 0
    let ((a, b, lev), s) ← encEscapes lsbMode t 16 x0.natAbs x1.natAbs 0 s
    let s ← encSym t lev (a + 4 * b) s
    let post := lsbMode && lev > 0
    let lsbs := if post then lsbs ++ pairLsbs x0 x1 else lsbs
    if lsbs.length > nbitsLsb then .panic
    else do
      let aLsb := if post then x0.natAbs >>> 1 else x0.natAbs
      let bLsb := if post then x1.natAbs >>> 1 else x1.natAbs
      let s ← (if aLsb > 0 then s.bool (decide (x0 ≤ 0)) else .ok s)
      let s ← (if bLsb > 0 then s.bool (decide (x1 ≤ 0)) else .ok s)
      let c' := (c &&& 15) * 16 + ctxT a b lev
      encPairs lsbMode rateFlag ne nbitsLsb xs (k + 2) c' lsbs s
  | [], _, _, lsbs, s => .ok (lsbs, s)
  | [_], _, _, _, _ => .panic

/-- lines 246-326 -/
def encSpectral (ne : Nat) (p : FrameParams) (s : EncSt) : Res (List Bool × EncSt) := do
  let _ ← s.w.nbitsSideWritten (s.buf.length * 8)
  if p.nbitsLsb > 3840 then .panic
  else if p.lastnz > p.xq.length then .panic
  else encPairs p.lsbMode p.rateFlag ne p.nbitsLsb (p.xq.take p.lastnz) 0 0 [] s

/-- lines 328-352 -/
def encResidual (p : FrameParams) (lsbs : List Bool) (s : EncSt) : Res EncSt := do
  let nbitsSide ← s.w.nbitsSideWritten (s.buf.length * 8)
  let n := s.buf.length * 8 - (nbitsSide + nbitsAriForecast s)
  let s ← encBools ((if p.lsbMode then lsbs else p.residual).take n) s
  acEncFinish s

/-- lines 77-133: the bytes of a frame -/
def encodeFrame (ne : Nat) (p : FrameParams) (stale : EncSt) (buf : List Nat) : Res EncSt := do
  let w ← Writer.new buf.length
  let s : EncSt := { stale with w := w, buf := List.replicate buf.length 0 }
  let s ← encSideInfo ne p s
  let s := acEncInit s
  let s ← encTnsData p.lpcWeighting p.rcOrder p.rcI 0 p.numTns s
  let (lsbs, s) ← encSpectral ne p s
  encResidual p lsbs s

/-! ## Range decoder (decoder/arithmetic_codec.rs) -/

/-- lines 80-83 -/
def acFindSym (low tmp : Nat) (cum : List Nat) : Nat → Res Nat
  | 0 => do
    let c ← idx cum 0
    let t ← u32 (tmp * c)
    if low < t then .panic else .ok 0
  | val + 1 => do
    let c ← idx cum (val + 1)
    let t ← u32 (tmp * c)
    if low < t then acFindSym low tmp cum val else .ok (val + 1)

/-- lines 88-93 -/
def acDecRenorm (buf : List Nat) : Nat → Reader → AcDec → Res (AcDec × Reader)
  | fuel, r, st =>
    if st.range < 0x10000 then
      match fuel with
      | 0 => .panic
      | fuel + 1 => do
        let (b, r) ← r.readHeadByte buf
        let low ← u32 ((shl8 st.low &&& 0x00ffffff) + b)
        acDecRenorm buf fuel r ⟨low, shl8 st.range⟩
    else .ok (st, r)

/-- lines 67-97 -/
def acDecode (buf : List Nat) (r : Reader) (st : AcDec) (cum freq : List Nat) : Res (Nat × AcDec × Reader) := do
  let tmp := st.range >>> 10
  let limit := tmp <<< 10 % 2 ^ 32
  if st.low ≥ limit then .err
  else do
    let last ← usub cum.length 1
    let val ← acFindSym st.low tmp cum last
    let c ← idx cum val
    let f ← idx freq val
    let t ← u32 (tmp * c)
    let low ← usub st.low t
    let range ← u32 (tmp * f)
    let (st, r) ← acDecRenorm buf 3 r ⟨low, range⟩
    .ok (val, st, r)

/-- the decoder asks for one symbol of each model; the end states are part of the result -/
def decodeModels (buf : List Nat) (r : Reader) (st : AcDec) : List Symb → Res (List Nat × AcDec × Reader)
  | [] => .ok ([], st, r)
  | y :: ys => do
    let (v, st, r) ← acDecode buf r st y.cum y.freq
    let (l, st, r) ← decodeModels buf r st ys
    .ok (v :: l, st, r)

/-- the same with the functions of the model -/
def decodeModelsNat (buf : List Nat) (r : Reader) (st : AcDec) : List Symb → Res (List Nat × AcDec × Reader)
  | [] => .ok ([], st, r)
  | y :: ys => do
    let (v, st, r) ← Lc3.acDecode buf r st y.cum y.freq
    let (l, st, r) ← decodeModelsNat buf r st ys
    .ok (v :: l, st, r)

/-! ## Rate estimation (encoder/spectral_quantization.rs) -/

/-- lines 299-311 -/
def estEscapes (modeFlag : Bool) (t : Nat) : Nat → Nat → Nat → Nat → Nat → Nat → Res (Nat × Nat × Nat × Nat × Nat)
  | fuel, a, b, lev, est, lsb =>
    if max a b ≥ 4 then
      match fuel with
      | 0 => .panic
      | fuel + 1 => do
        let pki ← idx AC_SPEC_LOOKUP (t + lev * 1024)
        let row ← idx AC_SPEC_BITS pki
        let bits ← idx row 16
        let est ← u32 (est + bits)
        let post := lev == 0 && modeFlag
        let est ← u32 (est + if post then 0 else 2 * 2048)
        let lsb ← u32 (lsb + if post then 2 else 0)
        estEscapes modeFlag t fuel (a >>> 1) (b >>> 1) (min 3 (lev + 1)) est lsb
    else .ok (a, b, lev, est, lsb)

/-- lines 286-347 -/
def estPairs (α : Type) [Scalar α] (modeFlag : Bool) (rateFlag ne nbitsSpec : Nat) : List Int → Nat → EstSt → Res EstSt
  | x0 :: x1 :: xs, n, s => do
    let t := s.c + rateFlag + if n > ne / 2 then 256 else 0
    let (a, b, lev, est, lsb) ← estEscapes modeFlag t 16 x0.natAbs x1.natAbs 0 s.est s.lsb
    let pki ← idx AC_SPEC_LOOKUP (t + lev * 1024)
    let row ← idx AC_SPEC_BITS pki
    let bits ← idx row (a + 4 * b)
    let est ← u32 (est + bits)
    let est ← u32 (est + if x0.natAbs > 0 then 2048 else 0)
    let est ← u32 (est + if x1.natAbs > 0 then 2048 else 0)
    let lsb ← u32 (if lev > 0 && modeFlag then
        lsb + (if x0.natAbs >>> 1 = 0 ∧ x0 ≠ 0 then 1 else 0) + (if x1.natAbs >>> 1 = 0 ∧ x1 ≠ 0 then 1 else 0)
      else lsb)
    let keep := (x0 ≠ 0 ∨ x1 ≠ 0) ∧ bits2048 α est ≤ nbitsSpec
    let t' := if lev ≤ 1 then 1 + (a + b) * (lev + 1) else 12 + lev
    estPairs α modeFlag rateFlag ne nbitsSpec xs (n + 2)
      { est := est
        trunc := if keep then est else s.trunc
        lsb := lsb
        lastTrunc := if keep then n + 2 else s.lastTrunc
        c := (s.c &&& 15) * 16 + t' }
  | [], _, s => .ok s
  | [_], _, _ => .panic

/-! ## Attack detector (encoder/attack_detector.rs) -/

/-- lines 109-114: the sum of one block -/
def blockSum : List Int → Int → Res Int
  | [], acc => .ok acc
  | x :: xs, acc => do
    let acc ← i32s (acc + x)
    blockSum xs acc

/-- lines 106-115 -/
def attackDownsample (blockLen : Nat) (x : List Int) : Nat → Nat → Res (List Int)
  | _, 0 => .ok []
  | i, n + 1 =>
    if blockLen * i + blockLen ≤ x.length then do
      let v ← blockSum ((x.drop (blockLen * i)).take blockLen) 0
      let r ← attackDownsample blockLen x (i + 1) n
      .ok (v :: r)
    else .panic

end Lc3.Machine
