import Verif.Model.SideInfo
import Verif.Tables.SpectralData
import Verif.Tables.Tns
/-! Model of decoder/arithmetic_codec.rs. -/

namespace Lc3
open Tables

/-- decoder/arithmetic_codec.rs 21-25 -/
structure AcDec where
  low : Nat
  range : Nat
  deriving Repr, DecidableEq

/-- decoder/arithmetic_codec.rs 57-65 (`ac_dec_init`) -/
def acDecInit (buf : List Nat) (r : Reader) : Res (AcDec × Reader) := do
  let (low, r) ← r.readHeadU24 buf
  .ok (⟨low, 0x00ffffff⟩, r)

/-- decoder/arithmetic_codec.rs 80-83: the downward symbol search. `val -= 1` at zero panics. -/
def acFindSym (low tmp : Nat) (cum : List Nat) : Nat → Res Nat
  | 0 => do
    let c ← idx cum 0
    if low < tmp * c then .panic else .ok 0
  | val + 1 => do
    let c ← idx cum (val + 1)
    if low < tmp * c then acFindSym low tmp cum val else .ok (val + 1)

/-- decoder/arithmetic_codec.rs 88-93: renormalisation. The Rust loop runs at most twice because
the range is at least 64 (see `acDecRenorm_fuel` in the lemmas); running out of fuel is `panic`. -/
def acDecRenorm (buf : List Nat) : Nat → Reader → AcDec → Res (AcDec × Reader)
  | fuel, r, st =>
    if st.range < 0x10000 then
      match fuel with
      | 0 => .panic
      | fuel + 1 => do
        let (b, r) ← r.readHeadByte buf
        acDecRenorm buf fuel r ⟨(st.low <<< 8 &&& 0x00ffffff) + b, st.range <<< 8⟩
    else .ok (st, r)

/-- decoder/arithmetic_codec.rs 67-97 (`ac_decode`) -/
def acDecode (buf : List Nat) (r : Reader) (st : AcDec) (cum freq : List Nat) :
    Res (Nat × AcDec × Reader) := do
  let tmp := st.range >>> 10
  let limit := tmp <<< 10
  if st.low ≥ limit then .err
  else do
    let last ← usub cum.length 1
    let val ← acFindSym st.low tmp cum last
    let c ← idx cum val
    let f ← idx freq val
    let low ← usub st.low (tmp * c)
    let (st, r) ← acDecRenorm buf 3 r ⟨low, tmp * f⟩
    .ok (val, st, r)

/-- decoder/arithmetic_codec.rs 315-320: index into the TNS order tables -/
def tnsLpcWeightingIdx (nbits : Nat) (d : FrameDuration) : Nat :=
  let maxBits := match d with
    | .sevenPointFiveMs => 360
    | .tenMs => 480
  if nbits < maxBits then 1 else 0

/-- inner loop over `k` of decoder/arithmetic_codec.rs 333-339; returns the coefficients `k, k+1, ..` -/
def decodeTnsCoefs (buf : List Nat) (r : Reader) (st : AcDec) (k : Nat) :
    Nat → Res (List Nat × AcDec × Reader)
  | 0 => .ok ([], st, r)
  | n + 1 => do
    let cum ← idx AC_TNS_COEF_CUMFREQ k
    let freq ← idx AC_TNS_COEF_FREQ k
    let (v, st, r) ← acDecode buf r st cum freq
    let (l, st, r) ← decodeTnsCoefs buf r st (k + 1) n
    .ok (v :: l, st, r)

/-- loop over the filters, decoder/arithmetic_codec.rs 324-341. For every filter the result holds
the order and the eight entries of `tns_idx` of that filter (unused ones are 0). -/
def decodeTnsFilters (buf : List Nat) (w : Nat) (r : Reader) (st : AcDec) :
    List Nat → Res (List (Nat × List Nat) × AcDec × Reader)
  | [] => .ok ([], st, r)
  | o :: os => do
    if o > 0 then do
      let cum ← idx AC_TNS_ORDER_CUMFREQ w
      let freq ← idx AC_TNS_ORDER_FREQ w
      let (order, st, r) ← acDecode buf r st cum freq
      let (l, st, r) ← decodeTnsCoefs buf r st 0 (order + 1)
      let (rest, st, r) ← decodeTnsFilters buf w r st os
      .ok ((order + 1, l ++ List.replicate (8 - (order + 1)) 0) :: rest, st, r)
    else do
      let (rest, st, r) ← decodeTnsFilters buf w r st os
      .ok ((0, List.replicate 8 0) :: rest, st, r)

/-- decoder/arithmetic_codec.rs 307-344 (`decode_tns_data`): (`tns_idx`, `tns_order`) -/
def decodeTnsData (buf : List Nat) (r : Reader) (si : SideInfo) (st : AcDec) (nbits : Nat)
    (d : FrameDuration) : Res ((List Nat × List Nat) × AcDec × Reader) := do
  let w := tnsLpcWeightingIdx nbits d
  let (fs, st, r) ← decodeTnsFilters buf w r st (si.rcOrderIn.take si.numTnsFilters)
  let idxs := (fs.map (·.2)).flatten ++ List.replicate (16 - 8 * si.numTnsFilters) 0
  let orders := fs.map (·.1) ++ si.rcOrderIn.drop si.numTnsFilters
  .ok ((idxs, orders), st, r)

/-- decoder/arithmetic_codec.rs 240-267: the escape loop of one pair.
Result: (`sym`, `lev`, low bits of both lines). The argument `fuel` is `14 - lev`. -/
def decodeEscapes (buf : List Nat) (lsbMode : Bool) (t : Nat) :
    Nat → Nat → Nat → Nat → Nat → Reader → AcDec → Res ((Nat × Nat × Nat × Nat) × AcDec × Reader)
  | 0, lev, sym, xk, xk1, r, st => .ok ((sym, lev, xk, xk1), st, r)
  | fuel + 1, lev, _, xk, xk1, r, st => do
    let pki ← idx AC_SPEC_LOOKUP (t + min lev 3 * 1024)
    let cum ← idx AC_SPEC_CUMFREQ pki
    let freq ← idx AC_SPEC_FREQ pki
    let (sym, st, r) ← acDecode buf r st cum freq
    if sym < 16 then .ok ((sym, lev, xk, xk1), st, r)
    else if !lsbMode || lev > 0 then do
      let (b0, r) ← r.readTailBool buf
      let (b1, r) ← r.readTailBool buf
      decodeEscapes buf lsbMode t fuel (lev + 1) sym
        (xk + b0.toNat <<< lev) (xk1 + b1.toNat <<< lev) r st
    else decodeEscapes buf lsbMode t fuel (lev + 1) sym xk xk1 r st

/-- decoder/arithmetic_codec.rs 281-297: sign of one line -/
def decodeSign (buf : List Nat) (r : Reader) (x : Nat) : Res (Int × Reader) :=
  if x > 0 then do
    let (b, r) ← r.readTailBool buf
    .ok (if b then -(x : Int) else (x : Int), r)
  else .ok ((x : Int), r)

/-- the part of the context that a decoded pair contributes,
decoder/arithmetic_codec.rs 299-300, encoder/bitstream_encoding.rs 318-323 -/
def ctxT (a b lev : Nat) : Nat :=
  let lev := min lev 3
  if lev ≤ 1 then 1 + (a + b) * (lev + 1) else 12 + lev

/-- decoder/arithmetic_codec.rs 226-302: the loop over pairs `k`. Returns for each pair both lines
and the number of escapes. -/
def decodePairs (buf : List Nat) (lsbMode : Bool) (rateFlag ne : Nat) :
    Nat → Nat → Nat → Reader → AcDec → Res (List (Int × Int × Nat) × AcDec × Reader)
  | 0, _, _, r, st => .ok ([], st, r)
  | n + 1, k, c, r, st => do
    let t := c + rateFlag + if k * 2 > ne / 2 then 256 else 0
    let ((sym, lev, xk, xk1), st, r) ← decodeEscapes buf lsbMode t 14 0 0 0 0 r st
    let a := sym &&& 3
    let b := sym >>> 2
    let (x0, r) ← decodeSign buf r (xk + a <<< lev)
    let (x1, r) ← decodeSign buf r (xk1 + b <<< lev)
    let c' := (c &&& 15) * 16 + ctxT a b lev
    let (rest, st, r) ← decodePairs buf lsbMode rateFlag ne n (k + 1) c' r st
    .ok ((x0, x1, lev) :: rest, st, r)

/-- decoder/arithmetic_codec.rs 222: `rate_flag` -/
def rateFlagOf (nbits fsInd : Nat) : Nat := if nbits > 160 + fsInd * 160 then 512 else 0

/-- the decoded pairs as a list of lines -/
def pairLines : List (Int × Int × Nat) → List Int
  | [] => []
  | (a, b, _) :: l => a :: b :: pairLines l

/-- decoder/arithmetic_codec.rs 211-305 (`decode_spectral_data`) together with the zeroing of the
lines from `lastnz` on (lines 131-133). `x` has 400 entries, `save_lev` has 400 entries of which the
first `lastnz / 2` are written in LSB mode. -/
def decodeSpectralData (buf : List Nat) (r : Reader) (si : SideInfo) (nbits fsInd ne : Nat)
    (st : AcDec) : Res ((List Int × List Nat) × AcDec × Reader) :=
  if si.lastnz > 400 then .panic
  else do
    let (ps, st, r) ← decodePairs buf si.lsbMode (rateFlagOf nbits fsInd) ne (si.lastnz / 2) 0 0 r st
    let x := pairLines ps ++ List.replicate (400 - 2 * ps.length) 0
    let saveLev := (if si.lsbMode then ps.map (·.2.2) else []) ++
      List.replicate (400 - (if si.lsbMode then ps.length else 0)) 0
    .ok ((x, saveLev), st, r)

/-- decoder/arithmetic_codec.rs 390-405 (`calc_num_residual_bits`) -/
def calcNumResidualBits (r : Reader) (st : AcDec) (totalBits : Nat) : Res Nat := do
  let nbitsSide ← usub r.tail 8
  let h ← usub (r.head + 1) 3
  let nbitsAri ← usub (h * 8 + 25) (Nat.log2 st.range)
  if totalBits ≥ nbitsSide + nbitsAri then .ok (totalBits - nbitsSide - nbitsAri)
  else .err

/-- decoder/arithmetic_codec.rs 177-193: residual bits in normal mode. `room` is
`nbits_residual - residual_bits.len()`. -/
def decodeResidualNormal (buf : List Nat) (r : Reader) : List Int → Nat → Res (List Bool × Reader)
  | [], _ => .ok ([], r)
  | x :: xs, room =>
    if x ≠ 0 then
      match room with
      | 0 => .ok ([], r)
      | room + 1 => do
        let (b, r) ← r.readTailBool buf
        let (l, r) ← decodeResidualNormal buf r xs room
        .ok (b :: l, r)
    else decodeResidualNormal buf r xs room

/-- decoder/arithmetic_codec.rs 346-388 (`read_res_bit`): (continue?, new value, bits left) -/
def readResBit (buf : List Nat) (r : Reader) (x : Int) (nbitsRes : Nat) :
    Res ((Bool × Int × Nat) × Reader) :=
  match nbitsRes with
  | 0 => .ok ((false, x, 0), r)
  | n + 1 => do
    let (bit, r) ← r.readTailBool buf
    if bit then
      if x > 0 then .ok ((true, x + 1, n), r)
      else if x < 0 then .ok ((true, x - 1, n), r)
      else match n with
        | 0 => .ok ((false, x, 0), r)
        | m + 1 => do
          let (b, r) ← r.readTailBool buf
          .ok ((true, if b then -1 else 1, m), r)
    else .ok ((true, x, n), r)

/-- decoder/arithmetic_codec.rs 194-205: residual bits in LSB mode, `k` counts pairs, so the line
index of the Rust code is `2 * k`; `save_lev` is indexed by that line index as in the code. -/
def decodeResidualLsb (buf : List Nat) (saveLev : List Nat) :
    List Int → Nat → Nat → Reader → Res (List Int × Reader)
  | a :: b :: xs, k, nres, r => do
    let lev ← idx saveLev (2 * k)
    if lev > 0 then do
      let ((c, a, nres), r) ← readResBit buf r a nres
      if !c then .ok (a :: b :: xs, r)
      else do
        let ((c, b, nres), r) ← readResBit buf r b nres
        if !c then .ok (a :: b :: xs, r)
        else do
          let (l, r) ← decodeResidualLsb buf saveLev xs (k + 1) nres r
          .ok (a :: b :: l, r)
    else do
      let (l, r) ← decodeResidualLsb buf saveLev xs (k + 1) nres r
      .ok (a :: b :: l, r)
  | xs, _, _, r => .ok (xs, r)

/-- decoder/arithmetic_codec.rs 160-208 (`decode_residual_bits`): residual bits and the new `x`.
The capacity of the vector (480) is never exceeded because at most `ne ≤ 400` bits are pushed. -/
def decodeResidualBits (buf : List Nat) (r : Reader) (si : SideInfo) (st : AcDec) (nbits ne : Nat)
    (x : List Int) (saveLev : List Nat) : Res ((List Bool × List Int) × Reader) := do
  let n ← calcNumResidualBits r st nbits
  if !si.lsbMode then do
    let (bs, r) ← decodeResidualNormal buf r (x.take ne) n
    .ok ((bs, x), r)
  else do
    let (xl, r) ← decodeResidualLsb buf saveLev (x.take si.lastnz) 0 n r
    .ok (([], xl ++ x.drop si.lastnz), r)

/-- `Σ |x_k| * k`, decoder/arithmetic_codec.rs 139-143 -/
def seedSum : List Int → Nat → Nat
  | [], _ => 0
  | x :: xs, k => x.natAbs * k + seedSum xs (k + 1)

/-- decoder/arithmetic_codec.rs 139-144. With overflow checks the `i32` sum panics when it exceeds
`i32::MAX`; without them it wraps, which does not change the low 16 bits. -/
def noiseFillingSeed (checks : Bool) (x : List Int) : Res Nat :=
  let s := seedSum x 0
  if checks && 2 ^ 31 ≤ s then .panic else .ok (s % 65536)

/-- decoder/arithmetic_codec.rs 99-107 -/
structure ArithmeticData where
  rcOrder : List Nat
  rcInts : List Nat
  residualBits : List Bool
  noiseFillingSeed : Nat
  isZeroFrame : Bool
  frameNumBits : Nat
  deriving Repr, DecidableEq

/-- decoder/arithmetic_codec.rs 109-158 (`decode`). The result contains the final `x` (400 lines).
`checks`: the build has overflow checks. -/
def arithDecode (checks : Bool) (buf : List Nat) (r : Reader) (fsInd ne : Nat) (si : SideInfo)
    (d : FrameDuration) : Res ((ArithmeticData × List Int) × Reader) := do
  let nbits := buf.length * 8
  let (st, r) ← acDecInit buf r
  let ((tnsIdx, tnsOrder), st, r) ← decodeTnsData buf r si st nbits d
  let ((x, saveLev), st, r) ← decodeSpectralData buf r si nbits fsInd ne st
  let ((bits, x), r) ← decodeResidualBits buf r si st nbits ne x saveLev
  let seed ← noiseFillingSeed checks (x.take ne)
  let x0 ← idx x 0
  let x1 ← idx x 1
  let zero := si.lastnz == 2 && x0 == 0 && x1 == 0 && si.globalGainIndex == 0
  .ok ((⟨tnsOrder, tnsIdx, bits, seed, zero, nbits⟩, x), r)

end Lc3
