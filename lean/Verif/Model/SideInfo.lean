import Verif.Model.BufferReader
import Verif.Model.Config
/-! Model of decoder/side_info.rs and decoder/side_info_reader.rs. -/

namespace Lc3

/-- decoder/side_info.rs (struct SnsVq) -/
structure SnsVq where
  indLf : Nat
  indHf : Nat
  lsInda : Nat
  lsIndb : Nat
  idxA : Nat
  idxB : Nat
  submodeLsb : Nat
  submodeMsb : Nat
  gInd : Nat
  deriving Repr, DecidableEq

/-- decoder/side_info.rs (struct LongTermPostFilterInfo) -/
structure LtpfInfo where
  pitchPresent : Bool
  isActive : Bool
  pitchIndex : Nat
  deriving Repr, DecidableEq

/-- decoder/side_info.rs (struct SideInfo); the bandwidth enum is its discriminant, the array
`reflect_coef_order_ari_input` is a list of length two. -/
structure SideInfo where
  bandwidth : Nat
  lastnz : Nat
  lsbMode : Bool
  globalGainIndex : Nat
  numTnsFilters : Nat
  rcOrderIn : List Nat
  snsVq : SnsVq
  ltpf : LtpfInfo
  noiseFactor : Nat
  deriving Repr, DecidableEq

/-- decoder/side_info_reader.rs 11 -/
def NBITS_BW_TABLE : List Nat := [0, 1, 2, 2, 3]

/-- decoder/side_info_reader.rs 145-193: interpretation of the joint index `tmp` -/
def unpackSns (indLf indHf lsInda : Nat) (msb : Bool) (gInd tmp : Nat) : Res SnsVq :=
  if !msb then
    if tmp ≥ 33460056 then .err
    else
      let q := tmp / 2390004
      let idxA := tmp - q * 2390004
      if q < 2 then
        -- idx_bor_gain_lsb - 2 is negative: submode_lsb = 1, and 2 is added back
        .ok ⟨indLf, indHf, lsInda, 0, idxA, 0, 1, 0, (gInd <<< 1) + q⟩
      else
        .ok ⟨indLf, indHf, lsInda, (q - 2) &&& 1, idxA, (q - 2) >>> 1, 0, 0, gInd⟩
  else
    if tmp ≥ 16708096 then .err
    else if tmp ≥ 15158272 then
      let t := tmp - 15158272
      .ok ⟨indLf, indHf, lsInda, 0, t >>> 1, 0, 1, 1, (gInd <<< 1) + (t &&& 1)⟩
    else
      .ok ⟨indLf, indHf, lsInda, 0, tmp, 0, 0, 1, gInd⟩

/-- decoder/side_info_reader.rs 125-193 (`read_sns_vq`) -/
def readSnsVq (buf : List Nat) (r : Reader) : Res (SnsVq × Reader) := do
  let (indLf, r) ← r.readTailUsize buf 5
  let (indHf, r) ← r.readTailUsize buf 5
  let (msb, r) ← r.readTailBool buf
  let (gInd, r) ← r.readTailUsize buf (if msb then 2 else 1)
  let (lsA, r) ← r.readTailBool buf
  let (tmp, r) ← r.readTailUsize buf (if msb then 24 else 25)
  let v ← unpackSns indLf indHf (if lsA then 1 else 0) msb gInd tmp
  .ok (v, r)

/-- decoder/side_info_reader.rs 102-123 (`read_long_term_post_filter_info`) -/
def readLtpfInfo (buf : List Nat) (r : Reader) (pitchPresent : Bool) : Res (LtpfInfo × Reader) :=
  if pitchPresent then do
    let (act, r) ← r.readTailBool buf
    let (pi, r) ← r.readTailUsize buf 9
    .ok (⟨true, act, pi⟩, r)
  else .ok (⟨false, false, 0⟩, r)

/-- the loop reading the TNS flags, decoder/side_info_reader.rs 65-68; `rc_order` has length 2 -/
def readTnsFlags (buf : List Nat) (r : Reader) : Nat → Res (List Nat × Reader)
  | 0 => .ok ([], r)
  | n + 1 => do
    let (b, r) ← r.readTailBool buf
    let (l, r) ← readTnsFlags buf r n
    .ok ((if b then 1 else 0) :: l, r)

/-- the bandwidth field, decoder/side_info_reader.rs 35-47 -/
def readBandwidth (buf : List Nat) (r : Reader) (fsInd : Nat) : Res (Nat × Reader) := do
  let nbitsBw ← idx NBITS_BW_TABLE fsInd
  if nbitsBw > 0 then do
    let (i, r) ← r.readTailUsize buf nbitsBw
    if fsInd < i then .err else .ok (i, r)
  else .ok (0, r)

/-- decoder/side_info_reader.rs 29-100 (`read`). `log2().ceil()` of `ne / 2` is the exact integer
`clog2` (no `ne / 2` of a configuration is a power of two). -/
def readSideInfo (buf : List Nat) (r : Reader) (fsInd ne : Nat) : Res (SideInfo × Reader) := do
  let (pBw, r) ← readBandwidth buf r fsInd
  let (lastnz, r) ← r.readTailUsize buf (clog2 (ne / 2))
  let lastnz := (lastnz + 1) <<< 1
  if lastnz > ne then .err
  else do
    let (lsbMode, r) ← r.readTailBool buf
    let (ggInd, r) ← r.readTailUsize buf 8
    let numTns := if pBw < 3 then 1 else 2
    let (flags, r) ← readTnsFlags buf r numTns
    let rcOrder := flags ++ List.replicate (2 - numTns) 0
    let (pitchPresent, r) ← r.readTailBool buf
    let (sns, r) ← readSnsVq buf r
    let (ltpf, r) ← readLtpfInfo buf r pitchPresent
    let (fNf, r) ← r.readTailUsize buf 3
    if pBw ≤ 4 then
      .ok (⟨pBw, lastnz, lsbMode, ggInd, numTns, rcOrder, sns, ltpf, fNf⟩, r)
    else .err

end Lc3
