import Verif.Model.BitstreamEnc
import Verif.Model.ReadFrame
/-! Copies of the spectral coding loops that log every look-up into the probability tables before it is
made. `Verif/Lemmas/Traced.lean` proves that dropping the log gives the models back. -/

namespace Lc3
open Tables

/-- a computation that logs look-ups; the log survives errors and panics -/
def Logged (ε α : Type) := List ε × Res α

namespace Logged

def bind {ε α β : Type} (m : Logged ε α) (f : α → Logged ε β) : Logged ε β :=
  match m with
  | (l, .ok a) => (l ++ (f a).1, (f a).2)
  | (l, .err) => (l, .err)
  | (l, .panic) => (l, .panic)

def lift {ε α : Type} (r : Res α) : Logged ε α := ([], r)

def log {ε : Type} (e : ε) : Logged ε Unit := ([e], .ok ())

instance {ε : Type} : Monad (Logged ε) where
  pure a := ([], .ok a)
  bind := bind

end Logged

open Logged

/-- `encSym` with log: (index of the model, symbol) -/
def encSymT (t lev sym : Nat) (s : EncSt) : Logged (Nat × Nat) EncSt := do
  log (t + min lev 3 * 1024, sym)
  lift (encSym t lev sym s)

/-- `encEscapes` with log -/
def encEscapesT (lsbMode : Bool) (t : Nat) :
    Nat → Nat → Nat → Nat → EncSt → Logged (Nat × Nat) ((Nat × Nat × Nat) × EncSt)
  | fuel, a, b, lev, s =>
    if max a b ≥ 4 then
      match fuel with
      | 0 => lift .panic
      | fuel + 1 => do
        let s ← encSymT t lev 16 s
        let s ← lift (if lsbMode && lev == 0 then .ok s
          else do
            let s ← s.bool (a &&& 1 == 1)
            s.bool (b &&& 1 == 1))
        encEscapesT lsbMode t fuel (a >>> 1) (b >>> 1) (lev + 1) s
    else lift (.ok ((a, b, lev), s))

/-- `encPairs` with log -/
def encPairsT (lsbMode : Bool) (rateFlag ne nbitsLsb : Nat) :
    List Int → Nat → Nat → List Bool → EncSt → Logged (Nat × Nat) (List Bool × EncSt)
  | x0 :: x1 :: xs, k, c, lsbs, s => do
    let t := c + rateFlag + if k > ne / 2 then 256 else 0
    let ((a, b, lev), s) ← encEscapesT lsbMode t 16 x0.natAbs x1.natAbs 0 s
    let s ← encSymT t lev (a + 4 * b) s
    let post := lsbMode && lev > 0
    let lsbs := if post then lsbs ++ pairLsbs x0 x1 else lsbs
    if lsbs.length > nbitsLsb then lift .panic
    else do
      let aLsb := if post then x0.natAbs >>> 1 else x0.natAbs
      let bLsb := if post then x1.natAbs >>> 1 else x1.natAbs
      let s ← lift (if aLsb > 0 then s.bool (decide (x0 ≤ 0)) else .ok s)
      let s ← lift (if bLsb > 0 then s.bool (decide (x1 ≤ 0)) else .ok s)
      let c' := (c &&& 15) * 16 + ctxT a b lev
      encPairsT lsbMode rateFlag ne nbitsLsb xs (k + 2) c' lsbs s
  | [], _, _, lsbs, s => lift (.ok (lsbs, s))
  | [_], _, _, _, _ => lift .panic

/-- `encSpectral` with log -/
def encSpectralT (ne : Nat) (p : FrameParams) (s : EncSt) : Logged (Nat × Nat) (List Bool × EncSt) := do
  let _ ← lift (s.w.nbitsSideWritten (s.buf.length * 8))
  if p.nbitsLsb > 3840 then lift .panic
  else if p.lastnz > p.xq.length then lift .panic
  else encPairsT p.lsbMode p.rateFlag ne p.nbitsLsb (p.xq.take p.lastnz) 0 0 [] s

/-- `encodeBody` with the log of the spectral look-ups -/
def encodeBodyT (ne : Nat) (p : FrameParams) (stale : EncSt) (buf : List Nat) :
    Logged (Nat × Nat) (List Bool × EncSt) := do
  let w ← lift (Writer.new buf.length)
  let s : EncSt := { stale with w := w, buf := List.replicate buf.length 0 }
  let s ← lift (encSideInfo ne p s)
  let s := acEncInit s
  let s ← lift (encTnsData p.lpcWeighting p.rcOrder p.rcI 0 p.numTns s)
  encSpectralT ne p s

/-- `decodeEscapes` with log: index of the model -/
def decodeEscapesT (buf : List Nat) (lsbMode : Bool) (t : Nat) :
    Nat → Nat → Nat → Nat → Nat → Reader → AcDec → Logged Nat ((Nat × Nat × Nat × Nat) × AcDec × Reader)
  | 0, lev, sym, xk, xk1, r, st => lift (.ok ((sym, lev, xk, xk1), st, r))
  | fuel + 1, lev, _, xk, xk1, r, st => do
    log (t + min lev 3 * 1024)
    let pki ← lift (idx AC_SPEC_LOOKUP (t + min lev 3 * 1024))
    let cum ← lift (idx AC_SPEC_CUMFREQ pki)
    let freq ← lift (idx AC_SPEC_FREQ pki)
    let (sym, st, r) ← lift (acDecode buf r st cum freq)
    if sym < 16 then lift (.ok ((sym, lev, xk, xk1), st, r))
    else if !lsbMode || lev > 0 then do
      let (b0, r) ← lift (r.readTailBool buf)
      let (b1, r) ← lift (r.readTailBool buf)
      decodeEscapesT buf lsbMode t fuel (lev + 1) sym
        (xk + b0.toNat <<< lev) (xk1 + b1.toNat <<< lev) r st
    else decodeEscapesT buf lsbMode t fuel (lev + 1) sym xk xk1 r st

/-- `decodePairs` with log -/
def decodePairsT (buf : List Nat) (lsbMode : Bool) (rateFlag ne : Nat) :
    Nat → Nat → Nat → Reader → AcDec → Logged Nat (List (Int × Int × Nat) × AcDec × Reader)
  | 0, _, _, r, st => lift (.ok ([], st, r))
  | n + 1, k, c, r, st => do
    let t := c + rateFlag + if k * 2 > ne / 2 then 256 else 0
    let ((sym, lev, xk, xk1), st, r) ← decodeEscapesT buf lsbMode t 14 0 0 0 0 r st
    let a := sym &&& 3
    let b := sym >>> 2
    let (x0, r) ← lift (decodeSign buf r (xk + a <<< lev))
    let (x1, r) ← lift (decodeSign buf r (xk1 + b <<< lev))
    let c' := (c &&& 15) * 16 + ctxT a b lev
    let (rest, st, r) ← decodePairsT buf lsbMode rateFlag ne n (k + 1) c' r st
    lift (.ok ((x0, x1, lev) :: rest, st, r))

/-- `decodeSpectralData` with log -/
def decodeSpectralDataT (buf : List Nat) (r : Reader) (si : SideInfo) (nbits fsInd ne : Nat)
    (st : AcDec) : Logged Nat ((List Int × List Nat) × AcDec × Reader) :=
  if si.lastnz > 400 then lift .panic
  else do
    let (ps, st, r) ← decodePairsT buf si.lsbMode (rateFlagOf nbits fsInd) ne (si.lastnz / 2) 0 0 r st
    let x := pairLines ps ++ List.replicate (400 - 2 * ps.length) 0
    let saveLev := (if si.lsbMode then ps.map (·.2.2) else []) ++
      List.replicate (400 - (if si.lsbMode then ps.length else 0)) 0
    lift (.ok ((x, saveLev), st, r))

/-- `arithDecode` with the log of the spectral look-ups -/
def arithDecodeT (checks : Bool) (buf : List Nat) (r : Reader) (fsInd ne : Nat) (si : SideInfo)
    (d : FrameDuration) : Logged Nat ((ArithmeticData × List Int) × Reader) := do
  let nbits := buf.length * 8
  let (st, r) ← lift (acDecInit buf r)
  let ((tnsIdx, tnsOrder), st, r) ← lift (decodeTnsData buf r si st nbits d)
  let ((x, saveLev), st, r) ← decodeSpectralDataT buf r si nbits fsInd ne st
  let ((bits, x), r) ← lift (decodeResidualBits buf r si st nbits ne x saveLev)
  let seed ← lift (noiseFillingSeed checks (x.take ne))
  let x0 ← lift (idx x 0)
  let x1 ← lift (idx x 1)
  let zero := si.lastnz == 2 && x0 == 0 && x1 == 0 && si.globalGainIndex == 0
  lift (.ok ((⟨tnsOrder, tnsIdx, bits, seed, zero, nbits⟩, x), r))

/-- `readFrame` with the log of the spectral look-ups -/
def readFrameT (checks : Bool) (cfg : Lc3Config) (buf : List Nat) :
    Logged Nat (SideInfo × ArithmeticData × List Int) := do
  let (si, r) ← lift (readSideInfo buf Reader.new cfg.fsInd cfg.ne)
  let ((ad, x), _) ← arithDecodeT checks buf r cfg.fsInd cfg.ne si cfg.nMs
  lift (.ok (si, ad, x))

end Lc3
