import Verif.Basic
import Verif.Model.Scalar
import Verif.Model.Config
import Verif.Model.SideInfo
import Verif.Tables.LtpfFloat
/-! Model of decoder/long_term_post_filter.rs. -/

namespace Lc3
open Scalar Tables

/-- `l_den`, decoder/long_term_post_filter.rs 106-114 -/
def lDenOf (fs : Nat) : Nat :=
  if fs = 8000 then 4 else if fs = 16000 then 4 else if fs = 24000 then 6 else if fs = 32000 then 8
  else if fs = 44100 then 11 else 12

/-- `num_mem_blocks`, decoder/long_term_post_filter.rs 118-121 -/
def numMemBlocks : FrameDuration → Nat
  | .tenMs => 2
  | .sevenPointFiveMs => 3

/-- `norm`, decoder/long_term_post_filter.rs 118-121 -/
def ltpfNorm (cfg : Lc3Config) : Nat :=
  match cfg.nMs with
  | .tenMs => cfg.nf / 4
  | .sevenPointFiveMs => cfg.nf / 3

/-- size of the circular buffers, decoder/long_term_post_filter.rs 127-128 -/
def ringSize (cfg : Lc3Config) : Nat := cfg.nf * numMemBlocks cfg.nMs

/-- decoder/long_term_post_filter.rs 12-31: the mutable state. The scratch buffer is always written before it
is read and therefore is not part of the state; `c_den_zeros` holds zeros. -/
structure Ltpf (α : Type) where
  activePrev : Bool
  blockStart : Nat
  cNum : List α
  cDen : List α
  cNumMem : List α
  cDenMem : List α
  pIntMem : Nat
  pFrMem : Nat
  yMem : List α
  xMem : List α

/-- decoder/long_term_post_filter.rs 144-147: `t_nbits`. `round(nbits * 10 / 7.5)` is the integer nearest to
`4 nbits / 3` (there are no ties). -/
def ltpfTNbits (d : FrameDuration) (nbits : Nat) : Nat :=
  match d with
  | .sevenPointFiveMs => (8 * nbits + 3) / 6
  | .tenMs => nbits

/-- decoder/long_term_post_filter.rs 142-160 (`compute_gains_params`) -/
def ltpfGainParams (cfg : Lc3Config) (nbits : Nat) : Rat × Nat :=
  let t := ltpfTNbits cfg.nMs nbits
  let s := cfg.fsInd * 80
  if t < 320 + s then (4 / 10, 0)
  else if t < 400 + s then (35 / 100, 1)
  else if t < 480 + s then (3 / 10, 2)
  else if t < 560 + s then (25 / 100, 3)
  else (0, 0)

/-- decoder/long_term_post_filter.rs 169-180: integer part and fraction (in quarters) of the pitch lag at 12.8 kHz -/
def pitchLagDec (pitchIndex : Nat) : Res (Nat × Nat) :=
  if pitchIndex ≥ 440 then do
    let p ← usub pitchIndex 283
    .ok (p, 0)
  else if pitchIndex ≥ 380 then do
    let p ← usub (pitchIndex / 2) 63
    let f ← usub (2 * pitchIndex) (4 * p)
    let f ← usub f 252
    .ok (p, f)
  else do
    let p := pitchIndex / 4 + 32
    let f ← usub (pitchIndex + 128) (4 * p)
    .ok (p, f)

/-- `ceil(fs / 8000)`, decoder/long_term_post_filter.rs 183 -/
def fsCeil (fs : Nat) : Nat := (fs + 7999) / 8000

/-- decoder/long_term_post_filter.rs 182-184: the lag at the output rate in quarter samples. In `f64` the lag is a
multiple of 1/4 below 2^10 and the factor is `5 c / 8` with `c ≤ 6`, hence all products are exact and the
truncation of `4 pitch_fs + 0.5` is this integer. -/
def pitchUp (fs p fr : Nat) : Nat := (5 * fsCeil fs * (4 * p + fr) + 4) / 8

/-- decoder/long_term_post_filter.rs 164-189 (`compute_filter_parameters`) -/
def ltpfParams (cfg : Lc3Config) (info : LtpfInfo) : Res (Nat × Nat) :=
  if !info.isActive then .ok (0, 0)
  else do
    let (p, fr) ← pitchLagDec info.pitchIndex
    let up := pitchUp cfg.fs p fr
    .ok (up / 4, up - 4 * (up / 4))

/-- decoder/long_term_post_filter.rs 207-233: numerator and denominator rows -/
def ltpfTables (fs gainInd pitchFr : Nat) : Res (List Rat × List Rat) := do
  let (tn, td) ← (if fs = 8000 then Res.ok (TAB_LTPF_NUM_8000, TAB_LTPF_DEN_8000)
    else if fs = 16000 then .ok (TAB_LTPF_NUM_16000, TAB_LTPF_DEN_16000)
    else if fs = 24000 then .ok (TAB_LTPF_NUM_24000, TAB_LTPF_DEN_24000)
    else if fs = 32000 then .ok (TAB_LTPF_NUM_32000, TAB_LTPF_DEN_32000)
    else if fs = 44100 then .ok (TAB_LTPF_NUM_48000, TAB_LTPF_DEN_48000)
    else if fs = 48000 then .ok (TAB_LTPF_NUM_48000, TAB_LTPF_DEN_48000)
    else .panic)
  let n ← idx tn gainInd
  let d ← idx td pitchFr
  .ok (n, d)

variable {α : Type} [Scalar α]

/-- overwrite the leading entries of `old` with those of `new` (`iter_mut().zip(..)`) -/
def zipInto (old new : List α) : List α := new.take old.length ++ old.drop new.length

/-- decoder/long_term_post_filter.rs 192-242 (`compute_filter_coeffs`): the new `c_num` and `c_den` -/
def ltpfCoeffs (cfg : Lc3Config) (s : Ltpf α) (info : LtpfInfo) (nbits pitchFr : Nat) : Res (List α × List α) :=
  if !info.isActive then .ok (List.replicate s.cNum.length zero, List.replicate s.cDen.length zero)
  else do
    let (gain, gainInd) := ltpfGainParams cfg nbits
    let (n, d) ← ltpfTables cfg.fs gainInd pitchFr
    .ok (zipInto s.cNum (n.map fun c => ofRat (85 / 100) * ofRat gain * ofRat c),
      zipInto s.cDen (d.map fun c => ofRat gain * ofRat c))

/-- decoder/long_term_post_filter.rs 244-250 (`wrap_if_negative`) followed by the access -/
def ringRead (mem : List α) (ring : Nat) (i : Int) : Res α :=
  if i < 0 then (if i + ring < 0 then .panic else idx mem (i + ring).toNat) else idx mem i.toNat

/-- decoder/long_term_post_filter.rs 383-387, 365-368: numerator part -/
def firAdd (mem : List α) (ring : Nat) : List α → Int → α → Res α
  | [], _, acc => .ok acc
  | c :: cs, i, acc => do
    let v ← ringRead mem ring i
    firAdd mem ring cs (i - 1) (acc + c * v)

/-- decoder/long_term_post_filter.rs 389-393, 370-374: denominator part -/
def firSub (mem : List α) (ring : Nat) : List α → Int → α → Res α
  | [], _, acc => .ok acc
  | c :: cs, i, acc => do
    let v ← ringRead mem ring i
    firSub mem ring cs (i - 1) (acc - c * v)

/-- decoder/long_term_post_filter.rs 380-396 and 399-415 (`compute_filter`, `compute_filter_mem`), which differ
only in the coefficients -/
def computeFilter (ring : Nat) (cNum cDen xMem yMem : List α) (start pitch : Nat) : Res α := do
  let lDen : Int := (cDen.length : Int) - 1
  let a ← firAdd xMem ring cNum start zero
  firSub yMem ring cDen ((start : Int) - pitch + lDen / 2) a

/-- a `for n in a..a + count` loop -/
def forRange {σ : Type} (f : Nat → σ → Res σ) : Nat → Nat → σ → Res σ
  | _, 0, s => .ok s
  | a, n + 1, s => do
    let s ← f a s
    forRange f (a + 1) n s

/-- one filtered sample: copy the input, compute the filter, scale it, subtract it;
decoder/long_term_post_filter.rs 289-292, 296-298, 419-422. The scaling is the identity where the code has none. -/
def ltpfSample (ring : Nat) (cNum cDen xMem : List α) (blk pitch : Nat) (scale : Nat → α → α) (n : Nat)
    (yMem : List α) : Res (List α) := do
  let x ← idx xMem (blk + n)
  let yMem ← setIdx yMem (blk + n) x
  let f ← computeFilter ring cNum cDen xMem yMem (blk + n) pitch
  let y ← idx yMem (blk + n)
  setIdx yMem (blk + n) (y - scale n f)

/-- `n / norm`, decoder/long_term_post_filter.rs 291, 375 -/
def fadeIn (norm : Nat) (n : Nat) (f : α) : α := f * (ofRat n / ofRat norm)

/-- `1 - n / norm`, decoder/long_term_post_filter.rs 421 -/
def fadeOut (norm : Nat) (n : Nat) (f : α) : α := f * (one - ofRat n / ofRat norm)

/-- decoder/long_term_post_filter.rs 350-358: the scratch copy -/
def ltpfScratch (ring norm lNum blk : Nat) (yMem : List α) : Res (List α) :=
  if blk < lNum then do
    let start ← usub ring lNum
    if yMem.length < start + lNum ∨ yMem.length < norm then .panic
    else .ok ((yMem.drop start).take lNum ++ yMem.take norm)
  else if yMem.length < blk + norm then .panic
  else .ok ((yMem.take (blk + norm)).drop (blk - lNum))

/-- decoder/long_term_post_filter.rs 361-376: one sample of `activate_first_2p5ms_from_mem` -/
def ltpfSampleFromMem (ring norm : Nat) (cNum cDen scratch : List α) (blk pitch lNum n : Nat) (yMem : List α) :
    Res (List α) := do
  let x ← idx scratch (n + lNum)
  let yMem ← setIdx yMem (blk + n) x
  let lDen : Int := (cDen.length : Int) - 1
  let a ← firAdd scratch 0 cNum ((lNum + n : Nat) : Int) zero
  let f ← firSub yMem ring cDen (((blk + n : Nat) : Int) - pitch + lDen / 2) a
  let y ← idx yMem (blk + n)
  setIdx yMem (blk + n) (y - fadeIn norm n f)

/-- decoder/long_term_post_filter.rs 417-424 (`deactive_first_2p5ms`) -/
def ltpfDeactivate (ring norm : Nat) (s : Ltpf α) (xMem : List α) (blk sample2p5 : Nat) (yMem : List α) :
    Res (List α) :=
  forRange (ltpfSample ring s.cNum s.cDen xMem blk s.pIntMem (fadeOut norm)) 0 sample2p5 yMem

/-- decoder/long_term_post_filter.rs 280-328: the five transitions. `s` is the old state (its coefficients are the
`c_num_mem`, `c_den_mem` of the code at this point), `cNum`, `cDen` the new coefficients. -/
def ltpfTransition (cfg : Lc3Config) (s : Ltpf α) (active : Bool) (pitch pitchFr : Nat) (cNum cDen xMem : List α) :
    Res (List α) := do
  let ring := ringSize cfg
  let norm := ltpfNorm cfg
  let nf := cfg.nf
  let blk := s.blockStart
  let s25 := if cfg.fs = 44100 then 48000 / 400 else cfg.fs / 400
  let filt := ltpfSample ring cNum cDen xMem blk pitch
  if !active && !s.activePrev then
    forRange (fun n y => do
      let x ← idx xMem (blk + n)
      setIdx y (blk + n) x) 0 nf s.yMem
  else if active && !s.activePrev then do
    let y ← forRange (filt (fadeIn norm)) 0 s25 s.yMem
    forRange (filt (fun _ f => f)) s25 (nf - s25) y
  else if !active && s.activePrev then do
    let y ← ltpfDeactivate ring norm s xMem blk s25 s.yMem
    forRange (fun n y => do
      let x ← idx xMem (blk + n)
      setIdx y (blk + n) x) s25 (nf - s25) y
  else if pitch = s.pIntMem ∧ pitchFr = s.pFrMem then
    forRange (filt (fun _ f => f)) 0 nf s.yMem
  else do
    let y ← ltpfDeactivate ring norm s xMem blk s25 s.yMem
    let lNum ← usub cNum.length 1
    let scratch ← ltpfScratch ring norm lNum blk y
    let y ← forRange (ltpfSampleFromMem ring norm cNum cDen scratch blk pitch lNum) 0 s25 y
    forRange (filt (fun _ f => f)) s25 (nf - s25) y

/-- decoder/long_term_post_filter.rs 252-343 (`run`): the new state and the filtered samples -/
def ltpfRun (cfg : Lc3Config) (s : Ltpf α) (info : LtpfInfo) (nbits : Nat) (x : List α) : Res (Ltpf α × List α) := do
  let (pitch, pitchFr) ← ltpfParams cfg info
  let (cNum, cDen) ← ltpfCoeffs cfg s info nbits pitchFr
  let nf := cfg.nf
  let blk := s.blockStart
  if x.length ≠ nf ∨ s.xMem.length < blk + nf then .panic
  else do
    let xMem := s.xMem.take blk ++ x ++ s.xMem.drop (blk + nf)
    let yMem ← ltpfTransition cfg s info.isActive pitch pitchFr cNum cDen xMem
    let next := if blk + nf > (numMemBlocks cfg.nMs - 1) * nf then 0 else blk + nf
    if yMem.length < blk + nf then .panic
    else
      .ok ({ activePrev := info.isActive, blockStart := next, cNum := cNum, cDen := cDen,
             cNumMem := s.cNum, cDenMem := s.cDen, pIntMem := pitch, pFrMem := pitchFr,
             yMem := yMem, xMem := xMem }, (yMem.take (blk + nf)).drop blk)

end Lc3
