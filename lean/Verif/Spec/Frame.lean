import Verif.Model.BitstreamEnc
import Verif.Model.SnsPack
/-! Specification of the parameters of a frame: which values are admissible, and what a decoder
must report for them. -/

namespace Lc3

/-- the pulse indices behind `index_joint_j` -/
structure PulseIdx where
  idxa : Nat
  idxb : Nat
  lsIndb : Nat

/-- admissible side information for a configuration -/
structure SideOk (cfg : Lc3Config) (p : FrameParams) (q : PulseIdx) : Prop where
  bwBits : NBITS_BW_TABLE[cfg.fsInd]? = some p.nbitsBandwidth
  bw : p.bandwidthInd ≤ cfg.fsInd
  lastnzEven : p.lastnz % 2 = 0
  lastnzLo : 2 ≤ p.lastnz
  lastnzHi : p.lastnz ≤ cfg.ne
  gg : p.ggInd < 256
  numTns : p.numTns = if p.bandwidthInd < 3 then 1 else 2
  rcOrderLen : p.rcOrder.length = 2
  pitch : p.pitchIndex < 512
  lf : p.indLf < 32
  hf : p.indHf < 32
  shape : p.shapeJ < 4
  gain : p.gind < (if p.shapeJ = 0 then 2 else if p.shapeJ = 3 then 8 else 4)
  sign : p.lsInda ≤ 1
  joint : p.indexJoint = jointIndex p.shapeJ p.gind q.idxa q.idxb q.lsIndb
  idxa : q.idxa < (if p.shapeJ ≤ 1 then 2390004 else if p.shapeJ = 2 then 15158272 else 774912)
  idxb : p.shapeJ = 0 → q.idxb < 6 ∧ q.lsIndb ≤ 1
  noise : p.noiseFactor < 8

/-- the side information a decoder must report -/
def expectedSide (p : FrameParams) (q : PulseIdx) : SideInfo where
  bandwidth := p.bandwidthInd
  lastnz := p.lastnz
  lsbMode := p.lsbMode
  globalGainIndex := p.ggInd
  numTnsFilters := p.numTns
  rcOrderIn := (p.rcOrder.take p.numTns).map (fun o => if o = 0 then 0 else 1) ++
    List.replicate (2 - p.numTns) 0
  snsVq :=
    { indLf := p.indLf, indHf := p.indHf, lsInda := p.lsInda,
      lsIndb := if p.shapeJ = 0 then q.lsIndb else 0,
      idxA := q.idxa, idxB := if p.shapeJ = 0 then q.idxb else 0,
      submodeLsb := p.shapeJ % 2, submodeMsb := p.shapeJ / 2, gInd := p.gind }
  ltpf := if p.pitchPresent then ⟨true, p.ltpfActive, p.pitchIndex⟩ else ⟨false, false, 0⟩
  noiseFactor := p.noiseFactor

/-- admissible coded data for a configuration and a frame of `N` bytes -/
structure DataOk (cfg : Lc3Config) (N : Nat) (p : FrameParams) : Prop where
  weighting : p.lpcWeighting = if 8 * N < (if cfg.nMs = .tenMs then 480 else 360) then 1 else 0
  orders : ∀ o ∈ p.rcOrder, o ≤ 8
  coefs : ∀ c ∈ p.rcI, c < 17
  coefsLen : p.rcI.length = 16
  rate : p.rateFlag = if 160 + 160 * cfg.fsInd < 8 * N then 512 else 0
  lines : p.lastnz ≤ p.xq.length
  range : ∀ x ∈ p.xq.take p.lastnz, x.natAbs < 32768

/-- orders of the two noise shaping filters -/
def expectedOrders (p : FrameParams) : List Nat :=
  p.rcOrder.take p.numTns ++ List.replicate (2 - p.numTns) 0

/-- coefficient indices of filter `f`, eight entries -/
def expectedCoefs (p : FrameParams) (f : Nat) : List Nat :=
  (p.rcI.drop (8 * f)).take (p.rcOrder.getD f 0) ++ List.replicate (8 - p.rcOrder.getD f 0) 0

def expectedTnsIdx (p : FrameParams) : List Nat :=
  expectedCoefs p 0 ++ if p.numTns = 1 then List.replicate 8 0 else expectedCoefs p 1

/-- the quantised spectrum, with zeros from `lastnz` on -/
def expectedX (p : FrameParams) : List Int :=
  p.xq.take p.lastnz ++ List.replicate (400 - p.lastnz) 0

end Lc3

namespace Lc3

/-- `Σ |x_k| * k` over the coded lines -/
def weightedSum (xs : List Int) : Nat := ((List.range xs.length).map fun k => (xs.getD k 0).natAbs * k).sum

/-- start value of the noise generator -/
def expectedSeed (p : FrameParams) : Nat := weightedSum (p.xq.take p.lastnz) % 65536

/-- the frame holds no spectrum at all -/
def expectedZero (p : FrameParams) : Bool :=
  decide (p.lastnz = 2 ∧ p.ggInd = 0 ∧ ∀ x ∈ p.xq.take p.lastnz, x = 0)

/-- number of non-zero coded lines -/
def nonZeroLines (p : FrameParams) : Nat := ((p.xq.take p.lastnz).filter (· ≠ 0)).length

/-- The pair of lines `2 k`, `2 k + 1` is escaped. -/
def Escaped (p : FrameParams) (k : Nat) : Prop :=
  4 ≤ ((p.xq.take p.lastnz).getD (2 * k) 0).natAbs ∨ 4 ≤ ((p.xq.take p.lastnz).getD (2 * k + 1) 0).natAbs

end Lc3
