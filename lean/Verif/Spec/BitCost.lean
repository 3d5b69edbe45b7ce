import Verif.Spec.Context
import Verif.Tables.SpectralData
import Verif.Tables.Tns
import Mathlib.Analysis.SpecialFunctions.Log.Base
/-!
# Specification: how many bits an ideal entropy coder needs
-/

namespace Lc3.Spec

/-- information, in bits, of a symbol with frequency `f` out of 1024 -/
noncomputable def idealBits (f : Nat) : ℝ := Real.logb 2 (1024 / f)

/-- information of the symbols of the spectrum `xs`: every symbol has the frequency of its model -/
noncomputable def symbolInfo (rateFlag ne : Nat) (xs : List Int) : ℝ :=
  ((Context.symbols 15 rateFlag ne (Context.ofLines xs)).map fun e =>
    idealBits ((Tables.AC_SPEC_FREQ.getD (Tables.AC_SPEC_LOOKUP.getD e.1 0) []).getD e.2 0)).sum

/-- number of symbols of the spectrum `xs` -/
def symbolCount (rateFlag ne : Nat) (xs : List Int) : Nat := (Context.symbols 15 rateFlag ne (Context.ofLines xs)).length

/-- bits of a pair that are written without entropy coding: two for every halving, and a sign for every line that is not zero.
With LSB mode (`lsb`) the two lowest bits of a pair that is halved, and the sign of a line that is zero without its lowest bit,
are left out. -/
def plainPair (lsb : Bool) (x0 x1 : Int) : Nat :=
  let e := Context.escapes x0.natAbs x1.natAbs
  let sign (x : Int) : Nat := if x = 0 ∨ (lsb = true ∧ 0 < e ∧ x.natAbs = 1) then 0 else 1
  2 * (if lsb then e - 1 else e) + sign x0 + sign x1

/-- the bits of a spectrum that are written without entropy coding -/
def plainBits (lsb : Bool) : List Int → Nat
  | x0 :: x1 :: xs => plainPair lsb x0 x1 + plainBits lsb xs
  | _ => 0

/-- lines of magnitude one next to a line of magnitude four or more: LSB mode does not write their signs at once -/
def savedSigns : List Int → Nat
  | x0 :: x1 :: xs =>
    (if 4 ≤ x0.natAbs ∨ 4 ≤ x1.natAbs then (if x0.natAbs = 1 then 1 else 0) + (if x1.natAbs = 1 then 1 else 0) else 0) + savedSigns xs
  | _ => 0

/-- information of a filter of temporal noise shaping: its order (if not zero) and its coefficients `cs`, one model for every position -/
noncomputable def filterInfo (weighting : Nat) (cs : List Nat) : ℝ :=
  if cs = [] then 0
  else idealBits ((Tables.AC_TNS_ORDER_FREQ.getD weighting []).getD (cs.length - 1) 0) +
    (cs.mapIdx fun k c => idealBits ((Tables.AC_TNS_COEF_FREQ.getD k []).getD c 0)).sum

/-- number of symbols of a filter -/
def filterCount (cs : List Nat) : Nat := if cs = [] then 0 else 1 + cs.length

/-- number of range coded symbols of a frame: those of the filters `0 .. numTns - 1` (eight index places each, of which the first
`order` are used) and those of the spectrum -/
def frameSymbols (numTns : Nat) (rcOrder rcI : List Nat) (rateFlag ne : Nat) (xs : List Int) : Nat :=
  ((List.range numTns).map fun f => filterCount ((rcI.drop (8 * f)).take (rcOrder.getD f 0))).sum + symbolCount rateFlag ne xs

/-- information of the range coded symbols of a frame -/
noncomputable def frameInfo (weighting numTns : Nat) (rcOrder rcI : List Nat) (rateFlag ne : Nat) (xs : List Int) : ℝ :=
  ((List.range numTns).map fun f => filterInfo weighting ((rcI.drop (8 * f)).take (rcOrder.getD f 0))).sum + symbolInfo rateFlag ne xs

/-- length of the side information in bits: bandwidth, last line (an index below `2 ^ lastBits`), LSB mode, gain, a flag for every filter, pitch
(one bit, eleven if a pitch is present), noise shaping (38 bits), noise level -/
def sideLength (nbitsBandwidth lastBits numTns : Nat) (pitch : Bool) : Nat :=
  nbitsBandwidth + lastBits + 1 + 8 + numTns + (if pitch then 11 else 1) + 38 + 3

end Lc3.Spec
