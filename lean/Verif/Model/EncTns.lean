import Verif.Basic
import Verif.Model.Scalar
import Verif.Model.Config
import Verif.Model.EncResidual
import Verif.Model.EncDetect
import Verif.Model.EncSns
import Verif.Model.EncLtpf
import Verif.Tables.Tns
/-!
# Encoder: temporal noise shaping

Model of encoder/temporal_noise_shaping.rs. Simplifications: the arrays of the Levinson recursion hold the valid entries only (the
code never reads an entry that the current recursion has not written); the quantiser step is the same number `piOver17` as in the
decoder (`PI as f32 / 17.0` and `(PI / 17.0) as f32` are the same `f32`).
-/

namespace Lc3
open Scalar Tables

/-- encoder/temporal_noise_shaping.rs 27-33: one entry of `bands` and of `subs` for each filter -/
structure TnsParams where
  numFilters : Nat
  bands : List (Nat × Nat)
  subs : List (List (Nat × Nat))

/-- encoder/temporal_noise_shaping.rs 117-202 (`get_tns_params`). The unused second band `[160, 0]` of the one filter cases is left
out. -/
def tnsParams : FrameDuration → Nat → Res TnsParams
  | .tenMs, 0 => .ok ⟨1, [(12, 80)], [[(12, 34), (34, 57), (57, 80)]]⟩
  | .tenMs, 1 => .ok ⟨1, [(12, 160)], [[(12, 61), (61, 110), (110, 160)]]⟩
  | .tenMs, 2 => .ok ⟨1, [(12, 200)], [[(12, 88), (88, 164), (164, 240)]]⟩
  | .tenMs, 3 => .ok ⟨2, [(12, 160), (160, 320)],
      [[(12, 61), (61, 110), (110, 160)], [(160, 213), (213, 266), (266, 320)]]⟩
  | .tenMs, 4 => .ok ⟨2, [(12, 200), (200, 400)],
      [[(12, 74), (74, 137), (137, 200)], [(200, 266), (266, 333), (333, 400)]]⟩
  | .sevenPointFiveMs, 0 => .ok ⟨1, [(9, 60)], [[(9, 26), (26, 43), (43, 60)]]⟩
  | .sevenPointFiveMs, 1 => .ok ⟨1, [(9, 120)], [[(9, 46), (46, 83), (83, 120)]]⟩
  | .sevenPointFiveMs, 2 => .ok ⟨1, [(9, 180)], [[(9, 66), (66, 123), (123, 180)]]⟩
  | .sevenPointFiveMs, 3 => .ok ⟨2, [(9, 120), (120, 240)],
      [[(9, 46), (46, 82), (82, 120)], [(120, 159), (159, 200), (200, 240)]]⟩
  | .sevenPointFiveMs, 4 => .ok ⟨2, [(9, 150), (150, 300)],
      [[(9, 56), (56, 103), (103, 150)], [(150, 200), (200, 250), (250, 300)]]⟩
  | _, _ => .panic

/-- encoder/temporal_noise_shaping.rs 81-84 -/
def LAG_WINDOW : List Rat :=
  [1, 9980280260203829 / 10000000000000000, 9921354055113971 / 10000000000000000, 9823915844707989 / 10000000000000000,
    9689107911912967 / 10000000000000000, 9518498073692735 / 10000000000000000, 9314049334023056 / 10000000000000000,
    9078082299969592 / 10000000000000000, 8813231366694713 / 10000000000000000]

variable {α : Type} [Scalar α]

/-- encoder/temporal_noise_shaping.rs 92-109: the loop over the three parts of a band: `e_prod` and `rk` -/
def tnsCorrParts (x : List α) (k : Nat) : List (Nat × Nat) → α → α → Res (α × α)
  | [], e, r => .ok (e, r)
  | (a, b) :: ps, e, r => do
    let part ← sliceR x a b
    let es := part.foldl (fun s v => s + v * v) zero
    let ac ← (if a + k < x.length ∧ a + k < b then do
        let sh ← sliceR x (a + k) b
        .ok (dotS part sh)
      else .ok zero)
    tnsCorrParts x k ps (e * es) (r + ac / es)

/-- encoder/temporal_noise_shaping.rs 86-112: the coefficients `k ..` -/
def tnsCorrFrom (x : List α) (sub : List (Nat × Nat)) : Nat → List Rat → Res (List α)
  | _, [] => .ok []
  | k, w :: ws => do
    let (e, r) ← tnsCorrParts x k sub one zero
    let v : α := if eq e zero then (if k = 0 then ofRat 3 else zero) else r
    let rest ← tnsCorrFrom x sub (k + 1) ws
    .ok (v * ofRat w :: rest)

/-- encoder/temporal_noise_shaping.rs 80-115 (`compute_normalized_autocorrelation`) -/
def tnsCorr (x : List α) (sub : List (Nat × Nat)) : Res (List α) := tnsCorrFrom x sub 0 LAG_WINDOW

/-- encoder/temporal_noise_shaping.rs 213-232: step `k` of the Levinson recursion; `a` has `k` entries -/
def levStep (r : List α) (k : Nat) (s : List α × α) : List α × α :=
  let (a, e) := s
  let rc := (List.range k).foldl (fun c n => c - at0 a n * at0 r (k - n)) zero
  let rc := if eq e zero then rc else rc / e
  (one :: ((List.range (k - 1)).map fun n => at0 a (n + 1) + rc * at0 a (k - (n + 1))) ++ [rc], e * (one - rc * rc))

/-- encoder/temporal_noise_shaping.rs 205-232: `a` (9 entries) and the prediction error -/
def levinson (r : List α) : List α × α :=
  (List.range 8).foldl (fun s k => levStep r (k + 1) s) ([one], at0 r 0)

/-- encoder/temporal_noise_shaping.rs 249-256: the reflection coefficients `k - 1, .., 0` of `a`, prepended to `acc` -/
def stepDown : Nat → List α → List α → List α
  | 0, _, acc => acc
  | k + 1, a, acc =>
    let rc := at0 a (k + 1)
    let e := one - rc * rc
    stepDown k (one :: (List.range k).map fun n => (at0 a (n + 1) - rc * at0 a (k + 1 - (n + 1))) / e) (rc :: acc)

/-- encoder/temporal_noise_shaping.rs 204-265 (`tns_analysis`): the 8 reflection coefficients of a filter -/
def tnsAnalysis (r : List α) (nearNyquist : Bool) (lpcWeighting : Nat) : List α :=
  let (a, e) := levinson r
  let predGain := if eq e zero then at0 r 0 else at0 r 0 / e
  if lt (ofRat (3 / 2)) predGain && !nearNyquist then
    let gamma : α := if decide (lpcWeighting > 0) && lt predGain (ofRat 2) then
        one - (one - ofRat (85 / 100)) * (ofRat 2 - predGain) / (ofRat 2 - ofRat (3 / 2))
      else one
    stepDown 8 (a.zipIdx.map fun p => p.1 * powi gamma p.2) []
  else List.replicate 8 zero

/-- `x as i8` -/
def toI8 (x : α) : Int := max (-128) (min 127 (toI32 x))

/-- encoder/temporal_noise_shaping.rs 343-349 (`to_int`) -/
def tnsToInt (x : α) : Int := if geS x zero then toI8 (x + ofRat (1 / 2)) else toI8 (-(-x + ofRat (1 / 2)))

/-- encoder/temporal_noise_shaping.rs 272: the index of a reflection coefficient -/
def tnsIndex (rc : α) : Res Nat := do
  let v ← i8Chk (tnsToInt (asin rc / piOver17) + 8)
  .ok (i32AsUsize v)

/-- encoder/temporal_noise_shaping.rs 273: the quantised reflection coefficient -/
def tnsQuant (i : Nat) : α := sin (piOver17 * (ofInt i - ofRat 8))

/-- encoder/temporal_noise_shaping.rs 277-281: the order: trailing indices 8 are dropped -/
def tnsOrder : List Nat → Nat
  | [] => 0
  | i :: is => let o := tnsOrder is; if o = 0 then (if i = 8 then 0 else 1) else o + 1

/-- encoder/temporal_noise_shaping.rs 300-306: bits of the coefficients `k ..` -/
def tnsCoefBits : Nat → List Nat → Res Nat
  | _, [] => .ok 0
  | k, i :: is => do
    let row ← idx AC_TNS_COEF_BITS k
    let b ← idx row i
    let r ← tnsCoefBits (k + 1) is
    .ok (b + r)

/-- encoder/temporal_noise_shaping.rs 294-311 (`calc_bit_budget`) for one filter -/
def tnsFilterBits (α : Type) [Scalar α] (w : Nat) (ints : List Nat) : Res Nat := do
  let o := tnsOrder ints
  let ob ← (if o ≠ 0 then do
      let row ← idx AC_TNS_ORDER_BITS w
      idx row (o - 1)
    else .ok 0)
  let cb ← tnsCoefBits 0 (ints.take o)
  .ok (toUsize (ceilS ((ofRat 2048 + (ofInt ob : α) + ofInt cb) / ofRat 2048)))

/-- encoder/temporal_noise_shaping.rs 327-332: the loop over all but the last coefficient. State: `t`, `st_save`; the new filter
states come out. -/
def encLattice : List α → List α → α → α → α × α × List α
  | r :: rs, s :: ss, t, save =>
    let tmp := r * t + s
    let (t', save', ss') := encLattice rs ss (t + r * s) tmp
    (t', save', save :: ss')
  | _, _, t, save => (t, save, [])

/-- encoder/temporal_noise_shaping.rs 322-337: one line. `rc` are the coefficients of the filter (as many as its order), `st` the
eight states. -/
def encLatticeLine (rc : List α) (x : α) (st : List α) : α × List α :=
  let k := rc.length - 1
  let (t, save, ss) := encLattice (rc.take k) (st.take k) x x
  (t + at0 rc k * at0 st k, ss ++ save :: st.drop (k + 1))

/-- encoder/temporal_noise_shaping.rs 322-338: all lines of a band -/
def encLatticeBand (rc : List α) : List α → List α → List α × List α
  | [], st => ([], st)
  | x :: xs, st =>
    let (y, st) := encLatticeLine rc x st
    let (ys, st) := encLatticeBand rc xs st
    (y :: ys, st)

/-- encoder/temporal_noise_shaping.rs 313-341 (`apply_filtering`): one entry of `filters` per filter with the quantised coefficients up to
the order; the states are carried from one filter to the next -/
def tnsFilterLoop : List (Nat × Nat) → List (List α) → List α → List α → Res (List α)
  | (a, b) :: bands, rc :: rcs, lines, st =>
    if rc.length ≠ 0 then do
      let l ← sliceR lines a b
      let (l, st) := encLatticeBand rc l st
      tnsFilterLoop bands rcs (lines.take a ++ l ++ lines.drop b) st
    else tnsFilterLoop bands rcs lines st
  | _, _, lines, _ => .ok lines

/-- encoder/temporal_noise_shaping.rs 18-25 with the filtered lines -/
structure TnsResult (α : Type) where
  nbitsTns : Nat
  lpcWeighting : Nat
  numFilters : Nat
  rcOrder : List Nat
  rcI : List Nat
  lines : List α

/-- encoder/temporal_noise_shaping.rs 50-54 -/
def lpcWeightingOf (d : FrameDuration) (nbits : Nat) : Nat :=
  match d with
  | .tenMs => if nbits < 480 then 1 else 0
  | .sevenPointFiveMs => if nbits < 360 then 1 else 0

/-- the indices of one filter: lines 56-62 and 270-275 -/
def tnsFilterInts (x : List α) (nearNyquist : Bool) (w : Nat) (sub : List (Nat × Nat)) : Res (List Nat) := do
  let r ← tnsCorr x sub
  (tnsAnalysis r nearNyquist w).mapM tnsIndex

/-- encoder/temporal_noise_shaping.rs 40-78 (`run`) -/
def tnsEncRun (cfg : Lc3Config) (x : List α) (bw nbits : Nat) (nearNyquist : Bool) : Res (TnsResult α) :=
  if x.length ≠ cfg.ne then .panic
  else do
    let p ← tnsParams cfg.nMs bw
    let w := lpcWeightingOf cfg.nMs nbits
    let ints ← p.subs.mapM (tnsFilterInts x nearNyquist w)
    let bits ← ints.mapM (tnsFilterBits α w)
    let lines ← tnsFilterLoop p.bands (ints.map fun l => (l.take (tnsOrder l)).map tnsQuant) x (List.replicate 8 zero)
    .ok ⟨bits.sum, w, p.numFilters, ints.map tnsOrder ++ List.replicate (2 - p.numFilters) 0,
      ints.flatten ++ List.replicate (16 - 8 * p.numFilters) 8, lines⟩

end Lc3
