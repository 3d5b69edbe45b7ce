import Verif.Basic
import Verif.Model.Scalar
/-! Models of common/complex.rs, common/kissfft.rs and common/dct_iv.rs. -/

namespace Lc3
open Scalar

/-- common/complex.rs 5-8 -/
structure Cx (α : Type) where
  r : α
  i : α
  deriving Repr, DecidableEq

variable {α : Type} [Scalar α]

/-- common/complex.rs 16-24 -/
instance : Mul (Cx α) := ⟨fun a b => ⟨a.r * b.r - a.i * b.i, a.r * b.i + a.i * b.r⟩⟩
/-- common/complex.rs 26-34 -/
instance : Add (Cx α) := ⟨fun a b => ⟨a.r + b.r, a.i + b.i⟩⟩
/-- common/complex.rs 36-44 -/
instance : Sub (Cx α) := ⟨fun a b => ⟨a.r - b.r, a.i - b.i⟩⟩

/-- common/kissfft.rs 18-27: the twiddle factors of a transform of size `n` -/
def fftTwiddle (n : Nat) (inverse : Bool) : List (Cx α) :=
  (List.range n).map fun (i : Nat) =>
    let q : Rat := (if inverse then 2 else -2) * i / n
    ⟨cosPi q, sinPi q⟩

/-- common/kissfft.rs 53-75: the factorisation loop. `sq` is `floor(sqrt(n))` of the original size (the code takes it in binary32, which is
exact below 2^22). Running out of fuel is `panic`; it does not happen for any size from one on (`kfFactor_total` in the lemmas). -/
def kfFactorLoop (sq : Nat) : Nat → Nat → Nat → Res (List (Nat × Nat))
  | 0, _, _ => .panic
  | fuel + 1, p, n =>
    if n % p ≠ 0 then
      let p := if p = 4 then 2 else if p = 2 then 3 else p + 2
      kfFactorLoop sq fuel (if p > sq then n else p) n
    else if n / p ≤ 1 then .ok [(p, n / p)]
    else do
      let l ← kfFactorLoop sq fuel p (n / p)
      .ok ((p, n / p) :: l)

/-- common/kissfft.rs 47-76 (`kf_factor`): the pairs `p, m` -/
def kfFactor (n : Nat) : Res (List (Nat × Nat)) := kfFactorLoop (Nat.sqrt n) (2 * n + 8) 4 n

/-- common/kissfft.rs 133-141 (`kf_bfly2`): outputs `i` and `i + m` -/
def bfly2 (tw blk : List (Cx α)) (fs m i : Nat) : Res (List (Cx α)) := do
  let a0 ← idx blk i
  let a1 ← idx blk (i + m)
  let w ← idx tw (i * fs)
  let t := a1 * w
  .ok [a0 + t, a0 - t]

/-- common/kissfft.rs 143-173 (`kf_bfly4`): outputs `i`, `i + m`, `i + 2 m`, `i + 3 m` -/
def bfly4 (inverse : Bool) (tw blk : List (Cx α)) (fs m i : Nat) : Res (List (Cx α)) := do
  let a0 ← idx blk i
  let a1 ← idx blk (i + m)
  let a2 ← idx blk (i + m * 2)
  let a3 ← idx blk (i + m * 3)
  let w1 ← idx tw (i * fs)
  let w2 ← idx tw (i * (fs * 2))
  let w3 ← idx tw (i * (fs * 3))
  let s0 := a1 * w1
  let s1 := a2 * w2
  let s2 := a3 * w3
  let s5 := a0 - s1
  let b0 := a0 + s1
  let s3 := s0 + s2
  let s4 := s0 - s2
  if inverse then
    .ok [b0 + s3, ⟨s5.r - s4.i, s5.i + s4.r⟩, b0 - s3, ⟨s5.r + s4.i, s5.i - s4.r⟩]
  else
    .ok [b0 + s3, ⟨s5.r + s4.i, s5.i - s4.r⟩, b0 - s3, ⟨s5.r - s4.i, s5.i + s4.r⟩]

/-- common/kissfft.rs 175-203 (`kf_bfly3`) -/
def bfly3 (tw blk : List (Cx α)) (fs m i : Nat) : Res (List (Cx α)) := do
  let epi3 ← idx tw (fs * m)
  let a0 ← idx blk i
  let a1 ← idx blk (i + m)
  let a2 ← idx blk (i + m * 2)
  let w1 ← idx tw (i * fs)
  let w2 ← idx tw (i * (fs * 2))
  let s1 := a1 * w1
  let s2 := a2 * w2
  let s3 := s1 + s2
  let s0 := s1 - s2
  let fm : Cx α := ⟨a0.r - s3.r * ofRat (1 / 2), a0.i - s3.i * ofRat (1 / 2)⟩
  let s0 : Cx α := ⟨s0.r * epi3.i, s0.i * epi3.i⟩
  .ok [a0 + s3, ⟨fm.r - s0.i, fm.i + s0.r⟩, ⟨fm.r + s0.i, fm.i - s0.r⟩]

/-- common/kissfft.rs 205-256 (`kf_bfly5`) -/
def bfly5 (tw blk : List (Cx α)) (fs m i : Nat) : Res (List (Cx α)) := do
  let ya ← idx tw (fs * m)
  let yb ← idx tw (fs * 2 * m)
  let a0 ← idx blk i
  let a1 ← idx blk (i + m)
  let a2 ← idx blk (i + m * 2)
  let a3 ← idx blk (i + m * 3)
  let a4 ← idx blk (i + m * 4)
  let w1 ← idx tw (i * fs)
  let w2 ← idx tw (i * 2 * fs)
  let w3 ← idx tw (i * 3 * fs)
  let w4 ← idx tw (i * 4 * fs)
  let s1 := a1 * w1
  let s2 := a2 * w2
  let s3 := a3 * w3
  let s4 := a4 * w4
  let s7 := s1 + s4
  let s10 := s1 - s4
  let s8 := s2 + s3
  let s9 := s2 - s3
  let b0 : Cx α := ⟨a0.r + (s7.r + s8.r), a0.i + (s7.i + s8.i)⟩
  let s5 : Cx α := ⟨a0.r + s7.r * ya.r + s8.r * yb.r, a0.i + s7.i * ya.r + s8.i * yb.r⟩
  let s6 : Cx α := ⟨s10.i * ya.i + s9.i * yb.i, -(s10.r * ya.i) - s9.r * yb.i⟩
  let s11 : Cx α := ⟨a0.r + s7.r * yb.r + s8.r * ya.r, a0.i + s7.i * yb.r + s8.i * ya.r⟩
  let s12 : Cx α := ⟨-(s10.i * yb.i) + s9.i * ya.i, s10.r * yb.i - s9.r * ya.i⟩
  .ok [b0, s5 - s6, s11 + s12, s11 - s12, s5 + s6]

/-- common/kissfft.rs 276-284: the sum for one output. `step` is `fstride * k`, `t` is `twidx`. -/
def genericSum (tw : List (Cx α)) (step : Nat) : List (Cx α) → Nat → Cx α → Res (Cx α)
  | [], _, acc => .ok acc
  | s :: ss, t, acc => do
    let t := t + step
    let t := if t ≥ tw.length then t - tw.length else t
    let w ← idx tw t
    genericSum tw step ss t (acc + s * w)

/-- common/kissfft.rs 258-289 (`kf_bfly_generic`), column `i`: outputs `i + j m`. The array `scratch` has 480 entries. Its first `m`
entries are filled from `fout[i]`, `fout[i + m]`, ... (`scratch[..m]`, line 266), although `p` entries are used; the others stay
zero. `fout` ends `rest` entries behind the block; what is read behind the block is not used. -/
def bflyGeneric (p : Nat) (tw blk : List (Cx α)) (fs m rest i : Nat) : Res (List (Cx α)) :=
  if 480 < m ∨ 480 < p then .panic
  else if 0 < m ∧ blk.length + rest ≤ i + (m - 1) * m then .panic
  else do
    let scratch ← (List.range p).mapM fun j => if j < m then idx blk (i + j * m) else .ok ⟨zero, zero⟩
    let s0 ← idx scratch 0
    (List.range p).mapM fun j => genericSum tw (fs * (i + j * m)) (scratch.drop 1) 0 s0

/-- the butterflies of column `i`, common/kissfft.rs 124-130. Radices other than 2, 3, 4, 5 do not occur for any size used by the
codec (`C35_sizes`). -/
def bflyCol (inverse : Bool) (p : Nat) (tw blk : List (Cx α)) (fs m rest i : Nat) : Res (List (Cx α)) :=
  match p with
  | 2 => bfly2 tw blk fs m i
  | 3 => bfly3 tw blk fs m i
  | 4 => bfly4 inverse tw blk fs m i
  | 5 => bfly5 tw blk fs m i
  | p => bflyGeneric p tw blk fs m rest i

/-- all columns `i < m` of a stage. Column `i` reads and writes only the entries `i + j m` of the block, hence the
columns can be computed independently; the result is reassembled as `p` rows of `m` entries. -/
def bflyBlock (inverse : Bool) (p : Nat) (tw blk : List (Cx α)) (fs m rest : Nat) : Res (List (Cx α)) := do
  let cols ← (List.range m).mapM (bflyCol inverse p tw blk fs m rest)
  let rows ← (List.range p).mapM fun j => cols.mapM fun c => idx c j
  .ok rows.flatten

/-- common/kissfft.rs 86-131 (`kf_work`) with `in_stride = 1`. The part `fout[fout_idx .. fout_idx + p m]` that the call
fills is returned as a list; `rest` is the number of entries of `fout` behind it. -/
def kfWork (inverse : Bool) (tw fin : List (Cx α)) : List (Nat × Nat) → Nat → Nat → Nat → Res (List (Cx α))
  | [], _, _, _ => .panic
  | (p, m) :: fac, fs, fi, rest => do
    let blk ← (if m = 1 then (List.range p).mapM fun i => idx fin (fi + i * fs)
      else do
        let parts ← (List.range p).mapM fun i => kfWork inverse tw fin fac (fs * p) (fi + i * fs) (rest + (p - 1 - i) * m)
        .ok parts.flatten)
    bflyBlock inverse p tw blk fs m rest

/-- common/kissfft.rs 17-41 and 78-84 (`new`, `transform`): transform of `fin`, whose length is the size, as is the one of `fout` -/
def fft (inverse : Bool) (fin : List (Cx α)) : Res (List (Cx α)) := do
  let fac ← kfFactor fin.length
  kfWork inverse (fftTwiddle fin.length inverse) fin fac 1 0 0

/-- common/dct_iv.rs 30-35: twiddle factors -/
def dctTwiddle (count : Nat) : List (Cx α) :=
  (List.range count).map fun (i : Nat) =>
    let q : Rat := -(8 * i + 1) / (8 * count * 2)
    ⟨cosPi q, sinPi q⟩

/-- common/dct_iv.rs 53-56: one input of the transform -/
def dctIn (nf : Nat) (buf : List α) (tw : List (Cx α)) (n : Nat) : Res (Cx α) := do
  let t ← idx tw n
  let a ← idx buf (2 * n)
  let j ← usub nf (2 * n)
  let j ← usub j 1
  let b ← idx buf j
  .ok (t * ⟨a, b⟩)

/-- common/dct_iv.rs 62-66: entry `n` of the new buffer. Entry `2 n` comes from output `n`, entry `nf - 2 n - 1` too;
every entry is written exactly once when `nf` is even. -/
def dctOut (nf : Nat) (out tw : List (Cx α)) (k : Nat) : Res α :=
  if k % 2 = 0 then do
    let t ← idx tw (k / 2)
    let o ← idx out (k / 2)
    .ok ((t * o).r * ofRat 2)
  else do
    let n := (nf - 1 - k) / 2
    let t ← idx tw n
    let o ← idx out n
    .ok (-(t * o).i * ofRat 2)

/-- common/dct_iv.rs 49-67 (`run`) -/
def dctIv (nf : Nat) (buf : List α) : Res (List α) := do
  if buf.length ≠ nf then .panic
  else do
    let tw := dctTwiddle (nf / 2)
    let inp ← (List.range (nf / 2)).mapM (dctIn nf buf tw)
    let out ← fft false inp
    (List.range nf).mapM (dctOut nf out tw)

end Lc3
