import Verif.Basic
/-! Model of common/config.rs. -/

namespace Lc3

/-- common/config.rs (enum SamplingFrequency) -/
inductive SamplingFrequency where
  | hz8000 | hz16000 | hz24000 | hz32000 | hz44100 | hz48000
  deriving Repr, DecidableEq

/-- common/config.rs (enum FrameDuration) -/
inductive FrameDuration where
  | sevenPointFiveMs | tenMs
  deriving Repr, DecidableEq

open SamplingFrequency FrameDuration

/-- common/config.rs (struct Lc3Config, up to line 38) -/
structure Lc3Config where
  fs : Nat
  fsInd : Nat
  nMs : FrameDuration
  nf : Nat
  ne : Nat
  nb : Nat
  z : Nat
  deriving Repr, DecidableEq

/-- `fs_ind`, common/config.rs 43-50 -/
def fsIndOf : SamplingFrequency → Nat
  | hz8000 => 0 | hz16000 => 1 | hz24000 => 2 | hz32000 => 3 | hz44100 => 4 | hz48000 => 4

/-- `fs`, common/config.rs 43-50 -/
def fsOf : SamplingFrequency → Nat
  | hz8000 => 8000 | hz16000 => 16000 | hz24000 => 24000 | hz32000 => 32000
  | hz44100 => 44100 | hz48000 => 48000

/-- `nf`, common/config.rs 59-66 and 75-83 -/
def nfOf : SamplingFrequency → FrameDuration → Nat
  | hz8000, sevenPointFiveMs => 60
  | hz16000, sevenPointFiveMs => 120
  | hz24000, sevenPointFiveMs => 180
  | hz32000, sevenPointFiveMs => 240
  | hz44100, sevenPointFiveMs => 360
  | hz48000, sevenPointFiveMs => 360
  | hz8000, tenMs => 80
  | hz16000, tenMs => 160
  | hz24000, tenMs => 240
  | hz32000, tenMs => 320
  | hz44100, tenMs => 480
  | hz48000, tenMs => 480

/-- common/config.rs 42-100 (`Lc3Config::new`) -/
def Lc3Config.new (f : SamplingFrequency) (d : FrameDuration) : Lc3Config :=
  let nf := nfOf f d
  let ne := match d with
    | sevenPointFiveMs => if nf = 360 then 300 else nf
    | tenMs => if nf = 480 then 400 else nf
  let nb := match f, d with
    | hz8000, sevenPointFiveMs => 60
    | _, _ => 64
  let z := match d with
    | sevenPointFiveMs => 7 * nf / 30
    | tenMs => 3 * nf / 8
  { fs := fsOf f, fsInd := fsIndOf f, nMs := d, nf := nf, ne := ne, nb := nb, z := z }

/-- `ceil(log2(n))` for `n ≥ 2`, exact value of `(n as f64).log2().ceil()`. -/
def clog2 (n : Nat) : Nat := Nat.log2 (n - 1) + 1

end Lc3
