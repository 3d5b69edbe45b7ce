import Verif.Model.Scalar
import Verif.Model.Config
import Verif.Model.SideInfo
import Verif.Tables.LtpfFloat
/-!
# Specification of the long term post filter with unbounded history

The filter is described on signals over absolute time, `ℤ → α`: no circular memory occurs here. `x` is the input of the
filter, `y` its output. In this description a delay of `d` samples at time `t` is the value at time `t - d`.
-/

namespace Lc3.Spec
open Scalar Tables

variable {α : Type} [Scalar α]

/-- `acc + c₀ h(t) + c₁ h(t - 1) + ..`, in this order -/
def addTaps (h : Int → α) : List α → Int → α → α
  | [], _, acc => acc
  | c :: cs, t, acc => addTaps h cs (t - 1) (acc + c * h t)

/-- `acc - c₀ h(t) - c₁ h(t - 1) - ..`, in this order -/
def subTaps (h : Int → α) : List α → Int → α → α
  | [], _, acc => acc
  | c :: cs, t, acc => subTaps h cs (t - 1) (acc - c * h t)

/-- The filter at time `t`: the numerator taps see the source signal at times `t`, `t - 1`, .., the denominator taps the
output at times around `t - pitch`. -/
def filterAt (cNum cDen : List α) (pitch : Nat) (src y : Int → α) (t : Int) : α :=
  subTaps y cDen (t - pitch + ((cDen.length : Int) - 1) / 2) (addTaps src cNum t zero)

/-- the signal `y` with the value at time `t` replaced -/
def put (y : Int → α) (t : Int) (v : α) : Int → α := fun s => if s = t then v else y s

/-- filter the samples `a`, .., `a + count - 1` of the frame that starts at time `T` -/
def filterRange (cNum cDen : List α) (pitch : Nat) (scale : Nat → α → α) (T : Int) (src : Int → α) :
    Nat → Nat → (Int → α) → (Int → α)
  | _, 0, y => y
  | a, n + 1, y =>
    filterRange cNum cDen pitch scale T src (a + 1) n
      (put y (T + a) (src (T + a) - scale a (filterAt cNum cDen pitch src y (T + a))))

/-- copy the samples `a`, .., `a + count - 1` of the frame -/
def copyRange (T : Int) (src : Int → α) : Nat → Nat → (Int → α) → (Int → α)
  | _, 0, y => y
  | a, n + 1, y => copyRange T src (a + 1) n (put y (T + a) (src (T + a)))

/-- number of samples in 2.5 ms: a quarter or a third of the frame -/
def quarter (cfg : Lc3Config) : Nat :=
  match cfg.nMs with
  | .tenMs => cfg.nf / 4
  | .sevenPointFiveMs => cfg.nf / 3

/-- `f n / N` -/
def ramp (N n : Nat) (f : α) : α := f * (ofRat n / ofRat N)

/-- `f (1 - n / N)` -/
def rampDown (N n : Nat) (f : α) : α := f * (one - ofRat n / ofRat N)

/-- no fading -/
def full (_ : Nat) (f : α) : α := f

/-- filter settings of a frame: active, lag (whole and quarter samples), coefficients -/
structure Setting (α : Type) where
  active : Bool
  pitch : Nat
  pitchFr : Nat
  cNum : List α
  cDen : List α

/-- The output of one frame that starts at time `T`, for the settings of the previous and the current frame. -/
def frameOut (N nf : Nat) (old new : Setting α) (T : Int) (x y : Int → α) : Int → α :=
  let run := filterRange new.cNum new.cDen new.pitch
  let fadeOld := filterRange old.cNum old.cDen old.pitch (rampDown N) T x 0 N
  match old.active, new.active with
  | false, false => copyRange T x 0 nf y
  | false, true => run full T x N (nf - N) (run (ramp N) T x 0 N y)
  | true, false => copyRange T x N (nf - N) (fadeOld y)
  | true, true =>
    if new.pitch = old.pitch ∧ new.pitchFr = old.pitchFr then run full T x 0 nf y
    else
      let y1 := fadeOld y
      run full T x N (nf - N) (run (ramp N) T y1 0 N y1)

/-- the lag in quarter samples at 12.8 kHz coded by a pitch index: steps of 1/4 from 32, of 1/2 from 127, of 1
from 157 -/
def lagQuarters (i : Nat) : Nat :=
  if i < 380 then 128 + i else if i < 440 then 508 + 2 * (i - 380) else 628 + 4 * (i - 440)

/-- the lag in quarter samples at the output rate, rounded half up; 44.1 kHz counts as 48 kHz -/
def lagOut (f : SamplingFrequency) (i : Nat) : Nat :=
  let khz8 := match f with
    | .hz8000 => 1 | .hz16000 => 2 | .hz24000 => 3 | .hz32000 => 4 | .hz44100 => 6 | .hz48000 => 6
  (lagQuarters i * khz8 * 5 + 4) / 8

/-- gain and numerator row for a frame of `nbits` bits -/
def gainOf (d : FrameDuration) (fsInd nbits : Nat) : Rat × Nat :=
  let t := match d with
    | .tenMs => nbits
    | .sevenPointFiveMs => (8 * nbits + 3) / 6
  if t < 320 + 80 * fsInd then (4 / 10, 0)
  else if t < 400 + 80 * fsInd then (35 / 100, 1)
  else if t < 480 + 80 * fsInd then (3 / 10, 2)
  else if t < 560 + 80 * fsInd then (25 / 100, 3)
  else (0, 0)

/-- coefficient tables of a sampling rate: numerators per gain, denominators per fraction, and the number of
denominator taps used -/
def tables : SamplingFrequency → List (List Rat) × List (List Rat) × Nat
  | .hz8000 => (TAB_LTPF_NUM_8000, TAB_LTPF_DEN_8000, 5)
  | .hz16000 => (TAB_LTPF_NUM_16000, TAB_LTPF_DEN_16000, 5)
  | .hz24000 => (TAB_LTPF_NUM_24000, TAB_LTPF_DEN_24000, 7)
  | .hz32000 => (TAB_LTPF_NUM_32000, TAB_LTPF_DEN_32000, 9)
  | .hz44100 => (TAB_LTPF_NUM_48000, TAB_LTPF_DEN_48000, 12)
  | .hz48000 => (TAB_LTPF_NUM_48000, TAB_LTPF_DEN_48000, 13)

/-- the setting of a frame -/
def settingOf (f : SamplingFrequency) (d : FrameDuration) (info : LtpfInfo) (nbits : Nat) : Setting α :=
  let (tn, td, taps) := tables f
  if info.isActive then
    let lag := lagOut f info.pitchIndex
    let (gain, gi) := gainOf d (Lc3Config.new f d).fsInd nbits
    { active := true, pitch := lag / 4, pitchFr := lag % 4
      cNum := ((tn.getD gi []).take (taps - 2)).map fun c => ofRat (85 / 100) * ofRat gain * ofRat c
      cDen := ((td.getD (lag % 4) []).take taps).map fun c => ofRat gain * ofRat c }
  else
    { active := false, pitch := 0, pitchFr := 0
      cNum := List.replicate (taps - 2) zero
      cDen := List.replicate taps zero }

/-- the signal `x` up to time `T`, followed by a frame -/
def appendFrame (x : Int → α) (T : Int) (fr : List α) : Int → α :=
  fun t => if t < T then x t else fr.getD (t - T).toNat zero

/-- what the filter is given for one frame -/
structure LtpfFrame (α : Type) where
  info : LtpfInfo
  nbits : Nat
  samples : List α

/-- the setting before the first frame: no filter -/
def off : Setting α := ⟨false, 0, 0, [], []⟩

/-- The output signal after a sequence of frames, the first of which starts at time `T`; `old` is the setting of the frame
before, `x` and `y` are input and output up to time `T`. -/
def outAfter (f : SamplingFrequency) (d : FrameDuration) :
    List (LtpfFrame α) → Setting α → Int → (Int → α) → (Int → α) → (Int → α)
  | [], _, _, _, y => y
  | fr :: rest, old, T, x, y =>
    let cfg := Lc3Config.new f d
    let new := settingOf f d fr.info fr.nbits
    let x' := appendFrame x T fr.samples
    outAfter f d rest new (T + cfg.nf) x' (frameOut (quarter cfg) cfg.nf old new T x' y)

/-- the filter stays active and its lag changes from one frame to the next -/
def LagChange (f : SamplingFrequency) (a b : LtpfFrame α) : Prop :=
  a.info.isActive = true ∧ b.info.isActive = true ∧
    lagOut f a.info.pitchIndex ≠ lagOut f b.info.pitchIndex

end Lc3.Spec
