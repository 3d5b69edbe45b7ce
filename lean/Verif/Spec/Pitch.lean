import Verif.Model.Config
import Verif.Model.ScalarReal
import Verif.Tables.LtpfFloat
import Mathlib.Algebra.BigOperators.Group.Finset.Basic
import Mathlib.Order.Interval.Finset.Defs
import Mathlib.Data.Int.Interval
import Mathlib.Analysis.SpecialFunctions.Sqrt
/-!
# Specification: the pitch analysis

The pitch analysis described on signals that run from the first sample to the last one, without frames in buffers: a signal is a function
on all integers that is zero before the start.
-/

namespace Lc3.Spec
open Finset Tables

/-! ## Signals -/

/-- coefficient `i` of a symmetric filter whose middle is entry `c` of a table -/
noncomputable def tap (l : List ℚ) (c i : ℤ) : ℝ := if 0 ≤ c + i then ((l.getD (c + i).toNat 0 : ℚ) : ℝ) else 0

/-- the concatenated frames -/
def inputSignal (frames : List (List ℤ)) (t : ℤ) : ℝ := if 0 ≤ t then (frames.flatten.getD t.toNat 0 : ℝ) else 0

/-- at 192 kHz the samples of the input are this far apart (15 is the distance at 12.8 kHz) -/
def spacing (fs : ℕ) : ℕ := 192000 / fs

/-- the signal at 12.8 kHz: tap `i` of the filter, at 192 kHz, meets an input sample if `15 N + i` is a multiple of the spacing; the
delay is 120 samples at 192 kHz -/
noncomputable def at12k8 (fs : ℕ) (s : ℤ → ℝ) (N : ℤ) : ℝ :=
  spacing fs * (if fs = 8000 then 1 / 2 else 1) *
    ∑ i ∈ Icc (-119 : ℤ) 119, if (spacing fs : ℤ) ∣ 15 * N + i then
      s ((15 * N + i) / (spacing fs : ℤ) - 120 / (spacing fs : ℤ)) * tap TAB_RESAMP_FILTER 119 i else 0

/-- recursive part of the high pass, from sample 0 on -/
noncomputable def poles (u : ℤ → ℝ) : ℕ → ℝ
  | 0 => u 0
  | 1 => u 1 + 19652933726226904 / 10 ^ 16 * poles u 0
  | n + 2 => u (n + 2) + 19652933726226904 / 10 ^ 16 * poles u (n + 1) - 9658854605688177 / 10 ^ 16 * poles u n

/-- the same for all integers -/
noncomputable def polesZ (u : ℤ → ℝ) (n : ℤ) : ℝ := if 0 ≤ n then poles u n.toNat else 0

/-- the high pass of 50 Hz -/
noncomputable def highPassed (u : ℤ → ℝ) (n : ℤ) : ℝ :=
  9827947082978771 / 10 ^ 16 * polesZ u n - 1965589416595754 / 10 ^ 15 * polesZ u (n - 1) + 9827947082978771 / 10 ^ 16 * polesZ u (n - 2)

/-- delay of the analysis in samples at 12.8 kHz -/
def analysisDelay : FrameDuration → ℕ
  | .tenMs => 24
  | .sevenPointFiveMs => 44

/-- samples of a frame at 12.8 kHz -/
def frame12k8 : FrameDuration → ℕ
  | .tenMs => 128
  | .sevenPointFiveMs => 96

/-- the signal that is analysed at 12.8 kHz -/
noncomputable def analysed (fs : ℕ) (d : FrameDuration) (s : ℤ → ℝ) (n : ℤ) : ℝ := highPassed (at12k8 fs s) (n - analysisDelay d)

/-- .. and at 6.4 kHz: every other sample after a filter of five taps -/
noncomputable def at6k4 (x : ℤ → ℝ) (n : ℤ) : ℝ :=
  1236796411180537 / 10 ^ 16 * x (2 * n - 3) + 2353512128364889 / 10 ^ 16 * x (2 * n - 2) + 2819382920909148 / 10 ^ 16 * x (2 * n - 1)
    + 2353512128364889 / 10 ^ 16 * x (2 * n) + 1236796411180537 / 10 ^ 16 * x (2 * n + 1)

/-! ## Correlations -/

/-- correlation of the `L` samples from `a` on with those `k` samples earlier -/
noncomputable def corr (x : ℤ → ℝ) (a : ℤ) (L : ℕ) (k : ℤ) : ℝ := ∑ n ∈ range L, x (a + n) * x (a + n - k)

/-- energy of the samples `k` earlier -/
noncomputable def lagEnergy (x : ℤ → ℝ) (a : ℤ) (L : ℕ) (k : ℤ) : ℝ := ∑ n ∈ range L, x (a + n - k) ^ 2

/-- normalised correlation, at least zero -/
noncomputable def normCorr (x : ℤ → ℝ) (a : ℤ) (L : ℕ) (k : ℤ) : ℝ :=
  max 0 (corr x a L k / Real.sqrt (lagEnergy x a L 0 * lagEnergy x a L k))

/-- `m` is the first of the arguments from `lo` to `hi` with the largest value -/
def FirstMax (f : ℕ → ℝ) (lo hi m : ℕ) : Prop :=
  lo ≤ m ∧ m ≤ hi ∧ (∀ k, lo ≤ k → k ≤ hi → f k ≤ f m) ∧ ∀ k, lo ≤ k → k < m → f k < f m

/-! ## Pitch -/

/-- what is remembered from frame to frame -/
structure PitchMem where
  lag : ℕ
  corr : ℝ
  corrBefore : ℝ
  pitch : ℝ
  active : Bool

/-- the memory before the first frame -/
def PitchMem.start : PitchMem := ⟨17, 0, 0, 0, false⟩

/-- the lag at 6.4 kHz: the best one, where long lags are weighted down to a half, unless a lag near the last one is almost as good -/
def OpenLoop (w : ℤ → ℝ) (a : ℤ) (L last T : ℕ) : Prop :=
  ∃ T1 T2, FirstMax (fun k => (1 - ((k : ℝ) - 17) / (2 * 97)) * corr w a L k) 17 114 T1 ∧
    FirstMax (fun k => corr w a L k) (max 17 (last - 4)) (min 114 (last + 4)) T2 ∧
    T = if 85 / 100 * normCorr w a L T1 < normCorr w a L T2 then T2 else T1

/-- the lag at 12.8 kHz: the best one near twice the lag `T`; the lowest one if none is correlated positively -/
def ClosedLoop (x : ℤ → ℝ) (a : ℤ) (L T p : ℕ) : Prop :=
  ((∃ k : ℕ, max 32 (2 * T - 4) ≤ k ∧ k ≤ min 228 (2 * T + 4) ∧ 0 < corr x a L k) →
    FirstMax (fun k => corr x a L k) (max 32 (2 * T - 4)) (min 228 (2 * T + 4)) p) ∧
  ((∀ k : ℕ, max 32 (2 * T - 4) ≤ k → k ≤ min 228 (2 * T + 4) → corr x a L k ≤ 0) → p = max 32 (2 * T - 4))

/-- the correlation at a lag of `p + d/4` samples -/
noncomputable def corrBetween (x : ℤ → ℝ) (a : ℤ) (L : ℕ) (p : ℕ) (d : ℤ) : ℝ :=
  ∑ m ∈ Icc (-4 : ℤ) 4, corr x a L (p + m) * tap TAB_LTPF_INTERP_R 15 (4 * m - d)

/-- the quarters that are tried -/
def quarters (p : ℕ) (d : ℤ) : Prop :=
  (p = 32 ∧ 0 ≤ d ∧ d ≤ 3) ∨ (32 < p ∧ p < 127 ∧ -3 ≤ d ∧ d ≤ 3) ∨ (127 ≤ p ∧ p < 157 ∧ (d = -2 ∨ d = 0 ∨ d = 2))

/-- the fraction: the first of the best ones; none if there is no positive correlation or no fraction to try -/
def Fraction (x : ℤ → ℝ) (a : ℤ) (L : ℕ) (p : ℕ) (d : ℤ) : Prop :=
  ((∃ e, quarters p e ∧ 0 < corrBetween x a L p e) → quarters p d ∧ (∀ e, quarters p e → corrBetween x a L p e ≤ corrBetween x a L p d) ∧
    ∀ e, quarters p e → e < d → corrBetween x a L p e < corrBetween x a L p d) ∧
  ((∀ e, quarters p e → corrBetween x a L p e ≤ 0) → d = 0)

/-- the index the encoder writes for a lag of `q` quarters (the middle range is not the one of the standard: F4) -/
def encoderIndex (q : ℕ) : ℕ := if q < 4 * 127 then q - 128 else if q < 4 * 157 then q / 2 - 126 else q / 4 + 283

/-- the signal `d` quarters of a sample before sample `n` -/
noncomputable def between (x : ℤ → ℝ) (n d : ℤ) : ℝ := ∑ k ∈ Icc (-2 : ℤ) 2, x (n - k) * tap TAB_LTPF_INTERP_X12K8 7 (4 * k - d)

/-- normalised correlation of the signal with itself `p + fr/4` samples earlier -/
noncomputable def periodicity (x : ℤ → ℝ) (a : ℤ) (L : ℕ) (p : ℕ) (fr : ℤ) : ℝ :=
  (∑ n ∈ range L, between x (a + n) 0 * between x (a + n - p) fr) /
    Real.sqrt ((∑ n ∈ range L, between x (a + n) 0 ^ 2) * ∑ n ∈ range L, between x (a + n - p) fr ^ 2)

/-- the decision on the post filter -/
def Activated (d : FrameDuration) (m : PitchMem) (nc pitch : ℝ) : Prop :=
  (m.active = false ∧ 94 / 100 < nc ∧ 94 / 100 < m.corr ∧ (d = .tenMs ∨ 94 / 100 < m.corrBefore)) ∨
  (m.active = true ∧ (9 / 10 < nc ∨ (84 / 100 < nc ∧ |pitch - m.pitch| < 2 ∧ m.corr - 1 / 10 < nc)))

/-- one frame of the analysis of the signals `w` at 6.4 kHz and `x` at 12.8 kHz; `allowed`: the post filter may be used in this
frame -/
def PitchFrame (w x : ℤ → ℝ) (d : FrameDuration) (t : ℕ) (allowed : Prop) (m m' : PitchMem) (index : ℕ) (present active : Bool) : Prop :=
  ∃ (T p : ℕ) (e : ℤ), OpenLoop w (t * (frame12k8 d / 2) : ℕ) (frame12k8 d / 2) m.lag T ∧
    (present = true ↔ 6 / 10 < normCorr w (t * (frame12k8 d / 2) : ℕ) (frame12k8 d / 2) T) ∧
    ClosedLoop x (t * frame12k8 d : ℕ) (frame12k8 d) T p ∧ Fraction x (t * frame12k8 d : ℕ) (frame12k8 d) p e ∧
    ∃ q : ℕ, (q : ℤ) = 4 * p + e ∧ index = (if present then encoderIndex q else 0) ∧
      (active = true ↔ allowed ∧ Activated d m (periodicity x (t * frame12k8 d : ℕ) (frame12k8 d) (q / 4) ((q % 4 : ℕ) : ℤ)) (q / 4)) ∧
      m' = if present then ⟨T, periodicity x (t * frame12k8 d : ℕ) (frame12k8 d) (q / 4) ((q % 4 : ℕ) : ℤ), m.corr, q / 4, active⟩
        else ⟨T, 0, m.corr, 0, false⟩

end Lc3.Spec
