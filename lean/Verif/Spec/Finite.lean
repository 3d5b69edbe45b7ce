import Verif.Spec.Rounding
import Verif.Model.Decoder
import Mathlib.Analysis.SpecialFunctions.Pow.Real
/-!
# Specification: finite decoder states

What is assumed of the remaining elementary functions, and what it means that a decoder holds no NaN and no infinity.
-/

namespace Lc3

namespace F32

/-- Assumption on the elementary functions of the decoder: the constant `π / 17` and sines up to an absolute error of `2 ^ -20`,
powers of ten up to one percent, and the fast power of two of the noise shaping up to a factor of two. -/
structure Tame (el : Elem) : Prop extends Accurate el where
  piOver17 : ∃ c, el.piOver17 = fin c ∧ |(c : ℝ) - Real.pi / 17| ≤ 1 / 2 ^ 20
  sin : ∀ q : ℚ, |q| ≤ 2 → ∃ c, el.sin (fin q) = fin c ∧ |(c : ℝ) - Real.sin q| ≤ 1 / 2 ^ 20
  pow10 : ∀ q : ℚ, |q| ≤ 10 → ∃ c, el.pow10 (fin q) = fin c ∧ |(c : ℝ) - (10 : ℝ) ^ (q : ℝ)| ≤ (10 : ℝ) ^ (q : ℝ) / 100
  exp2Raw : ∀ q : ℚ, |q| ≤ 32 → ∃ c, el.exp2Raw (fin q) = fin c ∧ |(c : ℝ)| ≤ 2 * (2 : ℝ) ^ (q : ℝ)

/-- a finite value of magnitude at most `2 ^ 80` -/
def Moderate (a : F32) : Prop := IsFin a ∧ |val a| ≤ 2 ^ 80

/-- no value of the list is NaN or infinite -/
def Finite (l : List F32) : Prop := ∀ a ∈ l, IsFin a

/-- no number in the state of a channel is NaN or infinite: the shaped spectrum, the samples before they are converted to
integers, the stored spectrum and the damping factor of the concealment, the overlap memory, and the coefficients and memories of
the post filter -/
structure FiniteChannel (ch : DecChannel F32) : Prop where
  spectrum : Finite ch.specLines
  samples : Finite ch.freqSamples
  lastGood : Finite ch.plc.lastGood
  damping : IsFin ch.plc.alpha
  overlap : Finite ch.memOla
  num : Finite ch.ltpf.cNum
  den : Finite ch.ltpf.cDen
  numMem : Finite ch.ltpf.cNumMem
  denMem : Finite ch.ltpf.cDenMem
  input : Finite ch.ltpf.xMem
  output : Finite ch.ltpf.yMem

/-- no number in a decoder is NaN or infinite -/
def FiniteDecoder (D : Decoder F32) : Prop := ∀ ch ∈ D.channels, FiniteChannel ch

end F32

end Lc3
