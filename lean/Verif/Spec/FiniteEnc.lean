import Verif.Spec.Finite
import Verif.Model.Encoder
/-!
# Specification: finite encoder states

What it means that an encoder carries no NaN and no infinity from frame to frame.
-/

namespace Lc3.F32

/-- a sample of 16 bits -/
def IsSample (v : ℤ) : Prop := -32768 ≤ v ∧ v ≤ 32767

/-- no number in the state of the pitch analysis is NaN or infinite: the resampled and the down sampled signal, the state of the
high pass filter, the last pitch lag and the last two normalised correlations -/
structure FinitePitch (s : EncLtpf F32) : Prop where
  resampled : Finite s.xt
  downsampled : Finite s.x6
  filter1 : IsFin s.h1
  filter2 : IsFin s.h2
  pitch : IsFin s.memPitch
  correlation : IsFin s.memNc
  correlationOld : IsFin s.memMemNc

/-- no number that a channel of the encoder keeps for the next frame is NaN or infinite: the two energies of the attack detector, the
pitch analysis and the bit offset of the quantiser -/
structure FiniteEncChannel (ch : EncChannel F32) : Prop where
  energy : IsFin ch.attack.energyLast
  maxEnergy : IsFin ch.attack.maxEnergyLast
  ltpf : FinitePitch ch.ltpf
  offset : IsFin ch.quant.nbitsOffsetOld

/-- no number that the encoder keeps is NaN or infinite -/
def FiniteEncoder (E : Encoder F32) : Prop := ∀ ch ∈ E.channels, FiniteEncChannel ch

/-- how large the numbers can be: the filtered signal below `2 ^ 18` (eight times the largest sample), the state of the high pass
below `2 ^ 28`, the energies below `2 ^ 50`, the bit offset at most 41 bits -/
structure EncSizes (ch : EncChannel F32) : Prop where
  resampled : ∀ a ∈ ch.ltpf.xt, |val a| ≤ 2 ^ 18
  downsampled : ∀ a ∈ ch.ltpf.x6, |val a| ≤ 2 ^ 19
  filter1 : |val ch.ltpf.h1| ≤ 2 ^ 28
  filter2 : |val ch.ltpf.h2| ≤ 2 ^ 28
  energy : |val ch.attack.energyLast| ≤ 2 ^ 50
  maxEnergy : |val ch.attack.maxEnergyLast| ≤ 2 ^ 50
  offset : |val ch.quant.nbitsOffsetOld| ≤ 41

end Lc3.F32
