import Verif.Spec.Generator
import Verif.Lemmas.Generator
import Verif.Props.DecoderSpectrum
import Verif.Props.Concealment
/-!
# C95: the pseudo random generators of the decoder have full period and balanced signs
-/

namespace Lc3
open Spec Scalar Function

/-- **C95, noise filling.** The generator never overflows, visits all 65536 states and draws both signs equally often. -/
theorem C95_noise : ∃ next, FairGenerator next ∧ ∀ s < 65536, noiseNext s = .ok (next s) :=
  ⟨fun s => (13849 + 31821 * s) % 65536,
    fair_of_lcg (a := 31821) (c := 13849) (fun s _ => by rw [Nat.add_comm]) (by decide +kernel), fun _ hs => noiseNext_eq hs⟩

/-- **C95, packet loss concealment.** The same for the generator of the signs of a concealed spectrum: each line takes the next state, is kept if
the state is below 32768 and negated otherwise. -/
theorem C95_plc {α : Type} [Scalar α] : ∃ next, FairGenerator next ∧ ∀ (a g x : α) (s : ℕ) (cur good : List α),
    plcLoop a s (x :: cur) (g :: good) =
      ((if next s < 32768 then g * a else g * -a) :: (plcLoop a (next s) cur good).1, (plcLoop a (next s) cur good).2) := by
  refine ⟨fun s => (16831 + 12821 * s) % 65536,
    fair_of_lcg (a := 12821) (c := 16831) (fun s _ => by rw [Nat.add_comm]) (by decide +kernel), fun a g x s cur good => ?_⟩
  have e : (16831 + s * 12821) &&& 0xFFFF = (16831 + 12821 * s) % 65536 := by
    rw [show 0xFFFF = 2 ^ 16 - 1 from rfl, Nat.and_two_pow_sub_one_eq_mod, Nat.mul_comm]
  rw [plcLoop, e]

/-- the states of C08 are the draws of a fair generator -/
theorem C95_states : ∃ next, FairGenerator next ∧ ∀ n, plcState n = next^[n] 24607 := by
  refine ⟨fun s => (16831 + 12821 * s) % 65536,
    fair_of_lcg (a := 12821) (c := 16831) (fun s _ => by rw [Nat.add_comm]) (by decide +kernel), fun n => ?_⟩
  induction n with
  | zero => rfl
  | succ n ih => rw [iterate_succ_apply', ← ih]; rfl

/-- the first draws from the state 0 -/
example : noiseNext 0 = .ok 13849 ∧ noiseNext 13849 = .ok 38814 ∧ (38814 : ℕ) ≥ 32768 := by decide

/-- a generator with an even increment is not fair: it never leaves the even states -/
example : ¬ FairGenerator fun s => (13848 + 31821 * s) % 65536 := by
  intro h
  obtain ⟨n, ⟨-, hn⟩, -⟩ := h.visits 0 (by norm_num) 1 (by norm_num)
  have : ∀ n, ((fun s => (13848 + 31821 * s) % 65536)^[n] 0) % 2 = 0 := fun n => by
    induction n with
    | zero => rfl
    | succ n ih => rw [iterate_succ_apply']; omega
  have := this n
  rw [hn] at this
  omega

end Lc3
