import Verif.Lemmas.LtpfMachine
import Verif.Props.EncLtpf
/-!
# C112: the integer arithmetic of the pitch analysis never overflows

The pitch analysis of the encoder computes indices in `i8`, `i16` and `i32`.
-/

namespace Lc3
open Scalar
variable {α : Type} [Scalar α]

/-- **C112** In every configuration and for every state, frame and arithmetic: with the conversions and the overflow checks of `i8`, `i16` and `i32`
as in the code, the pitch analysis gives the same result as with unbounded integers. So none of these operations overflows and no conversion
changes a value. -/
theorem C112 (f : SamplingFrequency) (d : FrameDuration) (s : EncLtpf α) (hs : s.Inv (Lc3Config.new f d)) (x : List Int) (nn : Bool) (nbits : Nat) :
    s.runM (Lc3Config.new f d) x nn nbits = s.run (Lc3Config.new f d) x nn nbits := by
  unfold EncLtpf.runM EncLtpf.run
  by_cases hx : x.length = (Lc3Config.new f d).nf
  swap
  · rw [if_pos hx, if_pos hx]
  rw [if_neg (not_not.2 hx), if_neg (not_not.2 hx)]
  obtain ⟨hxs, hxt, hx6, hlo, hhi⟩ := hs
  have hcfg : 240 / upFactorOf (Lc3Config.new f d).fs + (Lc3Config.new f d).nf = xsExtLen (Lc3Config.new f d) := by
    cases f <;> cases d <;> decide
  have hlen : len12p8Of (Lc3Config.new f d).nMs ≤ xtExtLen (Lc3Config.new f d) ∧
      len6p4Of (Lc3Config.new f d).nMs ≤ x6ExtLen ∧
      delayLtpfOf (Lc3Config.new f d).nMs + NMEM_12P8D + len12p8Of (Lc3Config.new f d).nMs = xtExtLen (Lc3Config.new f d) ∧
      NMEM_12P8D + len12p8Of (Lc3Config.new f d).nMs ≤ xtExtLen (Lc3Config.new f d) ∧
      (Lc3Config.new f d).nMs = d ∧ len12p8Of d ≤ 128 := by cases f <;> cases d <;> decide
  obtain ⟨l1, l2, l3, l4, ld, l5⟩ := hlen
  unfold ltpfShift
  dsimp only
  rw [usub_of_le (by omega)]; simp only [Res.bind_ok]
  obtain ⟨a, ha, hal⟩ := shiftDown_ok (l := s.xs) (a := s.xs.length - 240 / upFactorOf (Lc3Config.new f d).fs) (Nat.sub_le _ _)
  obtain ⟨b, hb, hbl⟩ := shiftDown_ok (l := s.xt) (a := len12p8Of (Lc3Config.new f d).nMs) (by omega)
  obtain ⟨c, hc, hcl⟩ := shiftDown_ok (l := s.x6) (a := len6p4Of (Lc3Config.new f d).nMs) (by omega)
  rw [ha]; simp only [Res.bind_ok]
  rw [if_pos ⟨by omega, by omega⟩, hb, hc]; simp only [Res.bind_ok]
  rw [sliceR_ok (by omega) (by omega)]; simp only [Res.bind_ok]
  have hax : (a.take (240 / upFactorOf (Lc3Config.new f d).fs) ++ x).length = xsExtLen (Lc3Config.new f d) := by
    rw [List.length_append, List.length_take]; omega
  obtain ⟨y, hy, hyl⟩ := resampleAll_ok (α := α) f d _ hax (len12p8Of d) 0 (by omega)
  rw [show len12p8Of (Lc3Config.new f d).nMs = len12p8Of d by rw [ld]] at *
  rw [resampleAllM_eq f d _ _ _ (by omega), hy]; simp only [Res.bind_ok]
  have hz := highPass50_length y s.h1 s.h2
  generalize highPass50 y s.h1 s.h2 = z at hz
  obtain ⟨z, z1, z2⟩ := z
  dsimp only at hz ⊢
  have hxt' : (b.take (delayLtpfOf (Lc3Config.new f d).nMs + NMEM_12P8D) ++ z ++
      b.drop (delayLtpfOf (Lc3Config.new f d).nMs + NMEM_12P8D + len12p8Of d)).length = xtExtLen (Lc3Config.new f d) := by
    rw [List.length_append, List.length_append, List.length_take, List.length_drop]; omega
  generalize b.take (delayLtpfOf (Lc3Config.new f d).nMs + NMEM_12P8D) ++ z ++
      b.drop (delayLtpfOf (Lc3Config.new f d).nMs + NMEM_12P8D + len12p8Of d) = xt' at hxt'
  obtain ⟨t, pr, y6, hpd, t1, t2, hy6⟩ := pitchDetection_ok (Lc3Config.new f d) s.tPrev xt' c hlo hhi (by omega) (by omega)
  rw [hpd]; simp only [Res.bind_ok]
  rw [pitchLagParameterM_eq (Lc3Config.new f d) xt' t1 t2 (by rw [ld]; omega)]
  obtain ⟨p, fr, hpl, p1, p2, f1, f2, -, -⟩ := pitchLagParameter_ok (Lc3Config.new f d) xt' t t1 t2 (by rw [ld]; omega)
  rw [hpl]; simp only [Res.bind_ok]
  rw [activationBitM_eq _ _ _ _ (by omega) (by omega) (by omega)]

/-- the checks are there: with a fraction of -128 the subtraction of `i8` panics -/
example (r : List α) (rel : Nat) (m : α) (fr : Int) : bestFractionM r rel [-128] m fr = .panic := by
  simp [bestFractionM, interpolateRM, i8Chk]

/-- a lag of 40000 is negative as an `i16` -/
example : asI16 40000 = -25536 := by decide

/-- a new filter meets the condition of C112 -/
example : ∃ s : EncLtpf α, s.Inv (Lc3Config.new .hz48000 .tenMs) := by
  obtain ⟨s, -, h⟩ := (C41_new (Lc3Config.new .hz48000 .tenMs) (List.replicate 1000 (zero : α)) (List.replicate 1000 0)).1
    ⟨by rw [List.length_replicate]; decide, by rw [List.length_replicate]; decide⟩
  exact ⟨s, h⟩

end Lc3
