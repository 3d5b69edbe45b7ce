import Verif.Lemmas.SnsEnum
import Verif.Props.DecoderSpectrum
import Verif.Spec.Frame
/-! # C17, C19: pulse vectors and their indices -/

namespace Lc3
open Spec Tables

/-- dimension, number of pulses and number of indices of the four vectors that are enumerated -/
def PulseShape (dim k size : Nat) : Prop :=
  (dim = 10 ∧ k = 10 ∧ size = 2390004) ∨ (dim = 6 ∧ k = 1 ∧ size = 6) ∨ (dim = 16 ∧ k = 8 ∧ size = 15158272) ∨
    (dim = 16 ∧ k = 6 ∧ size = 774912)

/-- **C17** Every vector with the dimension and the number of pulses of its shape is enumerated to an index below the size of the
shape and a sign index 0 or 1, and the decoder maps these back to the vector. -/
theorem C17 {dim k size : Nat} {y : List Int} (hs : PulseShape dim k size) (hl : y.length = dim) (hk : unitPulses y = k) :
    ∃ i ls, mvpqEnum dim y = .ok (i, ls) ∧ (ls = 0 ∨ ls = 1) ∧ i < size ∧ mpvqDeenum dim k ls.toNat i = .ok y := by
  have ht : y.take dim = y := List.take_of_length_le (by omega)
  rw [unitPulses_eq] at hk
  have hr : dim ≤ 16 ∧ 1 ≤ k ∧ k ≤ 10 ∧ size = mpvqM dim k := by
    rcases hs with ⟨rfl, rfl, rfl⟩ | ⟨rfl, rfl, rfl⟩ | ⟨rfl, rfl, rfl⟩ | ⟨rfl, rfl, rfl⟩
    · exact ⟨by norm_num, by norm_num, by norm_num, mpvqM_10_10.symm⟩
    · exact ⟨by norm_num, by norm_num, by norm_num, mpvqM_6_1.symm⟩
    · exact ⟨by norm_num, by norm_num, by norm_num, mpvqM_16_8.symm⟩
    · exact ⟨by norm_num, by norm_num, by norm_num, mpvqM_16_6.symm⟩
  obtain ⟨h1, h2, h3, rfl⟩ := hr
  obtain ⟨i, ls, e1, e2, e3, e4⟩ := mvpqEnum_ok (l := y) h1 (by omega) (by rw [ht]; omega) (by rw [ht]; omega)
  rw [ht, hk] at e3 e4
  exact ⟨i, ls, e1, e2, e3, e4⟩

/-- different vectors of a shape have different index and sign -/
theorem C17_injective {dim k size : Nat} {y z : List Int} (hs : PulseShape dim k size) (hy : y.length = dim) (hyk : unitPulses y = k)
    (hz : z.length = dim) (hzk : unitPulses z = k) (h : mvpqEnum dim y = mvpqEnum dim z) : y = z := by
  obtain ⟨i, ls, e1, -, -, e4⟩ := C17 hs hy hyk
  obtain ⟨i', ls', f1, -, -, f4⟩ := C17 hs hz hzk
  rw [e1, f1] at h
  simp only [Res.ok.injEq, Prod.mk.injEq] at h
  obtain ⟨rfl, rfl⟩ := h
  rw [e4] at f4
  simpa using f4

/-- 8 pulses in 16 entries -/
example : mvpqEnum 16 [0, -3, 0, 0, 1, 0, 2, 0, 0, -1, 0, 0, 0, 0, 1, 0] = .ok (6103894, 1) := by decide

/-- the candidates of the four shapes as 16 entries (shape 1 only stores its first 10) -/
def candidateOf (shape : Nat) (c : SnsCands) : List Int :=
  match shape with
  | 0 => c.y0
  | 1 => c.y1 ++ List.replicate 6 0
  | 2 => c.y2
  | _ => c.y3

/-- numbers of gains of the shapes -/
def gainCount (shape : Nat) : Nat := if shape = 0 then 2 else if shape = 3 then 8 else 4

/-- **C19** For a candidate of the right shape and any gain index of the shape, the joint index fits the 25 (or 24) bits it is
written with, and the decoder recovers from the joint index, the sign flag, the shape flag and the remaining bits of the gain index exactly
shape, gain index and pulse vector. -/
theorem C19 {shape gind lf hf : Nat} {c : SnsCands} (hj : shape < 4) (hg : gind < gainCount shape) (h1 : c.y1.length = 10)
    (hv : ShapeVector shape (candidateOf shape c)) :
    ∃ J lsa lsb v, snsEnumerate shape gind c.y0 c.y1 c.y2 c.y3 = .ok (J, lsa, lsb) ∧
      J < 2 ^ (if shape < 2 then 25 else 24) ∧ (lsa = 0 ∨ lsa = 1) ∧
      unpackSns lf hf (if (lsa != 0) = true then 1 else 0) (shape >>> 1 != 0) (gind >>> SNS_GAIN_LSB_BITS.getD shape 0) J = .ok v ∧
      v.indLf = lf ∧ v.indHf = hf ∧ 2 * v.submodeMsb + v.submodeLsb = shape ∧ v.gInd = gind ∧
      snsPulses v = .ok (candidateOf shape c) := by
  have hsign : ∀ ls : Int, ls = 0 ∨ ls = 1 → (if (ls != 0) = true then 1 else 0) = ls.toNat := by
    rintro ls (rfl | rfl) <;> rfl
  have hsh : shape = 0 ∨ shape = 1 ∨ shape = 2 ∨ shape = 3 := by omega
  rcases hsh with rfl | rfl | rfl | rfl
  · obtain ⟨hl, hA, hB⟩ := hv
    simp only [candidateOf] at hl hA hB ⊢
    obtain ⟨i, ls, e1, e2, e3, e4⟩ := mvpqEnum_ok (dim := 10) (l := c.y0) (by norm_num) (by omega)
      (by rw [← unitPulses_eq, hA]; norm_num) (by rw [← unitPulses_eq, hA])
    rw [← unitPulses_eq, hA] at e3 e4
    rw [mpvqM_10_10] at e3
    obtain ⟨i', ls', f1, f2, f3, f4⟩ := C17 (k := 1) (y := c.y0.drop 10) (.inr (.inl ⟨rfl, rfl, rfl⟩)) (by simp; omega) hB
    have hu : ∀ n, n < 18446744073709551616 → usizeChk n = .ok n := fun n h => if_pos h
    have hls' : i32AsUsize ls' = ls'.toNat := by rcases f2 with rfl | rfl <;> rfl
    have hb : ls'.toNat ≤ 1 := by rcases f2 with rfl | rfl <;> decide
    refine ⟨(2 * i' + ls'.toNat + 2) * 2390004 + i, ls, ls', ⟨lf, hf, ls.toNat, ls'.toNat, i, i', 0, 0, gind⟩, ?_, ?_, e2, ?_, rfl, rfl, rfl, rfl, ?_⟩
    · unfold snsEnumerate
      simp only
      rw [e1, Res.bind_ok]
      simp only
      rw [f1, Res.bind_ok]
      simp only
      rw [hls', hu _ (by omega), Res.bind_ok, hu _ (by omega), Res.bind_ok, hu _ (by omega), Res.bind_ok, hu _ (by omega), Res.bind_ok]
    · norm_num; omega
    · rw [hsign _ e2]
      unfold unpackSns
      have hq : ((2 * i' + ls'.toNat + 2) * 2390004 + i) / 2390004 = 2 * i' + ls'.toNat + 2 := by omega
      rw [if_pos (by rfl), if_neg (by omega)]
      simp only [hq]
      rw [if_neg (by omega)]
      simp only [Nat.and_one_is_mod, Nat.shiftRight_eq_div_pow]
      congr 2 <;> simp [SNS_GAIN_LSB_BITS] <;> omega
    · unfold snsPulses
      simp only [Nat.shiftLeft_zero, Nat.zero_shiftLeft, Nat.add_zero]
      rw [e4, Res.bind_ok, f4, Res.bind_ok, List.take_append_drop]
  · obtain ⟨hl, hA, hB⟩ := hv
    simp only [candidateOf] at hl hA hB ⊢
    rw [List.take_left' h1] at hA
    obtain ⟨i, ls, e1, e2, e3, e4⟩ := C17 (k := 10) (.inl ⟨rfl, rfl, rfl⟩) h1 hA
    have hg4 : gind < 4 := by simpa [gainCount] using hg
    have hm : gind % 2 ≤ 1 := by omega
    have hJ : gind % 2 * 2390004 + i < 2 * 2390004 := by
      have : gind % 2 * 2390004 ≤ 1 * 2390004 := Nat.mul_le_mul_right _ hm
      omega
    refine ⟨gind % 2 * 2390004 + i, ls, 0, ⟨lf, hf, ls.toNat, 0, i, 0, 1, 0, gind⟩, ?_, ?_, e2, ?_, rfl, rfl, rfl, rfl, ?_⟩
    · unfold snsEnumerate
      simp only
      rw [e1, Res.bind_ok, Nat.and_one_is_mod]
    · norm_num; omega
    · rw [hsign _ e2]
      unfold unpackSns
      have hq : (gind % 2 * 2390004 + i) / 2390004 = gind % 2 := by
        have hg2 : gind % 2 = 0 ∨ gind % 2 = 1 := by omega
        rcases hg2 with e | e <;> rw [e] <;> omega
      rw [if_pos (by rfl), if_neg (by omega)]
      simp only [hq]
      rw [if_pos (by omega)]
      simp only [SNS_GAIN_LSB_BITS, List.getD_cons_succ, List.getD_cons_zero, Nat.shiftRight_eq_div_pow, Nat.shiftLeft_eq]
      congr 2 <;> omega
    · unfold snsPulses
      simp only [Nat.zero_shiftLeft, Nat.zero_add]
      rw [e4, Res.bind_ok]
  · obtain ⟨hl, hA⟩ := hv
    simp only [candidateOf] at hl hA ⊢
    obtain ⟨i, ls, e1, e2, e3, e4⟩ := C17 (k := 8) (.inr (.inr (.inl ⟨rfl, rfl, rfl⟩))) hl hA
    refine ⟨i, ls, 0, ⟨lf, hf, ls.toNat, 0, i, 0, 0, 1, gind⟩, ?_, ?_, e2, ?_, rfl, rfl, rfl, rfl, ?_⟩
    · unfold snsEnumerate
      simp only
      rw [e1, Res.bind_ok]
    · norm_num; omega
    · rw [hsign _ e2]
      unfold unpackSns
      rw [if_neg (by decide), if_neg (by omega), if_neg (by omega)]
      rfl
    · unfold snsPulses
      exact e4
  · obtain ⟨hl, hA⟩ := hv
    simp only [candidateOf] at hl hA ⊢
    obtain ⟨i, ls, e1, e2, e3, e4⟩ := C17 (k := 6) (.inr (.inr (.inr ⟨rfl, rfl, rfl⟩))) hl hA
    have hg4 : gind < 8 := by simpa [gainCount] using hg
    refine ⟨15158272 + gind % 2 + 2 * i, ls, 0, ⟨lf, hf, ls.toNat, 0, i, 0, 1, 1, gind⟩, ?_, ?_, e2, ?_, rfl, rfl, rfl, rfl, ?_⟩
    · unfold snsEnumerate
      simp only
      rw [e1, Res.bind_ok, Nat.and_one_is_mod]
    · norm_num; omega
    · rw [hsign _ e2]
      unfold unpackSns
      rw [if_neg (by decide), if_neg (by omega), if_pos (by omega)]
      simp only [SNS_GAIN_LSB_BITS, List.getD_cons_succ, List.getD_cons_zero, Nat.shiftRight_eq_div_pow, Nat.shiftLeft_eq,
        Nat.and_one_is_mod]
      have e5 : (15158272 + gind % 2 + 2 * i - 15158272) / 2 ^ 1 = i := by omega
      have e6 : gind / 2 ^ 1 * 2 ^ 1 + (15158272 + gind % 2 + 2 * i - 15158272) % 2 = gind := by omega
      rw [e5, e6]
    · unfold snsPulses
      exact e4

/-- **C19** The joint index of a candidate meets the requirements of the frame writer (`SideOk`), so that `C03` applies to it. -/
theorem C19_frame {shape gind : Nat} {c : SnsCands} (hj : shape < 4) (h1 : c.y1.length = 10)
    (hv : ShapeVector shape (candidateOf shape c)) :
    ∃ J lsa lsb, ∃ q : PulseIdx, snsEnumerate shape gind c.y0 c.y1 c.y2 c.y3 = .ok (J, lsa, lsb) ∧ (lsa = 0 ∨ lsa = 1) ∧
      J = jointIndex shape gind q.idxa q.idxb q.lsIndb ∧
      q.idxa < (if shape ≤ 1 then 2390004 else if shape = 2 then 15158272 else 774912) ∧
      (shape = 0 → q.idxb < 6 ∧ q.lsIndb ≤ 1) := by
  have hsh : shape = 0 ∨ shape = 1 ∨ shape = 2 ∨ shape = 3 := by omega
  rcases hsh with rfl | rfl | rfl | rfl
  · obtain ⟨hl, hA, hB⟩ := hv
    simp only [candidateOf] at hl hA hB ⊢
    obtain ⟨i, ls, e1, e2, e3, e4⟩ := mvpqEnum_ok (dim := 10) (l := c.y0) (by norm_num) (by omega)
      (by rw [← unitPulses_eq, hA]; norm_num) (by rw [← unitPulses_eq, hA])
    rw [← unitPulses_eq, hA] at e3 e4
    rw [mpvqM_10_10] at e3
    obtain ⟨i', ls', f1, f2, f3, f4⟩ := C17 (k := 1) (y := c.y0.drop 10) (.inr (.inl ⟨rfl, rfl, rfl⟩)) (by simp; omega) hB
    have hu : ∀ n, n < 18446744073709551616 → usizeChk n = .ok n := fun n h => if_pos h
    have hls' : i32AsUsize ls' = ls'.toNat := by rcases f2 with rfl | rfl <;> rfl
    have hb : ls'.toNat ≤ 1 := by rcases f2 with rfl | rfl <;> decide
    refine ⟨(2 * i' + ls'.toNat + 2) * 2390004 + i, ls, ls', ⟨i, i', ls'.toNat⟩, ?_, e2, rfl, by simpa using e3, fun _ => ⟨f3, hb⟩⟩
    unfold snsEnumerate
    simp only
    rw [e1, Res.bind_ok]
    simp only
    rw [f1, Res.bind_ok]
    simp only
    rw [hls', hu _ (by omega), Res.bind_ok, hu _ (by omega), Res.bind_ok, hu _ (by omega), Res.bind_ok, hu _ (by omega), Res.bind_ok]
  · obtain ⟨hl, hA, hB⟩ := hv
    simp only [candidateOf] at hl hA hB ⊢
    rw [List.take_left' h1] at hA
    obtain ⟨i, ls, e1, e2, e3, e4⟩ := C17 (k := 10) (.inl ⟨rfl, rfl, rfl⟩) h1 hA
    refine ⟨_, ls, 0, ⟨i, 0, 0⟩, ?_, e2, rfl, by simpa using e3, by simp⟩
    unfold snsEnumerate
    simp only
    rw [e1, Res.bind_ok]
    rfl
  · obtain ⟨hl, hA⟩ := hv
    simp only [candidateOf] at hl hA ⊢
    obtain ⟨i, ls, e1, e2, e3, e4⟩ := C17 (k := 8) (.inr (.inr (.inl ⟨rfl, rfl, rfl⟩))) hl hA
    refine ⟨_, ls, 0, ⟨i, 0, 0⟩, ?_, e2, rfl, by simpa using e3, by simp⟩
    unfold snsEnumerate
    simp only
    rw [e1, Res.bind_ok]
    rfl
  · obtain ⟨hl, hA⟩ := hv
    simp only [candidateOf] at hl hA ⊢
    obtain ⟨i, ls, e1, e2, e3, e4⟩ := C17 (k := 6) (.inr (.inr (.inr ⟨rfl, rfl, rfl⟩))) hl hA
    refine ⟨_, ls, 0, ⟨i, 0, 0⟩, ?_, e2, rfl, by simpa using e3, by simp⟩
    unfold snsEnumerate
    simp only
    rw [e1, Res.bind_ok]
    rfl

/-- a candidate of shape 0 -/
example : ShapeVector 0 (candidateOf 0 ⟨[3, -2, 0, 0, 4, 0, 0, 0, 0, -1, 0, 0, 0, -1, 0, 0], List.replicate 10 1, [], []⟩) :=
  ⟨by decide, by decide, by decide⟩

end Lc3
