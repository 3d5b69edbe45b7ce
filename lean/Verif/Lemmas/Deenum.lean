import Verif.Lemmas.Safe
import Verif.Model.SnsDec
import Mathlib.Data.List.GetD
/-! The pulse vector decoding: table structure and safety. -/

namespace Lc3
open Tables

/-- entry of the offset table -/
def mpvqA (n k : Nat) : Nat := (MPVQ_OFFSETS.getD n []).getD k 0

/-- the number of pulse vectors with `n` entries and `k` pulses, up to the leading sign, as the sum of a table column -/
def mpvqM : Nat → Nat → Nat
  | _, 0 => 1
  | 0, _ + 1 => 0
  | n + 1, k + 1 => mpvqM n (k + 1) + mpvqA n (k + 1)

theorem mpvqA_zero {n : Nat} (hn : n < 16) : mpvqA n 0 = 0 := by
  revert n; decide

theorem mpvqA_one {n : Nat} (hn : n < 16) : mpvqA n 1 = 1 := by
  revert n; decide

theorem mpvqA_step {n k : Nat} (hn : n < 16) (hk : k < 10) (h1 : 1 ≤ k) :
    mpvqA n (k + 1) = mpvqA n k + 2 * mpvqM n k := by
  have h : ∀ n < 16, ∀ k < 10, 1 ≤ k → mpvqA n (k + 1) = mpvqA n k + 2 * mpvqM n k := by decide +kernel
  exact h n hn k hk h1

theorem mpvqA_le {n k : Nat} (hn : n < 16) (hk : k < 10) : mpvqA n k ≤ mpvqA n (k + 1) := by
  rcases Nat.eq_zero_or_pos k with rfl | h
  · rw [mpvqA_zero hn]; omega
  · rw [mpvqA_step hn hk h]; omega

theorem mpvq_row {n : Nat} (hn : n < 16) : ∃ row, idx MPVQ_OFFSETS n = .ok row ∧ row.length = 11 ∧
    ∀ k, row.getD k 0 = mpvqA n k := by
  have hl : MPVQ_OFFSETS.length = 16 := by decide
  have h11 : ∀ r ∈ MPVQ_OFFSETS, r.length = 11 := by decide
  refine ⟨MPVQ_OFFSETS[n]'(by omega), idx_eq_ok _, h11 _ (List.getElem_mem _), ?_⟩
  intro k
  unfold mpvqA
  rw [List.getD_eq_getElem (l := MPVQ_OFFSETS) _ (by omega : n < MPVQ_OFFSETS.length)]

/-- result of the search: the largest `k ≤ kMax` whose offset does not exceed the index -/
theorem deenumSearch_ok {n : Nat} (hn : n < 16) {row : List Nat} (hl : row.length = 11)
    (hr : ∀ k, row.getD k 0 = mpvqA n k) (ind : Nat) : ∀ (kMax : Nat), kMax ≤ 10 →
    ∃ k, k ≤ kMax ∧ mpvqA n k ≤ ind ∧ (k < kMax → ind < mpvqA n (k + 1)) ∧
      deenumSearch row ind kMax = .ok (k, ind - mpvqA n k) := by
  have hget : ∀ k, (h : k < row.length) → row[k] = mpvqA n k := by
    intro k h; rw [← hr k, List.getD_eq_getElem _ _ h]
  intro kMax
  induction kMax with
  | zero =>
    intro _
    refine ⟨0, le_refl _, by rw [mpvqA_zero hn]; omega, by omega, ?_⟩
    unfold deenumSearch
    rw [idx_eq_ok (by omega : 0 < row.length)]
    simp only [Res.bind_ok]
    rw [hget, mpvqA_zero hn]; simp
  | succ k ih =>
    intro hk
    unfold deenumSearch
    rw [idx_eq_ok (by omega : k + 1 < row.length)]
    simp only [Res.bind_ok]
    rw [hget]
    by_cases hlt : ind < mpvqA n (k + 1)
    · rw [if_pos hlt]
      obtain ⟨j, h1, h2, h3, h4⟩ := ih (by omega)
      refine ⟨j, by omega, h2, ?_, h4⟩
      intro _
      rcases Nat.lt_or_ge j k with hjk | hjk
      · exact h3 hjk
      · have : j = k := by omega
        subst this; exact hlt
    · rw [if_neg hlt]
      exact ⟨k + 1, le_refl _, by omega, by omega, rfl⟩

/-- sum of the magnitudes -/
def pulseSum (l : List Int) : Nat := (l.map Int.natAbs).sum

@[simp] theorem pulseSum_nil : pulseSum [] = 0 := rfl
@[simp] theorem pulseSum_cons (a : Int) (l : List Int) : pulseSum (a :: l) = a.natAbs + pulseSum l := by
  simp [pulseSum]
@[simp] theorem pulseSum_replicate (n : Nat) : pulseSum (List.replicate n 0) = 0 := by
  simp [pulseSum]
theorem pulseSum_append (a b : List Int) : pulseSum (a ++ b) = pulseSum a + pulseSum b := by
  simp [pulseSum]

theorem natAbs_mind2vecOne (k : Nat) (neg : Bool) : (mind2vecOne k neg).natAbs = k := by
  cases neg <;> simp [mind2vecOne]

theorem deenumLoop_ok : ∀ (n kMax : Nat) (neg : Bool) (ind : Nat), n ≤ 16 → kMax ≤ 10 → ind < mpvqM n kMax →
    ∃ l, deenumLoop n kMax neg ind = .ok l ∧ l.length = n ∧ pulseSum l = kMax := by
  intro n
  induction n with
  | zero =>
    intro kMax neg ind _ _ hi
    cases kMax with
    | zero => exact ⟨[], rfl, rfl, rfl⟩
    | succ k => simp [mpvqM] at hi
  | succ n ih =>
    intro kMax neg ind hn hk hi
    obtain ⟨row, hrow, hl, hr⟩ := mpvq_row (show n < 16 by omega)
    unfold deenumLoop
    rw [hrow]
    simp only [Res.bind_ok]
    by_cases h0 : ind = 0
    · rw [if_neg (by simp [h0])]
      exact ⟨_, rfl, by simp, by simp [natAbs_mind2vecOne]⟩
    · rw [if_pos h0]
      have hkpos : 1 ≤ kMax := by
        rcases Nat.eq_zero_or_pos kMax with rfl | h
        · simp [mpvqM] at hi; omega
        · exact h
      obtain ⟨k, h1, h2, h3, h4⟩ := deenumSearch_ok (show n < 16 by omega) hl hr ind kMax hk
      rw [h4]
      simp only [Res.bind_ok]
      rw [show usub kMax k = .ok (kMax - k) from by unfold usub; rw [if_pos h1]]
      simp only [Res.bind_ok]
      by_cases hd : kMax - k = 0
      · rw [if_neg (by simp [hd])]
        have hkk : k = kMax := by omega
        subst hkk
        obtain ⟨k', rfl⟩ : ∃ k', k = k' + 1 := ⟨k - 1, by omega⟩
        have hlt : ind - mpvqA n (k' + 1) < mpvqM n (k' + 1) := by
          rw [mpvqM] at hi; omega
        obtain ⟨l, e1, e2, e3⟩ := ih (k' + 1) neg _ (by omega) hk hlt
        rw [e1]
        exact ⟨_, rfl, by simp [e2], by simp [e3]⟩
      · rw [if_pos hd]
        rw [show usub kMax (kMax - k) = .ok k from by
          unfold usub; rw [if_pos (by omega)]; congr 1; omega]
        simp only [Res.bind_ok]
        have hk1 : 1 ≤ k := by
          rcases Nat.eq_zero_or_pos k with rfl | h
          · have := h3 (by omega); rw [mpvqA_one (by omega)] at this; omega
          · exact h
        have hlt : (ind - mpvqA n k) >>> 1 < mpvqM n k := by
          have := h3 (by omega)
          rw [mpvqA_step (by omega) (by omega) hk1] at this
          rw [Nat.shiftRight_eq_div_pow]; omega
        obtain ⟨l, e1, e2, e3⟩ := ih k ((ind - mpvqA n k) &&& 1 != 0) _ (by omega) (by omega) hlt
        rw [e1]
        exact ⟨_, rfl, by simp [e2], by simp [e3, natAbs_mind2vecOne]; omega⟩

theorem mpvqM_10_10 : mpvqM 10 10 = 2390004 := by decide +kernel
theorem mpvqM_6_1 : mpvqM 6 1 = 6 := by decide +kernel
theorem mpvqM_16_8 : mpvqM 16 8 = 15158272 := by decide +kernel
theorem mpvqM_16_6 : mpvqM 16 6 = 774912 := by decide +kernel

theorem mpvqDeenum_ok {dim k ls ind : Nat} (hd : dim ≤ 16) (hk : k ≤ 10) (h : ind < mpvqM dim k) :
    ∃ l, mpvqDeenum dim k ls ind = .ok l ∧ l.length = dim ∧ pulseSum l = k :=
  deenumLoop_ok dim k _ ind hd hk h

end Lc3
