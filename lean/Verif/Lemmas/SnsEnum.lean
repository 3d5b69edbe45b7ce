import Verif.Lemmas.Deenum
import Verif.Model.EncSns
/-! The enumeration of pulse vectors, as the inverse of the decoding. -/

namespace Lc3
open Tables

theorem mpvqA_mono {n k m : Nat} (hn : n < 16) (hm : m ≤ 10) (h : k ≤ m) : mpvqA n k ≤ mpvqA n m := by
  induction m with
  | zero => rw [Nat.le_zero.1 h]
  | succ m ih =>
    rcases Nat.lt_or_ge k (m + 1) with hk | hk
    · exact (ih (by omega) (by omega)).trans (mpvqA_le hn (by omega))
    · rw [show k = m + 1 by omega]

theorem mpvqA_pos {n k : Nat} (hn : n < 16) (hk : k ≤ 10) (h1 : 1 ≤ k) : 1 ≤ mpvqA n k := by
  have := mpvqA_mono hn hk h1
  rwa [mpvqA_one hn] at this

theorem toI8Wrap_eq {v : Int} (h : v.natAbs ≤ 10) : toI8Wrap v = v := by
  unfold toI8Wrap; omega

theorem pulseSum_eq_zero {l : List Int} (h : pulseSum l = 0) : l = List.replicate l.length 0 := by
  induction l with
  | nil => rfl
  | cons a l ih =>
    rw [pulseSum_cons] at h
    rw [List.length_cons, List.replicate_succ, ← ih (by omega)]
    congr 1
    omega

theorem i32AsUsize_nat (n : Nat) (h : n < 18446744073709551616) : i32AsUsize (n : Int) = n := by
  unfold i32AsUsize; omega

/-- the step of the enumeration for small magnitudes -/
theorem enumStep_ok {last : Bool} {s : EnumSt} {v : Int} {K : Nat} (hk : s.kAcc = (K : Int)) (hs : v.natAbs + K ≤ 10)
    (hn : (if last then s.n else s.n + 1) < 16) :
    enumStep last s v = .ok ⟨(encPushSign v s.next s.index).1 + s.hRow, (encPushSign v s.next s.index).2,
      ((v.natAbs + K : Nat) : Int), if last then s.n else s.n + 1, mpvqA (if last then s.n else s.n + 1) (v.natAbs + K)⟩ := by
  unfold enumStep
  rw [toI8Wrap_eq (by omega)]
  have ha : (if v < 0 then i8Chk (-v) else .ok v : Res Int) = .ok (v.natAbs : Int) := by
    split
    · unfold i8Chk
      rw [if_pos (by omega)]
      congr 1; omega
    · congr 1; omega
  simp only [ha, Res.bind_ok]
  have hc : i8Chk (s.kAcc + (v.natAbs : Int)) = .ok ((v.natAbs + K : Nat) : Int) := by
    unfold i8Chk
    rw [if_pos (by omega), hk]
    congr 1; push_cast; omega
  rw [hc]
  simp only [Res.bind_ok]
  rw [if_neg (by omega)]
  obtain ⟨m, hm⟩ : ∃ m, m = (if last then s.n else s.n + 1) := ⟨_, rfl⟩
  rw [← hm] at hn ⊢
  obtain ⟨row, h1, h2, h3⟩ := mpvq_row hn
  rw [h1]
  simp only [Res.bind_ok]
  rw [i32AsUsize_nat _ (by omega), idx_eq_ok (by omega : v.natAbs + K < row.length), ← h3, List.getD_eq_getElem _ _ (by omega)]
  rfl

theorem deenumLoop_zero (n : Nat) (neg : Bool) (hn : n ≤ 16) : deenumLoop n 0 neg 0 = .ok (List.replicate n 0) := by
  cases n with
  | zero => rfl
  | succ n =>
    unfold deenumLoop
    obtain ⟨row, h1, -⟩ := mpvq_row (show n < 16 by omega)
    rw [h1]
    cases neg <;> rfl

theorem enumLoop_ok : ∀ (l : List Int) (pos : Nat), pos + l.length ≤ 16 → pulseSum l ≤ 10 →
    ∃ s, enumLoop pos l = .ok s ∧ s.kAcc = (pulseSum l : Int) ∧
      s.n = (if pos = 0 then l.length - 1 else l.length) ∧ s.hRow = mpvqA s.n (pulseSum l) ∧
      (pulseSum l = 0 → s.index = 0 ∧ s.next = signSentinel) ∧
      (1 ≤ pulseSum l → (s.next = 0 ∨ s.next = 1) ∧ s.index < mpvqM l.length (pulseSum l) ∧
        deenumLoop l.length (pulseSum l) (decide (s.next ≠ 0)) s.index = .ok l) := by
  intro l
  induction l with
  | nil =>
    intro pos _ _
    exact ⟨_, rfl, rfl, by simp, by decide, fun _ => ⟨rfl, rfl⟩, fun h => by simp at h⟩
  | cons v vs ih =>
    intro pos hp hs
    rw [List.length_cons] at hp
    rw [pulseSum_cons] at hs
    obtain ⟨s, h1, h2, h3, h4, h5, h6⟩ := ih (pos + 1) (by omega) (by omega)
    rw [if_neg (by omega)] at h3
    have hn : (if (pos == 0) = true then s.n else s.n + 1) < 16 := by
      split
      · omega
      · rename_i hne
        have : pos ≠ 0 := by simpa using hne
        omega
    have hn16 : vs.length < 16 := by omega
    unfold enumLoop
    rw [h1]
    simp only [Res.bind_ok]
    refine ⟨_, enumStep_ok h2 hs hn, ?_, ?_, ?_, ?_, ?_⟩
    · rw [pulseSum_cons]
    · simp only [beq_iff_eq, h3, List.length_cons]
      split <;> omega
    · rw [pulseSum_cons]
    · rw [pulseSum_cons]
      intro h0
      obtain ⟨e1, e2⟩ := h5 (by omega)
      have hv : v = 0 := by omega
      subst hv
      simp only [encPushSign]
      refine ⟨?_, ?_⟩
      · rw [if_neg (by simp), e1, h4, h3, show pulseSum vs = 0 by omega, mpvqA_zero hn16]
      · simp [e2]
    · rw [pulseSum_cons, List.length_cons]
      intro h0
      obtain ⟨row, hrow, hl, hr⟩ := mpvq_row hn16
      obtain ⟨K, hK⟩ : ∃ K, K = pulseSum vs := ⟨_, rfl⟩
      rw [← hK] at h0 hs h4 h5 h6 ⊢
      simp only
      rw [h4, h3]
      by_cases hv : v = 0
      · -- no pulse here
        subst hv
        simp only [Int.natAbs_zero, Nat.zero_add] at h0 hs ⊢
        obtain ⟨e1, e2, e3⟩ := h6 h0
        have hp1 : (encPushSign 0 s.next s.index).1 = s.index := by simp [encPushSign]
        have hp2 : (encPushSign 0 s.next s.index).2 = s.next := by simp [encPushSign]
        rw [hp1, hp2]
        have hA := mpvqA_pos hn16 hs h0
        refine ⟨e1, ?_, ?_⟩
        · obtain ⟨k', rfl⟩ : ∃ k', K = k' + 1 := ⟨K - 1, by omega⟩
          rw [mpvqM]; omega
        · unfold deenumLoop
          rw [hrow]
          simp only [Res.bind_ok]
          rw [if_pos (by omega)]
          obtain ⟨k, g1, g2, g3, g4⟩ := deenumSearch_ok hn16 hl hr (s.index + mpvqA vs.length K) K hs
          have hkK : k = K := by
            by_contra hne
            have := g3 (by omega)
            have := mpvqA_mono hn16 hs (show k + 1 ≤ K by omega)
            omega
          subst hkK
          rw [g4]
          simp only [Res.bind_ok]
          rw [show usub k k = .ok 0 by unfold usub; simp]
          simp only [Res.bind_ok]
          rw [if_neg (by simp), Nat.add_sub_cancel, e3]
          rfl
      · have hva : 1 ≤ v.natAbs := by omega
        have hsgn : (encPushSign v s.next s.index).2 = if v < 0 then 1 else 0 := by
          unfold encPushSign
          simp only
          split
          · rfl
          · rw [if_pos (by omega)]
        rw [hsgn]
        have hdec : decide ((if v < 0 then (1 : Int) else 0) ≠ 0) = decide (v < 0) := by
          by_cases h : v < 0 <;> simp [h]
        rw [hdec]
        have hone : mind2vecOne v.natAbs (decide (v < 0)) = v := by
          unfold mind2vecOne
          by_cases h : v < 0
          · rw [if_pos (by simpa using h)]; omega
          · rw [if_neg (by simpa using h)]; omega
        refine ⟨by split <;> simp, ?_⟩
        rcases Nat.eq_zero_or_pos K with hK0 | hKp
        · -- the last pulse
          obtain ⟨e1, e2⟩ := h5 hK0
          have hp1 : (encPushSign v s.next s.index).1 = 0 := by
            simp [encPushSign, e1, e2, signSentinel]
          rw [hp1, hK0, mpvqA_zero hn16]
          simp only [Nat.add_zero]
          constructor
          · obtain ⟨k', hk'⟩ : ∃ k', v.natAbs = k' + 1 := ⟨v.natAbs - 1, by omega⟩
            rw [hk', mpvqM]
            have := mpvqA_pos hn16 (show k' + 1 ≤ 10 by omega) (by omega)
            omega
          · unfold deenumLoop
            rw [hrow]
            simp only [Res.bind_ok]
            rw [if_neg (by simp), hone, ← pulseSum_eq_zero (by omega)]
        · obtain ⟨e1, e2, e3⟩ := h6 hKp
          have hp1 : (encPushSign v s.next s.index).1 = 2 * s.index + s.next.toNat := by
            unfold encPushSign
            simp only
            rw [if_pos ⟨by omega, hv⟩]
          rw [hp1]
          have hA := mpvqA_pos hn16 (show K ≤ 10 by omega) hKp
          have hstep := mpvqA_step hn16 (show K < 10 by omega) hKp
          have hmono := mpvqA_mono hn16 (show v.natAbs + K ≤ 10 by omega) (show K + 1 ≤ v.natAbs + K by omega)
          have hlt : 2 * s.index + s.next.toNat + mpvqA vs.length K < mpvqA vs.length (K + 1) := by
            rw [hstep]; omega
          constructor
          · obtain ⟨k', hk'⟩ : ∃ k', v.natAbs + K = k' + 1 := ⟨v.natAbs + K - 1, by omega⟩
            rw [hk'] at hmono ⊢
            rw [mpvqM]; omega
          · obtain ⟨ind, hind⟩ : ∃ i, i = 2 * s.index + s.next.toNat + mpvqA vs.length K := ⟨_, rfl⟩
            rw [← hind] at hlt ⊢
            unfold deenumLoop
            rw [hrow]
            simp only [Res.bind_ok]
            rw [if_pos (by omega)]
            obtain ⟨k, g1, g2, g3, g4⟩ := deenumSearch_ok hn16 hl hr ind (v.natAbs + K) hs
            have hkK : k = K := by
              rcases Nat.lt_trichotomy k K with h | h | h
              · have := g3 (by omega)
                have := mpvqA_mono hn16 (show K ≤ 10 by omega) (show k + 1 ≤ K by omega)
                omega
              · exact h
              · have := mpvqA_mono hn16 (show k ≤ 10 by omega) (show K + 1 ≤ k by omega)
                omega
            subst hkK
            rw [g4]
            simp only [Res.bind_ok]
            rw [show usub (v.natAbs + k) k = .ok v.natAbs by unfold usub; rw [if_pos (by omega)]; congr 1; omega]
            simp only [Res.bind_ok]
            rw [if_pos (by omega)]
            rw [show usub (v.natAbs + k) v.natAbs = .ok k by unfold usub; rw [if_pos (by omega)]; congr 1; omega]
            simp only [Res.bind_ok]
            have d1 : ((ind - mpvqA vs.length k) &&& 1 != 0) = decide (s.next ≠ 0) := by
              rw [Nat.and_one_is_mod]
              rcases e1 with e | e
              · rw [show (ind - mpvqA vs.length k) % 2 = 0 by omega]; simp [e]
              · rw [show (ind - mpvqA vs.length k) % 2 = 1 by omega]; simp [e]
            have d2 : (ind - mpvqA vs.length k) >>> 1 = s.index := by
              rw [Nat.shiftRight_eq_div_pow]
              rcases e1 with e | e <;> rw [e] at hind <;> simp at hind <;> omega
            rw [d1, d2, e3]
            simp only [Res.bind_ok]
            rw [hone]

/-- `mvpq_enum` on a vector with between 1 and 10 pulses -/
theorem mvpqEnum_ok {dim : Nat} {l : List Int} (hd : dim ≤ 16) (hl : dim ≤ l.length) (h1 : 1 ≤ pulseSum (l.take dim))
    (h10 : pulseSum (l.take dim) ≤ 10) :
    ∃ i ls, mvpqEnum dim l = .ok (i, ls) ∧ (ls = 0 ∨ ls = 1) ∧ i < mpvqM dim (pulseSum (l.take dim)) ∧
      mpvqDeenum dim (pulseSum (l.take dim)) ls.toNat i = .ok (l.take dim) := by
  have ht : (l.take dim).length = dim := by simp; omega
  obtain ⟨s, e1, -, -, -, -, e6⟩ := enumLoop_ok (l.take dim) 0 (by omega) h10
  obtain ⟨f1, f2, f3⟩ := e6 h1
  rw [ht] at f2 f3
  refine ⟨s.index, s.next, ?_, f1, f2, ?_⟩
  · unfold mvpqEnum
    rw [if_neg (by omega), e1]
    rfl
  · unfold mpvqDeenum
    have : (s.next.toNat != 0) = decide (s.next ≠ 0) := by
      rcases f1 with e | e <;> rw [e] <;> rfl
    rw [this]
    exact f3

end Lc3
