import Verif.Model.EncQuant
import Verif.Model.BitstreamEnc
import Verif.Spec.Quant
import Verif.Lemmas.TableFacts
import Verif.Lemmas.Safe
import Mathlib.Data.List.GetD
import Mathlib.Tactic.Ring
import Mathlib.Tactic.NormNum
/-! The quantiser of the encoder: bounds, coded length, bit estimate. -/

namespace Lc3
open Scalar Tables Spec

theorem spec_bits_len : AC_SPEC_BITS.length = 64 := by decide +kernel
theorem spec_bits_rows : AC_SPEC_BITS.all (fun r => r.length == 17) = true := by decide +kernel

theorem bits_row {i : Nat} (h : i < AC_SPEC_BITS.length) : (AC_SPEC_BITS[i]).length = 17 := by
  have := List.all_eq_true.1 spec_bits_rows _ (List.getElem_mem h)
  simpa using this

theorem bits_lookup {t lev sym : Nat} (ht : t < 1024) (hl : lev ≤ 3) (hs : sym < 17) :
    ∃ b, ∀ {β : Type} (f : Nat → Res β),
      (idx AC_SPEC_LOOKUP (t + lev * 1024) >>= fun pki => idx AC_SPEC_BITS pki >>= fun row => idx row sym >>= f) = f b := by
  have h1 : t + lev * 1024 < AC_SPEC_LOOKUP.length := by rw [lookup_len]; omega
  have h2 : AC_SPEC_LOOKUP[t + lev * 1024] < AC_SPEC_BITS.length := by rw [spec_bits_len]; exact lookup_lt' h1
  have h3 : sym < (AC_SPEC_BITS[AC_SPEC_LOOKUP[t + lev * 1024]]).length := by rw [bits_row h2]; exact hs
  refine ⟨(AC_SPEC_BITS[AC_SPEC_LOOKUP[t + lev * 1024]])[sym], fun f => ?_⟩
  rw [idx_eq_ok h1, Res.bind_ok, idx_eq_ok h2, Res.bind_ok, idx_eq_ok h3, Res.bind_ok]

theorem shiftRight_one (a : Nat) : a >>> 1 = a / 2 := by simp [Nat.shiftRight_eq_div_pow]

/-- the escape loop ends, and its counters -/
theorem estEscapes_ok {mode : Bool} {t : Nat} (ht : t < 1024) (fuel : Nat) :
    ∀ a b lev est lsb, lev ≤ 3 → max a b < 4 * 2 ^ fuel →
    ∃ a' b' lev' est', estEscapes mode t fuel a b lev est lsb =
        .ok (a', b', lev', est', lsb + if lev = 0 ∧ mode = true ∧ 4 ≤ max a b then 2 else 0) ∧
      a' < 4 ∧ b' < 4 ∧ lev ≤ lev' ∧ lev' ≤ 3 ∧ (4 ≤ max a b → 0 < lev') ∧ (max a b < 4 → lev' = lev) := by
  induction fuel with
  | zero =>
    intro a b lev est lsb hl hm
    have hm' : max a b < 4 := by simpa using hm
    refine ⟨a, b, lev, est, ?_, by omega, by omega, by omega, hl, by omega, fun _ => rfl⟩
    unfold estEscapes
    rw [if_neg (by omega), if_neg (by omega)]
    rfl
  | succ fuel ih =>
    intro a b lev est lsb hl hm
    unfold estEscapes
    by_cases h4 : max a b ≥ 4
    · rw [if_pos h4]
      simp only
      obtain ⟨bits, hb⟩ := bits_lookup (sym := 16) ht hl (by omega)
      rw [hb]
      have hlt : max (a >>> 1) (b >>> 1) < 4 * 2 ^ fuel := by
        rw [shiftRight_one, shiftRight_one]
        rw [Nat.pow_succ] at hm
        omega
      obtain ⟨a', b', lev', est', he, h1, h2, h3, h5, h6, h7⟩ := ih (a >>> 1) (b >>> 1) (min 3 (lev + 1))
        (est + bits + if (lev == 0 && mode) = true then 0 else 2 * 2048)
        (lsb + if (lev == 0 && mode) = true then 2 else 0) (by omega) hlt
      refine ⟨a', b', lev', est', ?_, h1, h2, by omega, h5, by omega, by omega⟩
      have hz : (if min 3 (lev + 1) = 0 ∧ mode = true ∧ 4 ≤ max (a >>> 1) (b >>> 1) then 2 else 0) = 0 :=
        if_neg (by rintro ⟨h, -⟩; omega)
      rw [he, hz, Nat.add_zero]
      have hif : (if (lev == 0 && mode) = true then 2 else 0) = if lev = 0 ∧ mode = true ∧ 4 ≤ max a b then 2 else 0 := by
        by_cases hl0 : lev = 0
        · cases mode
          · simp
          · rw [if_pos (by simp [hl0]), if_pos ⟨hl0, rfl, h4⟩]
        · rw [if_neg (by simp [hl0]), if_neg (by simp [hl0])]
      rw [hif]
    · rw [if_neg h4]
      refine ⟨a, b, lev, est, ?_, by omega, by omega, by omega, hl, by omega, fun _ => rfl⟩
      rw [if_neg (by omega)]
      rfl

variable {α : Type} [Scalar α]

theorem toI16_bounds (x : α) : (toI16 x).natAbs ≤ 32768 := by unfold toI16; omega

theorem quantLine_bounds (gg x : α) : (quantLine gg x).natAbs ≤ 32768 := by
  unfold quantLine
  split <;> exact toI16_bounds _

/-- what the loop over the pairs computes -/
theorem estPairs_ok {mode : Bool} {rate ne spec : Nat} (hr : rate ≤ 512) (m : Nat) :
    ∀ (xs : List Int) (n : Nat) (s : EstSt), xs.length = 2 * m → (∀ x ∈ xs, x.natAbs ≤ 32768) → s.c ≤ 255 →
    ∃ s', estPairs α mode rate ne spec xs n s = .ok s' ∧ s'.c ≤ 255 ∧
      s'.lsb = s.lsb + (if mode then postponed xs else 0) ∧
      (s'.lastTrunc = s.lastTrunc ∧ s'.trunc = s.trunc ∨
        ∃ j, j < m ∧ s'.lastTrunc = n + 2 * j + 2 ∧ (xs.getD (2 * j) 0 ≠ 0 ∨ xs.getD (2 * j + 1) 0 ≠ 0) ∧
          bits2048 α s'.trunc ≤ spec) ∧
      (∀ j, m = j + 1 → (xs.getD (2 * j) 0 ≠ 0 ∨ xs.getD (2 * j + 1) 0 ≠ 0) → bits2048 α s'.est ≤ spec →
        s'.lastTrunc = n + 2 * m) := by
  induction m with
  | zero =>
    intro xs n s hl _ hc
    obtain rfl : xs = [] := List.length_eq_zero_iff.1 (by omega)
    exact ⟨s, rfl, hc, by simp [postponed], .inl ⟨rfl, rfl⟩, by omega⟩
  | succ m ih =>
    intro xs n s hl hx hc
    match xs, hl with
    | x0 :: x1 :: xs, hl =>
    have hx0 := hx x0 (by simp)
    have hx1 := hx x1 (by simp)
    unfold estPairs
    simp only
    obtain ⟨t, ht⟩ : ∃ t, t = s.c + rate + if n > ne / 2 then 256 else 0 := ⟨_, rfl⟩
    have ht' : t < 1024 := by rw [ht]; split <;> omega
    rw [← ht]
    obtain ⟨a, b, lev, est, he, ha, hb, -, hlev, hl1, hl2⟩ := estEscapes_ok (mode := mode) ht' 16 x0.natAbs x1.natAbs 0
      s.est s.lsb (by omega) (by norm_num; omega)
    rw [he]
    simp only [Res.bind_ok]
    obtain ⟨bits, hbits⟩ := bits_lookup (sym := a + 4 * b) ht' hlev (by omega)
    rw [hbits]
    obtain ⟨est', hest⟩ : ∃ e, e = est + bits + (if x0.natAbs > 0 then 2048 else 0) + (if x1.natAbs > 0 then 2048 else 0) :=
      ⟨_, rfl⟩
    rw [← hest]
    obtain ⟨lsb', hlsb⟩ : ∃ e, e = (if (decide (lev > 0) && mode) = true then
        s.lsb + (if True ∧ mode = true ∧ 4 ≤ max x0.natAbs x1.natAbs then 2 else 0) +
          (if x0.natAbs >>> 1 = 0 ∧ x0 ≠ 0 then 1 else 0) + (if x1.natAbs >>> 1 = 0 ∧ x1 ≠ 0 then 1 else 0)
      else s.lsb + (if True ∧ mode = true ∧ 4 ≤ max x0.natAbs x1.natAbs then 2 else 0)) := ⟨_, rfl⟩
    have hlsb2 : lsb' = s.lsb + (if mode then postponedPair x0 x1 else 0) := by
      rw [hlsb]
      cases mode with
      | false => simp
      | true =>
        unfold postponedPair
        by_cases h4 : 4 ≤ max x0.natAbs x1.natAbs
        · have hp := hl1 h4
          have h4' : 4 ≤ x0.natAbs ∨ 4 ≤ x1.natAbs := by omega
          rw [if_pos (by simp [hp]), if_pos ⟨trivial, rfl, h4⟩, if_pos rfl, if_pos h4']
          have e0 : (x0.natAbs >>> 1 = 0 ∧ x0 ≠ 0) ↔ x0.natAbs = 1 := by rw [shiftRight_one]; omega
          have e1 : (x1.natAbs >>> 1 = 0 ∧ x1 ≠ 0) ↔ x1.natAbs = 1 := by rw [shiftRight_one]; omega
          simp only [e0, e1]
          omega
        · have hz := hl2 (by omega)
          have h4' : ¬ (4 ≤ x0.natAbs ∨ 4 ≤ x1.natAbs) := by omega
          rw [if_neg (by simp [hz]), if_neg (by tauto), if_pos rfl, if_neg h4']
    have hc' : (s.c &&& 15) * 16 + (if lev ≤ 1 then 1 + (a + b) * (lev + 1) else 12 + lev) ≤ 255 := by
      have h15 : s.c &&& 15 ≤ 15 := Nat.and_le_right
      split
      · have : (a + b) * (lev + 1) ≤ 6 * 2 := Nat.mul_le_mul (by omega) (by omega)
        omega
      · omega
    rw [← hlsb]
    obtain ⟨s', h1, h2, h3, h4, h5⟩ := ih xs (n + 2)
      { est := est'
        trunc := if (x0 ≠ 0 ∨ x1 ≠ 0) ∧ bits2048 α est' ≤ spec then est' else s.trunc
        lsb := lsb'
        lastTrunc := if (x0 ≠ 0 ∨ x1 ≠ 0) ∧ bits2048 α est' ≤ spec then n + 2 else s.lastTrunc
        c := (s.c &&& 15) * 16 + (if lev ≤ 1 then 1 + (a + b) * (lev + 1) else 12 + lev) }
      (by simp at hl; omega) (fun x hx' => hx x (by simp [hx'])) hc'
    refine ⟨s', h1, h2, ?_, ?_, ?_⟩
    · rw [h3]
      simp only [hlsb2, postponed]
      split <;> omega
    · rcases h4 with ⟨h4, h4'⟩ | ⟨j, hj, h4, h4', h4''⟩
      · simp only at h4 h4'
        by_cases hk : (x0 ≠ 0 ∨ x1 ≠ 0) ∧ bits2048 α est' ≤ spec
        · rw [if_pos hk] at h4 h4'
          refine .inr ⟨0, by omega, by omega, by simpa using hk.1, by rw [h4']; exact hk.2⟩
        · rw [if_neg hk] at h4 h4'
          exact .inl ⟨h4, h4'⟩
      · refine .inr ⟨j + 1, by omega, by omega, ?_, h4''⟩
        have e1 : 2 * (j + 1) = 2 * j + 1 + 1 := by ring
        rw [e1]
        simpa using h4'
    · intro j hj hnz hb
      obtain rfl : j = m := by omega
      cases j with
      | zero =>
        obtain rfl : xs = [] := List.length_eq_zero_iff.1 (by simp only [List.length_cons] at hl; omega)
        simp only [estPairs, Res.ok.injEq] at h1
        subst h1
        simp only at hb ⊢
        rw [if_pos ⟨by simpa using hnz, hb⟩]
      | succ j =>
        have := h5 j rfl (by
          have e1 : 2 * (j + 1) = 2 * j + 1 + 1 := by ring
          rw [e1] at hnz
          simpa using hnz) hb
        omega

theorem lastNz_spec (m : Nat) : ∀ l : List Int, l.length = 2 * (m + 1) →
    (lastNz (2 * (m + 1)) l.reverse) % 2 = 0 ∧ 2 ≤ lastNz (2 * (m + 1)) l.reverse ∧
    lastNz (2 * (m + 1)) l.reverse ≤ 2 * (m + 1) ∧
    (∀ k, lastNz (2 * (m + 1)) l.reverse ≤ k → l.getD k 0 = 0) ∧
    (lastNz (2 * (m + 1)) l.reverse = 2 ∨ l.getD (lastNz (2 * (m + 1)) l.reverse - 2) 0 ≠ 0 ∨
      l.getD (lastNz (2 * (m + 1)) l.reverse - 1) 0 ≠ 0) := by
  induction m with
  | zero =>
    intro l hl
    match l, hl with
    | [x0, x1], _ =>
      simp [lastNz]
      intro k hk
      match k, hk with
      | k + 2, _ => simp
  | succ m ih =>
    intro l hl
    obtain ⟨l', x0, x1, rfl, hl'⟩ : ∃ l' x0 x1, l = l' ++ [x0, x1] ∧ l'.length = 2 * (m + 1) := by
      refine ⟨l.take (2 * (m + 1)), l[2 * (m + 1)], l[2 * (m + 1) + 1], ?_, by simp; omega⟩
      conv_lhs => rw [← List.take_append_drop (2 * (m + 1)) l]
      rw [List.drop_eq_getElem_cons (by omega), List.drop_eq_getElem_cons (by omega), List.drop_of_length_le (by omega)]
    have hrev : (l' ++ [x0, x1]).reverse = x1 :: x0 :: l'.reverse := by simp
    have hstep : lastNz (2 * (m + 1 + 1)) (l' ++ [x0, x1]).reverse =
        if x1 = 0 ∧ x0 = 0 then lastNz (2 * (m + 1)) l'.reverse else 2 * (m + 1) + 2 := by
      rw [hrev, show 2 * (m + 1 + 1) = 2 * (m + 1) + 2 by ring]
      simp only [lastNz]
      have hp : 2 * (m + 1) > 0 := by omega
      simp only [hp, true_and]
    obtain ⟨n, hn⟩ : ∃ n, n = lastNz (2 * (m + 1)) l'.reverse := ⟨_, rfl⟩
    have hi := ih l' hl'
    rw [← hn] at hi hstep
    obtain ⟨i1, i2, i3, i4, i5⟩ := hi
    rw [hstep]
    by_cases h0 : x1 = 0 ∧ x0 = 0
    · obtain ⟨rfl, rfl⟩ := h0
      rw [if_pos ⟨rfl, rfl⟩]
      refine ⟨i1, i2, by omega, ?_, ?_⟩
      · intro k hk
        by_cases hkl : k < l'.length
        · rw [List.getD_append _ _ _ _ hkl]; exact i4 k hk
        · rw [List.getD_append_right _ _ _ _ (by omega)]
          obtain ⟨j, hj⟩ : ∃ j, j = k - l'.length := ⟨_, rfl⟩
          rw [← hj]
          match j with
          | 0 => rfl
          | 1 => rfl
          | j + 2 => simp
      · rcases i5 with h | h | h
        · exact .inl h
        · exact .inr (.inl (by rw [List.getD_append _ _ _ _ (by omega)]; exact h))
        · exact .inr (.inr (by rw [List.getD_append _ _ _ _ (by omega)]; exact h))
    · rw [if_neg h0]
      refine ⟨by omega, by omega, by omega, ?_, ?_⟩
      · intro k hk
        rw [List.getD_eq_default]
        simp; omega
      · right
        rw [show 2 * (m + 1) + 2 - 2 = l'.length by omega, show 2 * (m + 1) + 2 - 1 = l'.length + 1 by omega,
          List.getD_append_right _ _ _ _ (by omega), List.getD_append_right _ _ _ _ (by omega)]
        simp
        tauto

theorem postponed_le : ∀ l : List Int, postponed l ≤ 2 * l.length
  | x0 :: x1 :: xs => by
    have := postponed_le xs
    simp only [postponed, List.length_cons]
    have : postponedPair x0 x1 ≤ 4 := by
      unfold postponedPair
      split
      · split <;> split <;> omega
      · omega
    omega
  | [_] => by simp [postponed]
  | [] => by simp [postponed]

theorem postponed_take (n : Nat) : ∀ (l : List Int) (m : Nat), n % 2 = 0 → n ≤ m → m % 2 = 0 →
    postponed (l.take n) ≤ postponed (l.take m) := by
  induction n using Nat.strong_induction_on with
  | _ n ih =>
    intro l m hn hm hm2
    match n, l with
    | 0, l => simp [postponed]
    | 1, l => omega
    | n + 2, [] => simp
    | n + 2, [x] => simp [postponed]
    | n + 2, x0 :: x1 :: xs =>
      obtain ⟨m, rfl⟩ : ∃ k, m = k + 2 := ⟨m - 2, by omega⟩
      simp only [List.take_succ_cons, postponed]
      have := ih n (by omega) xs m (by omega) (by omega) (by omega)
      omega

end Lc3
