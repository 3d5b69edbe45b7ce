import Verif.Lemmas.TailFields
/-! Writing a field at an arbitrary position of an arbitrary frame. -/

namespace Lc3

/-- the writer stands at bit `T` of a frame of `N` bytes -/
structure AtBit (N : Nat) (w : Writer) (T : Nat) : Prop where
  side : w.bpSide = N - 1 - T / 8
  mask : w.maskSide = 2 ^ (T % 8)

theorem writeBool_at {N T : Nat} {w : Writer} {buf : List Nat} (b : Bool) (hw : AtBit N w T)
    (hl : buf.length = N) (hb : Bytes buf) (hT : T + 1 < 8 * N) :
    ∃ w' buf', w.writeBoolBackward buf b = .ok (w', buf') ∧ AtBit N w' (T + 1) ∧ w'.bp = w.bp ∧
      buf'.length = N ∧ Bytes buf' ∧
      ∀ j, j < 8 * N → tailBit buf' j = if j = T then b else tailBit buf j := by
  have hlt : w.bpSide < buf.length := by rw [hw.side, hl]; omega
  obtain ⟨h1, h2⟩ := writeBool_buf hl hb (by omega : T < 8 * N) b
  unfold Writer.writeBoolBackward
  rw [idx_eq_ok hlt]
  simp only [Res.bind_ok, setIdx, hlt, if_true]
  have hget : buf[w.bpSide] = buf.getD (N - 1 - T / 8) 0 := by
    rw [← hw.side, List.getD_eq_getElem _ _ hlt]
  rw [hget, hw.mask, hw.side]
  have hm : (2 ^ (T % 8) = 0x80) ↔ T % 8 = 7 := by
    have h : T % 8 = 0 ∨ T % 8 = 1 ∨ T % 8 = 2 ∨ T % 8 = 3 ∨ T % 8 = 4 ∨ T % 8 = 5 ∨ T % 8 = 6 ∨ T % 8 = 7 := by omega
    rcases h with h | h | h | h | h | h | h | h <;> rw [h] <;> decide
  by_cases h7 : T % 8 = 7
  · rw [if_pos (hm.2 h7)]
    simp only [usub]
    rw [if_pos (by omega)]
    simp only [Res.bind_ok]
    refine ⟨_, _, rfl, ⟨?_, ?_⟩, rfl, by simpa using hl, h1, h2⟩
    · show N - 1 - T / 8 - 1 = _
      omega
    · show 1 = _
      have : (T + 1) % 8 = 0 := by omega
      rw [this]; rfl
  · rw [if_neg (fun h => h7 (hm.1 h))]
    refine ⟨_, _, rfl, ⟨?_, ?_⟩, rfl, by simpa using hl, h1, h2⟩
    · show N - 1 - T / 8 = _
      omega
    · show 2 ^ (T % 8) <<< 1 = _
      have : (T + 1) % 8 = T % 8 + 1 := by omega
      rw [this, Nat.shiftLeft_eq, pow_succ]; rfl

theorem writeUint_at {N T v n : Nat} {w : Writer} {buf : List Nat} (hw : AtBit N w T)
    (hl : buf.length = N) (hb : Bytes buf) (hT : T + n < 8 * N) :
    ∃ w' buf', w.writeUintBackward buf v n = .ok (w', buf') ∧ AtBit N w' (T + n) ∧ w'.bp = w.bp ∧
      buf'.length = N ∧ Bytes buf' ∧
      ∀ j, j < 8 * N → tailBit buf' j = if T ≤ j ∧ j < T + n then v.testBit (j - T) else tailBit buf j := by
  induction n generalizing w T v buf with
  | zero =>
    refine ⟨w, buf, rfl, hw, rfl, hl, hb, ?_⟩
    intro j hj
    rw [if_neg (by omega)]
  | succ n ih =>
    have hbit : (v % 65536 &&& 1 != 0) = v.testBit 0 := by
      rw [Nat.and_one_is_mod, Nat.testBit_zero]
      have : v % 65536 % 2 = v % 2 := by omega
      rw [this]
      rcases Nat.mod_two_eq_zero_or_one v with h | h <;> simp [h]
    obtain ⟨w1, b1, e1, p1, q1, l1, y1, t1⟩ := writeBool_at (v % 65536 &&& 1 != 0) hw hl hb (by omega)
    obtain ⟨w2, b2, e2, p2, q2, l2, y2, t2⟩ := ih (v := v >>> 1) p1 l1 y1 (by omega)
    refine ⟨w2, b2, ?_, by rw [show T + (n + 1) = T + 1 + n by omega]; exact p2, by rw [q2, q1], l2, y2, ?_⟩
    · simp only [Writer.writeUintBackward, e1, Res.bind_ok, e2]
    · intro j hj
      rw [t2 j hj, t1 j hj, hbit]
      by_cases h1 : T + 1 ≤ j ∧ j < T + 1 + n
      · rw [if_pos h1, if_pos (by omega), Nat.testBit_shiftRight]
        congr 1; omega
      · rw [if_neg h1]
        by_cases h2 : j = T
        · rw [if_pos h2, if_pos (by omega), h2, Nat.sub_self]
        · rw [if_neg h2, if_neg (by omega)]

end Lc3
