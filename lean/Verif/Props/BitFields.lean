import Verif.Lemmas.BitField
import Verif.Spec.Bits
/-! # C02: backward bit fields read back what was written -/

namespace Lc3

/-- **C02.** A writer standing at bit `T` (counted from the end) of any frame writes an `n`-bit value `v`
(`n` one of the widths used by the format). Then exactly the bits `T .. T + n` change, they hold `v`, the
head position is untouched, and a reader standing at bit `T` whose head position leaves room for the bytes
it fetches reads `v` and advances by `n`. -/
theorem C02_field {N T n v : Nat} {w : Writer} {buf : List Nat}
    (hlen : buf.length = N) (hbytes : ∀ b ∈ buf, b < 256)
    (hside : w.bpSide = N - 1 - T / 8) (hmask : w.maskSide = 2 ^ (T % 8))
    (hwidth : (1 ≤ n ∧ n ≤ 9) ∨ n = 24 ∨ n = 25) (hv : v < 2 ^ n) (hroom : T + n < 8 * N) :
    ∃ w' buf', w.writeUintBackward buf v n = .ok (w', buf') ∧
      buf'.length = N ∧ (∀ b ∈ buf', b < 256) ∧ w'.bp = w.bp ∧
      w'.bpSide = N - 1 - (T + n) / 8 ∧ w'.maskSide = 2 ^ ((T + n) % 8) ∧
      (∀ j, j < 8 * N → tailBit buf' j =
        if T ≤ j ∧ j < T + n then v.testBit (j - T) else tailBit buf j) ∧
      (∀ head, head + T / 8 + 4 ≤ N ∨ head = 0 →
        Reader.readTailUsize ⟨head, T⟩ buf' n = .ok (v, ⟨head, T + n⟩)) := by
  obtain ⟨w', buf', e, p, q, l, y, t⟩ := writeUint_at (v := v) (n := n) ⟨hside, hmask⟩ hlen hbytes hroom
  refine ⟨w', buf', e, l, y, q, p.side, p.mask, t, ?_⟩
  intro head hh
  have htn : tailNat buf' T n = v := by
    apply natBits_eq_of_testBit _ (tailNat_lt _ _ _) hv
    intro i hi
    rw [tailNat_testBit, t (T + i) (by omega), if_pos (by omega)]
    simp [hi]
  have hfb : fieldBytes T n ≤ 4 ∧ (head = 0 → T / 8 + fieldBytes T n ≤ N) := by
    unfold fieldBytes
    constructor
    · split <;> omega
    · intro _; split <;> omega
  have hw : n < 8 ∨ T % 8 + n % 8 ≤ 8 := by omega
  rw [readTailUsize_ok y (by omega) hw (by simp only; omega) (by omega) (by simp only; omega)]
  simp only [htn]

/-- **C02**, single bits. -/
theorem C02_flag {N T : Nat} {b : Bool} {w : Writer} {buf : List Nat}
    (hlen : buf.length = N) (hbytes : ∀ b ∈ buf, b < 256)
    (hside : w.bpSide = N - 1 - T / 8) (hmask : w.maskSide = 2 ^ (T % 8)) (hroom : T + 1 < 8 * N) :
    ∃ w' buf', w.writeBoolBackward buf b = .ok (w', buf') ∧
      buf'.length = N ∧ (∀ b ∈ buf', b < 256) ∧ w'.bp = w.bp ∧
      w'.bpSide = N - 1 - (T + 1) / 8 ∧ w'.maskSide = 2 ^ ((T + 1) % 8) ∧
      (∀ j, j < 8 * N → tailBit buf' j = if j = T then b else tailBit buf j) ∧
      (∀ head, head + T / 8 ≤ N + 2 →
        Reader.readTailBool ⟨head, T⟩ buf' = .ok (b, ⟨head, T + 1⟩)) := by
  obtain ⟨w', buf', e, p, q, l, y, t⟩ := writeBool_at b ⟨hside, hmask⟩ hlen hbytes hroom
  refine ⟨w', buf', e, l, y, q, p.side, p.mask, t, ?_⟩
  intro head hh
  rw [readTailBool_eq (by simp only; omega) (by simp only; omega)]
  simp only [t T (by omega), if_true]

/-- The position of the last bit cannot be left: filling the frame exactly with backward bits panics
(the `u16` position underflows), which is why `T + n < 8 * N` is required above. -/
theorem C02_full_frame_panics (b : Bool) (x : Nat) :
    Writer.writeBoolBackward ⟨0, 0, 0x80⟩ [x] b = .panic := by
  cases b <;> simp [Writer.writeBoolBackward, idx, setIdx, usub]

/-- a nine-bit field at bit 7 of a four-byte frame with old contents -/
example : ∃ w' buf', Writer.writeUintBackward ⟨0, 3, 128⟩ [255, 170, 85, 15] 300 9 = .ok (w', buf') ∧
    buf' = [255, 170, 150, 15] ∧ Reader.readTailUsize ⟨0, 7⟩ buf' 9 = .ok (300, ⟨0, 16⟩) :=
  ⟨_, _, rfl, by decide, by decide⟩

end Lc3
