import Verif.Lemmas.DecStep
/-! Multi-bit fields read from the back of a frame. -/

namespace Lc3

/-- the bits `T .. T + n - 1` from the back, least significant first, as a number -/
def tailNat (buf : List Nat) (T : Nat) : Nat → Nat
  | 0 => 0
  | n + 1 => (tailBit buf T).toNat + 2 * tailNat buf (T + 1) n

theorem tailNat_lt (buf : List Nat) (T n : Nat) : tailNat buf T n < 2 ^ n := by
  induction n generalizing T with
  | zero => simp [tailNat]
  | succ n ih =>
    have := ih (T + 1)
    have hb : (tailBit buf T).toNat ≤ 1 := by cases tailBit buf T <;> simp
    simp only [tailNat, pow_succ]; omega

theorem tailNat_testBit (buf : List Nat) (T n i : Nat) :
    (tailNat buf T n).testBit i = (decide (i < n) && tailBit buf (T + i)) := by
  induction n generalizing T i with
  | zero => simp [tailNat]
  | succ n ih =>
    simp only [tailNat]
    cases i with
    | zero =>
      simp only [Nat.testBit_zero, Nat.add_mul_mod_self_left]
      cases tailBit buf T <;> simp
    | succ i =>
      rw [Nat.testBit_succ]
      have hd : ((tailBit buf T).toNat + 2 * tailNat buf (T + 1) n) / 2 = tailNat buf (T + 1) n := by
        have hb : (tailBit buf T).toNat ≤ 1 := by cases tailBit buf T <;> simp
        omega
      rw [hd, ih]
      have e : T + 1 + i = T + (i + 1) := by omega
      rw [e]
      congr 1
      simp

theorem natBits_eq_of_testBit {v w n : Nat} (h : ∀ i, i < n → v.testBit i = w.testBit i) (hv : v < 2 ^ n)
    (hw : w < 2 ^ n) : v = w := by
  apply Nat.eq_of_testBit_eq
  intro i
  by_cases hi : i < n
  · exact h i hi
  · rw [Nat.testBit_lt_two_pow (lt_of_lt_of_le hv (Nat.pow_le_pow_right (by omega) (by omega))),
      Nat.testBit_lt_two_pow (lt_of_lt_of_le hw (Nat.pow_le_pow_right (by omega) (by omega)))]

/-- bits of the last `m` bytes -/
theorem beVal_drop_testBit {buf : List Nat} (hb : Bytes buf) {m i : Nat} (hm : m ≤ buf.length)
    (hi : i < 8 * m) : (beVal (buf.drop (buf.length - m))).testBit i = tailBit buf i := by
  induction m generalizing i with
  | zero => omega
  | succ m ih =>
    have hlt : buf.length - (m + 1) < buf.length := by omega
    have e : buf.drop (buf.length - (m + 1)) = buf[buf.length - (m + 1)] :: buf.drop (buf.length - m) := by
      rw [List.drop_eq_getElem_cons hlt]
      congr 2; omega
    rw [e, beVal_cons]
    have hlen : (buf.drop (buf.length - m)).length = m := by simp; omega
    have hlow : beVal (buf.drop (buf.length - m)) < 2 ^ (8 * m) := by
      have := beVal_lt (l := buf.drop (buf.length - m)) (fun b hb' => hb b (List.mem_of_mem_drop hb'))
      rw [hlen] at this
      have h256 : (256 : Nat) ^ m = 2 ^ (8 * m) := by rw [pow_mul]; norm_num
      omega
    rw [hlen, show (256 : Nat) ^ m = 2 ^ (8 * m) by rw [pow_mul]; norm_num, Nat.mul_comm,
      Nat.testBit_two_pow_mul_add _ hlow]
    by_cases him : i < 8 * m
    · rw [if_pos him]; exact ih (by omega) him
    · rw [if_neg him]
      unfold tailBit
      have e1 : buf.length - 1 - i / 8 = buf.length - (m + 1) := by omega
      have e2 : i % 8 = i - 8 * m := by omega
      rw [e1, e2, List.getD_eq_getElem _ _ hlt]

/-- bits of `m` bytes starting `q` bytes before the end -/
theorem beVal_slice_testBit {buf : List Nat} (hb : Bytes buf) {q m i : Nat} (hm : q + m ≤ buf.length)
    (hi : i < 8 * m) :
    (beVal ((buf.drop (buf.length - (q + m))).take m)).testBit i = tailBit buf (8 * q + i) := by
  have h1 := beVal_drop_testBit (buf := buf.take (buf.length - q)) (m := m) (hb.take _)
    (by simp; omega) hi
  have hlen : (buf.take (buf.length - q)).length = buf.length - q := by simp
  rw [hlen] at h1
  have e1 : (buf.take (buf.length - q)).drop (buf.length - q - m) =
      (buf.drop (buf.length - (q + m))).take m := by
    rw [List.drop_take]
    congr 1
    · omega
    · congr 1; omega
  rw [e1] at h1
  rw [h1]
  unfold tailBit
  rw [hlen]
  have e2 : buf.length - 1 - (8 * q + i) / 8 = buf.length - q - 1 - i / 8 := by omega
  have e3 : (8 * q + i) % 8 = i % 8 := by omega
  rw [e2, e3]
  congr 1
  have hlt1 : buf.length - q - 1 - i / 8 < (buf.take (buf.length - q)).length := by rw [hlen]; omega
  rw [List.getD_eq_getElem _ _ hlt1, List.getD_eq_getElem _ _ (by omega), List.getElem_take]

/-- number of bytes `read_tail_usize` looks at -/
def fieldBytes (T n : Nat) : Nat := n / 8 + (if n > 8 - T % 8 ∧ n < 8 then 2 else 1)

theorem readTailUsize_err {buf : List Nat} {r : Reader} {n : Nat}
    (h : buf.length < r.head + r.tail / 8 + fieldBytes r.tail n) : r.readTailUsize buf n = .err := by
  unfold fieldBytes at h
  unfold Reader.readTailUsize
  simp only
  rw [if_pos]
  omega

theorem readTailUsize_ok {buf : List Nat} (hb : Bytes buf) {r : Reader} {n : Nat} (hn : 0 < n)
    (hw : n < 8 ∨ r.tail % 8 + n % 8 ≤ 8) (h32 : r.tail % 8 + n ≤ 32) (hn25 : n < 32)
    (h : r.head + r.tail / 8 + fieldBytes r.tail n ≤ buf.length) :
    r.readTailUsize buf n = .ok (tailNat buf r.tail n, { r with tail := r.tail + n }) := by
  have hcov : r.tail % 8 + n ≤ 8 * fieldBytes r.tail n := by
    unfold fieldBytes; split <;> omega
  unfold Reader.readTailUsize
  simp only
  have hf : n / 8 + (if n > 8 - r.tail % 8 ∧ n < 8 then 2 else 1) = fieldBytes r.tail n := rfl
  rw [hf]
  have hm4 : 1 ≤ fieldBytes r.tail n ∧ fieldBytes r.tail n ≤ 4 := by
    unfold fieldBytes; split <;> omega
  generalize fieldBytes r.tail n = m at *
  rw [if_neg (by omega)]
  have hu : r.tail / 8 + m ≤ buf.length := by omega
  simp only [usub, hu, if_true, Res.bind_ok]
  rw [if_pos (by omega)]
  simp only [Res.bind_ok]
  rw [if_neg (by omega), if_pos hm4]
  congr 2
  apply Nat.eq_of_testBit_eq
  intro i
  rw [tailNat_testBit, Nat.testBit_shiftRight, Nat.testBit_mod_two_pow, Nat.testBit_shiftLeft]
  by_cases hi : i < n
  · have e : 32 - (n + r.tail % 8) + r.tail % 8 + i - (32 - (n + r.tail % 8)) = r.tail % 8 + i := by omega
    rw [e, beVal_slice_testBit hb hu (by omega)]
    have e2 : 8 * (r.tail / 8) + (r.tail % 8 + i) = r.tail + i := by omega
    rw [e2]
    have c1 : 32 - (n + r.tail % 8) + r.tail % 8 + i < 32 := by omega
    have c2 : 32 - (n + r.tail % 8) + r.tail % 8 + i ≥ 32 - (n + r.tail % 8) := by omega
    simp [c1, c2, hi]
  · have c1 : ¬ (32 - (n + r.tail % 8) + r.tail % 8 + i < 32) := by omega
    simp [c1, hi]

/-- bits of the frame at position `T` equal the list `bs` -/
def TailIs (buf : List Nat) (T : Nat) (bs : List Bool) : Prop :=
  ∀ i, (hi : i < bs.length) → tailBit buf (T + i) = bs[i]

theorem TailIs.append {buf : List Nat} {T : Nat} {a b : List Bool} (h : TailIs buf T (a ++ b)) :
    TailIs buf T a ∧ TailIs buf (T + a.length) b := by
  constructor
  · intro i hi
    have := h i (by simp; omega)
    rw [List.getElem_append_left hi] at this
    exact this
  · intro i hi
    have := h (a.length + i) (by simp; omega)
    rw [List.getElem_append_right (by omega)] at this
    rw [← Nat.add_assoc] at this
    simpa using this

theorem TailIs.single {buf : List Nat} {T : Nat} {b : Bool} (h : TailIs buf T [b]) : tailBit buf T = b := by
  simpa using h 0 (by simp)

theorem TailIs.natBits {buf : List Nat} {T v n : Nat} (h : TailIs buf T (natBits v n)) (hv : v < 2 ^ n) :
    tailNat buf T n = v := by
  apply natBits_eq_of_testBit _ (tailNat_lt _ _ _) hv
  intro i hi
  rw [tailNat_testBit]
  have := h i (by simpa using hi)
  rw [natBits_getElem] at this
  simp [hi, this]

/-- reading a field at head position 0 -/
theorem readField {buf : List Nat} (hb : Bytes buf) {T v n : Nat} (hn : 0 < n) (hv : v < 2 ^ n)
    (hw : n < 8 ∨ n = 8 ∨ n = 9 ∨ n = 24 ∨ n = 25) (hT : T + n < 8 * buf.length)
    (h : TailIs buf T (natBits v n)) :
    Reader.readTailUsize ⟨0, T⟩ buf n = .ok (v, ⟨0, T + n⟩) := by
  have := h.natBits hv
  rw [readTailUsize_ok hb hn (by simp only; omega) (by simp only; omega) (by omega)]
  · simp only [this]
  · simp only [fieldBytes]
    split <;> omega

theorem readFlag {buf : List Nat} {T : Nat} {b : Bool} (hT : T < 8 * buf.length) (h : tailBit buf T = b) :
    Reader.readTailBool ⟨0, T⟩ buf = .ok (b, ⟨0, T + 1⟩) := by
  rw [readTailBool_eq (by simpa using hT) (by simp only; omega), h]

end Lc3
