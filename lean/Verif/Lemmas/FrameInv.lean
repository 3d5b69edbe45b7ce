import Verif.Lemmas.Bytes
import Verif.Model.BitstreamEnc
/-! Invariant of the two-ended frame writer: `hd` are the bytes written from the front, `tl` the bits
written from the back; the gap in between is still zero. -/

namespace Lc3

structure FrameInv (N : Nat) (s : EncSt) (hd : List Nat) (tl : List Bool) : Prop where
  len : s.buf.length = N
  small : N < 65536
  bytes : Bytes s.buf
  bp : s.w.bp = hd.length
  head : s.buf.take hd.length = hd
  tlt : tl.length < 8 * N
  side : s.w.bpSide = N - 1 - tl.length / 8
  mask : s.w.maskSide = 2 ^ (tl.length % 8)
  tail : ∀ j, (h : j < tl.length) → tailBit s.buf j = tl[j]
  gap : ∀ j, tl.length ≤ j → j < 8 * (N - hd.length) → tailBit s.buf j = false
  fit : 8 * hd.length + tl.length ≤ 8 * N

theorem tailBit_eq {buf : List Nat} {N j : Nat} (h : buf.length = N) :
    tailBit buf j = (buf.getD (N - 1 - j / 8) 0).testBit (j % 8) := by
  unfold tailBit; rw [h]

theorem writeBool_buf {buf : List Nat} {N T : Nat} (hlen : buf.length = N) (hb : Bytes buf)
    (hT : T < 8 * N) (b : Bool) :
    let old := buf.getD (N - 1 - T / 8) 0
    let new := if b then old ||| 2 ^ (T % 8) else old &&& (255 ^^^ 2 ^ (T % 8))
    let buf' := buf.set (N - 1 - T / 8) new
    Bytes buf' ∧ (∀ j, j < 8 * N → tailBit buf' j = if j = T then b else tailBit buf j) := by
  intro old new buf'
  have hold : old < 256 := hb.getD _
  have hnew : new < 256 := by
    by_cases h : b
    · simp only [new, h, if_true]; exact or_mask_lt hold (by omega)
    · simp only [new, h]; exact and_mask_lt hold
  refine ⟨hb.set hnew, ?_⟩
  intro j hj
  have hlen' : buf'.length = N := by simp [buf', hlen]
  rw [tailBit_eq hlen', tailBit_eq hlen]
  rw [getD_set (by omega)]
  by_cases hjT : N - 1 - j / 8 = N - 1 - T / 8
  · have hdiv : j / 8 = T / 8 := by omega
    rw [if_pos hjT]
    have hbit : new.testBit (j % 8) = if j % 8 = T % 8 then b else old.testBit (j % 8) := by
      cases b with
      | true => simp only [new, if_true]; exact or_mask_testBit
      | false =>
        simp only [new]
        exact and_mask_testBit (by omega)
    rw [hbit, hjT]
    by_cases hm : j % 8 = T % 8
    · have : j = T := by omega
      simp [this]
    · have : j ≠ T := by intro h; subst h; exact hm rfl
      simp [hm, this, old]
  · rw [if_neg hjT]
    have : j ≠ T := by intro h; subst h; exact hjT rfl
    simp [this]

theorem take_set_of_le {l : List Nat} {i n v : Nat} (h : n ≤ i) : (l.set i v).take n = l.take n := by
  apply List.ext_getElem?
  intro m
  by_cases hm : m < n
  · simp only [List.getElem?_take, hm, if_true]
    rw [List.getElem?_set_ne (by omega)]
  · simp [hm]

theorem EncSt.bool_spec {N : Nat} {s : EncSt} {hd : List Nat} {tl : List Bool} (b : Bool)
    (h : FrameInv N s hd tl) (hfit : 8 * hd.length + (tl.length + 1) ≤ 8 * N)
    (hlt : tl.length + 1 < 8 * N) :
    ∃ s', s.bool b = .ok s' ∧ FrameInv N s' hd (tl ++ [b]) ∧ s'.ac = s.ac := by
  have hN := h.tlt
  have hside : s.w.bpSide < s.buf.length := by rw [h.side, h.len]; omega
  obtain ⟨hb1, hb2⟩ := writeBool_buf h.len h.bytes h.tlt b
  have hget : s.buf[s.w.bpSide] = s.buf.getD (N - 1 - tl.length / 8) 0 := by
    rw [← h.side, List.getD_eq_getElem _ _ hside]
  have hgap' : ∀ (buf' : List Nat), (∀ j, j < 8 * N → tailBit buf' j =
      if j = tl.length then b else tailBit s.buf j) →
      (∀ j, (hj : j < (tl ++ [b]).length) → tailBit buf' j = (tl ++ [b])[j]) ∧
      (∀ j, (tl ++ [b]).length ≤ j → j < 8 * (N - hd.length) → tailBit buf' j = false) := by
    intro buf' hbuf'
    constructor
    · intro j hj
      rw [List.length_append, List.length_singleton] at hj
      rw [hbuf' j (by omega)]
      by_cases hjt : j = tl.length
      · subst hjt; simp
      · have hj' : j < tl.length := by omega
        rw [if_neg hjt, List.getElem_append_left hj', h.tail j hj']
    · intro j hj hj2
      rw [List.length_append, List.length_singleton] at hj
      rw [hbuf' j (by omega), if_neg (by omega)]
      exact h.gap j (by omega) hj2
  have hlen2 : (tl ++ [b]).length = tl.length + 1 := by simp
  unfold EncSt.bool Writer.writeBoolBackward
  rw [idx_eq_ok hside, hget, h.mask, h.side]
  have hside' : N - 1 - tl.length / 8 < s.buf.length := by rw [h.len]; omega
  simp only [Res.bind_ok, setIdx, hside', if_true]
  by_cases hm : tl.length % 8 = 7
  · have hm' : (2 : Nat) ^ (tl.length % 8) = 128 := by rw [hm]; rfl
    rw [hm'] at hb1 hb2
    rw [hm']
    obtain ⟨hg1, hg2⟩ := hgap' _ hb2
    rw [if_pos rfl]
    have hpos : 1 ≤ N - 1 - tl.length / 8 := by omega
    simp only [usub, hpos, if_true, Res.bind_ok]
    refine ⟨_, rfl, ?_, rfl⟩
    refine ⟨by simp [h.len], h.small, hb1, h.bp, ?_, by simp; omega, ?_, ?_, hg1, hg2, by simp; omega⟩
    · show List.take hd.length _ = hd
      rw [take_set_of_le (by omega), h.head]
    · show N - 1 - tl.length / 8 - 1 = _
      rw [hlen2]; omega
    · show 1 = _
      rw [hlen2]
      have : (tl.length + 1) % 8 = 0 := by omega
      rw [this]; rfl
  · obtain ⟨hg1, hg2⟩ := hgap' _ hb2
    have hm' : (2 : Nat) ^ (tl.length % 8) ≠ 128 := by
      intro he
      have : (2 : Nat) ^ (tl.length % 8) = 2 ^ 7 := he
      exact hm (Nat.pow_right_injective (le_refl 2) this)
    rw [if_neg hm']
    simp only [Res.bind_ok]
    refine ⟨_, rfl, ?_, rfl⟩
    refine ⟨by simp [h.len], h.small, hb1, h.bp, ?_, by simp; omega, ?_, ?_, hg1, hg2, by simp; omega⟩
    · show List.take hd.length _ = hd
      rw [take_set_of_le (by omega), h.head]
    · show N - 1 - tl.length / 8 = _
      rw [hlen2]; omega
    · show 2 ^ (tl.length % 8) <<< 1 = _
      rw [hlen2, Nat.shiftLeft_eq]
      have : (tl.length + 1) % 8 = tl.length % 8 + 1 := by omega
      rw [this, pow_succ]; ring

theorem EncSt.byte_spec {N : Nat} {s : EncSt} {hd : List Nat} {tl : List Bool} {v : Nat}
    (h : FrameInv N s hd tl) (hv : v < 256) (hfit : 8 * (hd.length + 1) + tl.length ≤ 8 * N) :
    ∃ s', s.byte v = .ok s' ∧ FrameInv N s' (hd ++ [v]) tl ∧ s'.ac = s.ac := by
  have hlt : s.w.bp < s.buf.length := by rw [h.bp, h.len]; omega
  unfold EncSt.byte Writer.writeByteForward
  simp only [setIdx, hlt, if_true, Res.bind_ok]
  refine ⟨_, rfl, ?_, rfl⟩
  have hT := h.tlt
  have hbit : ∀ j, j < 8 * (N - (hd.length + 1)) →
      tailBit (s.buf.set s.w.bp v) j = tailBit s.buf j := by
    intro j hj
    rw [tailBit_eq (N := N) (by simp [h.len]), tailBit_eq h.len, getD_set hlt, if_neg]
    rw [h.bp]; omega
  refine ⟨by simp [h.len], h.small, h.bytes.set hv, by simp [h.bp], ?_, h.tlt, h.side, h.mask, ?_, ?_,
    by simp; omega⟩
  · show List.take _ (s.buf.set s.w.bp v) = _
    rw [h.bp, List.length_append, List.length_singleton]
    have hlt' : hd.length < (s.buf.set hd.length v).length := by simp [h.len]; omega
    rw [List.take_succ_eq_append_getElem hlt', take_set_of_le (le_refl _), h.head]
    simp
  · intro j hj
    show tailBit (s.buf.set s.w.bp v) j = _
    rw [hbit j (by omega)]; exact h.tail j hj
  · intro j hj hj2
    show tailBit (s.buf.set s.w.bp v) j = _
    rw [List.length_append, List.length_singleton] at hj2
    rw [hbit j hj2]
    exact h.gap j hj (by omega)

/-- little-endian bits of a number -/
def natBits (v : Nat) : Nat → List Bool
  | 0 => []
  | n + 1 => (v % 2 == 1) :: natBits (v / 2) n

@[simp] theorem natBits_length (v n : Nat) : (natBits v n).length = n := by
  induction n generalizing v with
  | zero => rfl
  | succ n ih => simp [natBits, ih]

theorem natBits_getElem (v n i : Nat) (h : i < (natBits v n).length) :
    (natBits v n)[i] = v.testBit i := by
  induction n generalizing v i with
  | zero => simp [natBits] at h
  | succ n ih =>
    cases i with
    | zero => simp [natBits, Nat.testBit_zero]; rcases Nat.mod_two_eq_zero_or_one v with h | h <;> simp [h]
    | succ i =>
      simp only [natBits, List.getElem_cons_succ]
      rw [ih, Nat.testBit_succ]

theorem writeUint_eq_bools (w : Writer) (buf : List Nat) (v n : Nat) (ac : AcEnc) :
    (EncSt.uint ⟨w, buf, ac⟩ v n) = encBools (natBits v n) ⟨w, buf, ac⟩ := by
  induction n generalizing w buf v with
  | zero => simp [EncSt.uint, Writer.writeUintBackward, natBits, encBools]
  | succ n ih =>
    simp only [EncSt.uint, Writer.writeUintBackward, natBits, encBools, EncSt.bool]
    have hb : (v % 65536 &&& 1 != 0) = (v % 2 == 1) := by
      rw [Nat.and_one_is_mod]
      have : v % 65536 % 2 = v % 2 := by omega
      rw [this]
      rcases Nat.mod_two_eq_zero_or_one v with h | h <;> simp [h]
    rw [hb]
    cases hw : w.writeBoolBackward buf (v % 2 == 1) with
    | ok p =>
      obtain ⟨w', buf'⟩ := p
      simp only [Res.bind_ok]
      have := ih w' buf' (v / 2)
      simp only [EncSt.uint] at this
      rw [Nat.shiftRight_one]
      exact this
    | err => rfl
    | panic => rfl

theorem EncSt.uint_eq (s : EncSt) (v n : Nat) : s.uint v n = encBools (natBits v n) s := by
  obtain ⟨w, buf, ac⟩ := s
  exact writeUint_eq_bools w buf v n ac

theorem encBools_append (a b : List Bool) (s : EncSt) :
    encBools (a ++ b) s = (encBools a s >>= fun s => encBools b s) := by
  induction a generalizing s with
  | nil => rfl
  | cons x xs ih =>
    simp only [List.cons_append, encBools]
    rw [Res.bind_assoc]
    congr 1
    funext s'
    exact ih s'

theorem encBools_spec {N : Nat} {s : EncSt} {hd : List Nat} {tl : List Bool} (bs : List Bool)
    (h : FrameInv N s hd tl) (hfit : 8 * hd.length + (tl.length + bs.length) ≤ 8 * N)
    (hlt : tl.length + bs.length < 8 * N) :
    ∃ s', encBools bs s = .ok s' ∧ FrameInv N s' hd (tl ++ bs) ∧ s'.ac = s.ac := by
  induction bs generalizing s tl with
  | nil => exact ⟨s, rfl, by simpa using h, rfl⟩
  | cons b bs ih =>
    simp only [List.length_cons] at hfit hlt
    obtain ⟨s1, h1, h2, h3⟩ := EncSt.bool_spec b h (by omega) (by omega)
    obtain ⟨s2, h4, h5, h6⟩ := ih h2 (by simp; omega) (by simp; omega)
    refine ⟨s2, ?_, by simpa using h5, by rw [h6, h3]⟩
    simp [encBools, h1, h4]

/-- The bits written from the back do not depend on the range coder state and vice versa; number of
side bits as computed by the writer. -/
theorem FrameInv.nbitsSideWritten {N : Nat} {s : EncSt} {hd : List Nat} {tl : List Bool}
    (h : FrameInv N s hd tl) : s.w.nbitsSideWritten (s.buf.length * 8) = .ok tl.length := by
  have hT := h.tlt
  unfold Writer.nbitsSideWritten
  rw [h.mask, h.side, h.len, Nat.log2_two_pow]
  have : ((N * 8 : Nat) : Int) - (8 * ((N - 1 - tl.length / 8 : Nat) : Int) + 8 - ((tl.length % 8 : Nat) : Int))
      = (tl.length : Int) := by omega
  simp only [this]
  rw [if_neg (by omega)]
  simp

end Lc3
