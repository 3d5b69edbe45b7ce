import Verif.Lemmas.RangeEnc
/-! Termination of the range encoder. -/

namespace Lc3

theorem and_high (x n k : Nat) (h : k ≤ n) : x &&& (2 ^ n - 2 ^ k) = x % 2 ^ n / 2 ^ k * 2 ^ k := by
  have e : 2 ^ n - 2 ^ k = (2 ^ (n - k) - 1) <<< k := by
    rw [Nat.shiftLeft_eq, Nat.sub_mul, one_mul, ← pow_add]
    congr 2; omega
  rw [e]
  have e2 : x % 2 ^ n / 2 ^ k * 2 ^ k = (x % 2 ^ n) >>> k <<< k := by
    rw [Nat.shiftLeft_eq, Nat.shiftRight_eq_div_pow]
  rw [e2]
  apply Nat.eq_of_testBit_eq
  intro i
  rw [Nat.testBit_and, Nat.testBit_shiftLeft, Nat.testBit_two_pow_sub_one, Nat.testBit_shiftLeft,
    Nat.testBit_shiftRight, Nat.testBit_mod_two_pow]
  by_cases hi : k ≤ i
  · have : k + (i - k) = i := by omega
    rw [this]
    by_cases hn : i < n
    · have : i - k < n - k := by omega
      simp [hi, hn, this]
    · have : ¬ i - k < n - k := by omega
      simp [hn, this]
  · simp [hi]

theorem finishBits_spec {R : Nat} (h1 : 2 ^ 16 ≤ R) (h2 : R < 2 ^ 24) :
    ∃ b, finishBits R 23 = .ok b ∧ 1 ≤ b ∧ b ≤ 8 ∧ 2 ^ (24 - b) ≤ R ∧ R < 2 ^ (25 - b) ∧
      Nat.log2 R = 24 - b := by
  have key : ∀ n, 16 ≤ n → n ≤ 23 → R < 2 ^ (n + 1) →
      ∃ b, finishBits R n = .ok b ∧ 24 - n ≤ b ∧ b ≤ 8 ∧ 2 ^ (24 - b) ≤ R ∧ R < 2 ^ (25 - b) := by
    intro n hn
    induction n, hn using Nat.le_induction with
    | base =>
      intro _ h3
      refine ⟨8, ?_, by omega, by omega, by simpa using h1, by simpa using h3⟩
      have : R >>> 16 ≠ 0 := by rw [Nat.shiftRight_eq_div_pow]; omega
      simp [finishBits, this]
    | succ n hn ih =>
      intro h23 h3
      by_cases hz : R >>> (n + 1) = 0
      · rw [Nat.shiftRight_eq_div_pow, Nat.div_eq_zero_iff] at hz
        have hlt : R < 2 ^ (n + 1) := by
          rcases hz with hz | hz
          · exact absurd hz (by positivity)
          · exact hz
        obtain ⟨b, e, q⟩ := ih (by omega) hlt
        refine ⟨b, ?_, by omega, q.2⟩
        have hz' : R >>> (n + 1) = 0 := by
          rw [Nat.shiftRight_eq_div_pow]; exact Nat.div_eq_of_lt hlt
        simp only [finishBits, hz', if_true]
        exact e
      · refine ⟨24 - (n + 1), by simp [finishBits, hz], by omega, by omega, ?_, ?_⟩
        · have : 24 - (24 - (n + 1)) = n + 1 := by omega
          rw [this]
          by_contra hc
          exact hz (by rw [Nat.shiftRight_eq_div_pow]; exact Nat.div_eq_of_lt (by omega))
        · have : 25 - (24 - (n + 1)) = n + 1 + 1 := by omega
          rw [this]; exact h3
  obtain ⟨b, e, q1, q2, q3, q4⟩ := key 23 (by omega) (by omega) h2
  refine ⟨b, e, by omega, q2, q3, q4, ?_⟩
  have h25 : 25 - b = 24 - b + 1 := by omega
  rw [h25] at q4
  rw [Nat.log2_eq_iff (by omega)]
  exact ⟨q3, q4⟩

/-- The rounded-up final value leaves the 24-bit window: the case in which the code does not check the
upper end of the interval. -/
def finishOver (ac : AcEnc) : Bool := decide (2 ^ 24 ≤ ac.low + (2 ^ Nat.log2 ac.range - 1))

theorem mask_eq {b : Nat} (h1 : 1 ≤ b) (h2 : b ≤ 9) : 0x00ffffff >>> b = 2 ^ (24 - b) - 1 := by
  have : b = 1 ∨ b = 2 ∨ b = 3 ∨ b = 4 ∨ b = 5 ∨ b = 6 ∨ b = 7 ∨ b = 8 ∨ b = 9 := by omega
  rcases this with h | h | h | h | h | h | h | h | h <;> subst h <;> rfl

theorem nmask24 {b : Nat} (h1 : 1 ≤ b) (h2 : b ≤ 9) :
    0x00ffffff &&& (0xffffffff ^^^ (2 ^ (24 - b) - 1)) = 2 ^ 24 - 2 ^ (24 - b) := by
  have : b = 1 ∨ b = 2 ∨ b = 3 ∨ b = 4 ∨ b = 5 ∨ b = 6 ∨ b = 7 ∨ b = 8 ∨ b = 9 := by omega
  rcases this with h | h | h | h | h | h | h | h | h <;> subst h <;> decide

theorem round_up {x M : Nat} (hM : 0 < M) :
    x ≤ (x + (M - 1)) / M * M ∧ (x + (M - 1)) / M * M < x + M ∧ (x + (M - 1)) / M * M % M = 0 := by
  have h1 := Nat.div_add_mod (x + (M - 1)) M
  have h2 := Nat.mod_lt (x + (M - 1)) hM
  rw [Nat.mul_comm] at h1
  refine ⟨by omega, by omega, Nat.mul_mod_left _ _⟩

theorem finishValue_spec {ac : AcEnc} {b : Nat} (hb1 : 1 ≤ b) (hb8 : b ≤ 8)
    (hlo : 2 ^ (24 - b) ≤ ac.range) (hhi : ac.range < 2 ^ (25 - b)) (hlow : ac.low < 2 ^ 24)
    (hcarry : ac.carry ≤ 1) (hsum : ac.carry * 2 ^ 24 + ac.low + ac.range ≤ 2 ^ 25) :
    ∃ bits low carry, finishValue ac b = (bits, low, carry) ∧ (bits = b ∨ bits = b + 1) ∧
      low < 2 ^ 24 ∧ low % 2 ^ (24 - bits) = 0 ∧ carry ≤ 1 ∧
      ac.carry * 2 ^ 24 + ac.low ≤ carry * 2 ^ 24 + low ∧
      carry * 2 ^ 24 + low < ac.carry * 2 ^ 24 + ac.low + ac.range ∧
      (ac.low + (2 ^ (24 - b) - 1) < 2 ^ 24 →
        carry * 2 ^ 24 + low + 2 ^ (24 - bits) ≤ ac.carry * 2 ^ 24 + ac.low + ac.range) ∧
      (2 ^ 24 ≤ ac.low + (2 ^ (24 - b) - 1) → low = 0 ∧ bits = b) := by
  have hMpos : 0 < 2 ^ (24 - b) := by positivity
  have hM23 : 2 ^ (24 - b) ≤ 2 ^ 23 := Nat.pow_le_pow_right (by omega) (by omega)
  have h2M : 2 ^ (25 - b) = 2 * 2 ^ (24 - b) := by
    have : 25 - b = 24 - b + 1 := by omega
    rw [this, pow_succ]; ring
  have hdvd : 2 ^ (24 - b) ∣ 2 ^ 24 := pow_dvd_pow 2 (by omega)
  have hhalf : 2 ^ (24 - b) = 2 * 2 ^ (24 - (b + 1)) := by
    have : 24 - b = 24 - (b + 1) + 1 := by omega
    rw [this, pow_succ]; simp; ring
  have hdvd' : 2 ^ (24 - (b + 1)) ∣ 2 ^ 24 := pow_dvd_pow 2 (by omega)
  have hM' : 0 < 2 ^ (24 - (b + 1)) := by positivity
  have hmask1 : (2 ^ (24 - b) - 1) >>> 1 = 2 ^ (24 - (b + 1)) - 1 := by
    rw [Nat.shiftRight_eq_div_pow, hhalf]; omega
  have hor : ∀ x, (x &&& 0x00ffffff) &&& (0xffffffff ^^^ (2 ^ (24 - (b + 1)) - 1)) =
      x % 2 ^ 24 / 2 ^ (24 - (b + 1)) * 2 ^ (24 - (b + 1)) := by
    intro x
    rw [Nat.and_assoc, nmask24 (by omega) (by omega), and_high _ _ _ (by omega)]
  have hval : ∀ x, x &&& (0x00ffffff &&& (0xffffffff ^^^ (2 ^ (24 - b) - 1))) =
      x % 2 ^ 24 / 2 ^ (24 - b) * 2 ^ (24 - b) := by
    intro x
    rw [nmask24 hb1 (by omega), and_high _ _ _ (by omega)]
  unfold finishValue
  simp only [mask_eq hb1 (by omega : b ≤ 9), hval, hmask1, hor, Nat.shiftRight_eq_div_pow]
  generalize hMdef : 2 ^ (24 - b) = M at *
  generalize hMdef' : 2 ^ (24 - (b + 1)) = M' at *
  clear hval hor
  simp only [Nat.reducePow] at *
  by_cases hov : 16777216 ≤ ac.low + (M - 1)
  · -- the rounded value leaves the window
    have hc0 : ac.carry = 0 := by
      rcases (by omega : ac.carry = 0 ∨ ac.carry = 1) with h | h
      · exact h
      · rw [h] at hsum; omega
    have e1 : (ac.low + (M - 1)) / 16777216 = 1 := by omega
    have e2 : (ac.low + ac.range) / 16777216 = 1 := by omega
    have e3 : (ac.low + (M - 1)) % 16777216 / M * M = 0 := by
      have : (ac.low + (M - 1)) % 16777216 < M := by omega
      rw [Nat.div_eq_of_lt this]; omega
    simp only [e1, e2, e3]
    have hne : ¬ (0 + (M - 1) ≥ ac.low + ac.range) := by omega
    simp only [if_true, hne, if_false]
    refine ⟨b, 0, 1, ?_, Or.inl rfl, by norm_num, by simp, by omega, ?_, ?_, ?_, fun _ => ⟨rfl, rfl⟩⟩
    · rw [if_pos (by omega : 0 < ac.low)]
    · rw [hc0, zero_mul]; omega
    · rw [hc0, zero_mul]; omega
    · intro h; exfalso; omega
  · have e1 : (ac.low + (M - 1)) / 16777216 = 0 := by omega
    have e3 : (ac.low + (M - 1)) % 16777216 = ac.low + (M - 1) := Nat.mod_eq_of_lt (by omega)
    obtain ⟨u1, u2, u3⟩ := round_up (x := ac.low) hMpos
    obtain ⟨v1, v2, v3⟩ := round_up (x := ac.low) hM'
    simp only [e1, e3]
    have hlt : (ac.low + (M - 1)) / M * M < 16777216 :=
      lt_of_le_of_lt (Nat.div_mul_le_self _ _) (by omega)
    generalize hv : (ac.low + (M - 1)) / M * M = v at *
    have hvM : v + M ≤ 16777216 := by
      obtain ⟨c, hc⟩ := hdvd
      obtain ⟨d, hd⟩ := Nat.dvd_of_mod_eq_zero u3
      have : d < c := by
        by_contra hcon
        have := Nat.mul_le_mul_left M (Nat.not_lt.1 hcon)
        omega
      have := Nat.mul_le_mul_left M this
      rw [Nat.mul_succ] at this
      omega
    by_cases hov2 : (ac.low + ac.range) / 16777216 = 0
    · rw [hov2, if_pos rfl]
      by_cases hbig : v + (M - 1) ≥ ac.low + ac.range
      · rw [if_pos hbig]
        have e4 : (ac.low + (M' - 1)) % 16777216 = ac.low + (M' - 1) := Nat.mod_eq_of_lt (by omega)
        simp only [e4]
        generalize hv' : (ac.low + (M' - 1)) / M' * M' = v' at *
        refine ⟨b + 1, v', ac.carry, ?_, Or.inr rfl, by omega, by rw [hMdef']; exact v3, hcarry, by linarith, by linarith, ?_, ?_⟩
        · rw [if_neg (by omega)]
        · intro _; rw [hMdef']; omega
        · intro h; omega
      · rw [if_neg hbig]
        refine ⟨b, v, ac.carry, ?_, Or.inl rfl, hlt, by rw [hMdef]; exact u3, hcarry, by linarith, by linarith, ?_, ?_⟩
        · rw [if_neg (by omega)]
        · intro _; rw [hMdef]; omega
        · intro h; omega
    · rw [if_neg (by omega)]
      refine ⟨b, v, ac.carry, rfl, Or.inl rfl, hlt, by rw [hMdef]; exact u3, hcarry, by linarith, by linarith, ?_, ?_⟩
      · intro _; rw [hMdef]; omega
      · intro h; omega


theorem setIdx_ok {l : List Nat} {i v : Nat} (h : i < l.length) : setIdx l i v = .ok (l.set i v) := by
  simp [setIdx, h]

/-- The forward bit loop starting at bit `k - 1` of the byte. -/
theorem writeUintForwardLoop_spec {buf : List Nat} {N bp v : Nat} (hlen : buf.length = N)
    (hbp : bp < N) (hb : Bytes buf) (n k : Nat) (hn : n ≤ k) (hk : k ≤ 8) :
    ∃ buf', writeUintForwardLoop bp v buf (2 ^ k / 2) n = .ok buf' ∧ buf'.length = N ∧ Bytes buf' ∧
      (∀ i, i ≠ bp → buf'.getD i 0 = buf.getD i 0) ∧
      (∀ m, m < 8 → (buf'.getD bp 0).testBit m =
        if k - n ≤ m ∧ m < k then v.testBit m else (buf.getD bp 0).testBit m) := by
  induction n generalizing buf k with
  | zero =>
    refine ⟨buf, rfl, hlen, hb, fun _ _ => rfl, ?_⟩
    intro m _
    rw [if_neg (by omega)]
  | succ n ih =>
    have hk1 : 2 ^ k / 2 = 2 ^ (k - 1) := by
      have : k = k - 1 + 1 := by omega
      rw [this, pow_succ]; simp
    have hbp' : bp < buf.length := by omega
    unfold writeUintForwardLoop
    rw [idx_eq_ok hbp']
    simp only [Res.bind_ok]
    rw [setIdx_ok hbp']
    simp only [Res.bind_ok]
    rw [hk1]
    have hold : buf[bp] = buf.getD bp 0 := by rw [List.getD_eq_getElem _ _ hbp']
    rw [hold]
    obtain ⟨new, hnew⟩ : ∃ new, new = (if v % 256 &&& 2 ^ (k - 1) = 0 then
        buf.getD bp 0 &&& (255 ^^^ 2 ^ (k - 1)) else buf.getD bp 0 ||| 2 ^ (k - 1)) := ⟨_, rfl⟩
    have hbit0 : (v % 256 &&& 2 ^ (k - 1) = 0) ↔ v.testBit (k - 1) = false := by
      rw [Nat.and_two_pow]
      have : (v % 256).testBit (k - 1) = v.testBit (k - 1) := by
        rw [show (256 : Nat) = 2 ^ 8 from rfl, Nat.testBit_mod_two_pow]
        simp [show k - 1 < 8 by omega]
      rw [this]
      cases v.testBit (k - 1) <;> simp
    have hnewlt : new < 256 := by
      rw [hnew]; split
      · exact and_mask_lt (hb.getD _)
      · exact or_mask_lt (hb.getD _) (by omega)
    have hnewbit : ∀ m, m < 8 → new.testBit m =
        if m = k - 1 then v.testBit m else (buf.getD bp 0).testBit m := by
      intro m hm
      rw [hnew]
      by_cases hz : v.testBit (k - 1) = false
      · rw [if_pos (hbit0.2 hz), and_mask_testBit hm]
        by_cases hmk : m = k - 1
        · simp [hmk, hz]
        · simp [hmk]
      · rw [if_neg (fun h => hz (hbit0.1 h)), or_mask_testBit]
        by_cases hmk : m = k - 1
        · simp [hmk, Bool.not_eq_false _ ▸ hz]
        · simp [hmk]
    rw [← hnew]
    obtain ⟨buf', e, l', b', o', t'⟩ := ih (buf := buf.set bp new) (by simp [hlen]) (hb.set hnewlt) (k - 1)
      (by omega) (by omega)
    have hshift : 2 ^ (k - 1) >>> 1 = 2 ^ (k - 1) / 2 := by rw [Nat.shiftRight_one]
    rw [hshift]
    refine ⟨buf', e, l', b', ?_, ?_⟩
    · intro i hi
      rw [o' i hi, getD_set hbp', if_neg hi]
    · intro m hm
      rw [t' m hm, getD_set hbp', if_pos rfl, hnewbit m hm]
      by_cases h1 : m = k - 1
      · rw [if_neg (by omega), if_pos h1, if_pos (by omega)]
      · rw [if_neg h1]
        by_cases h2 : k - 1 - n ≤ m ∧ m < k - 1
        · rw [if_pos h2, if_pos (by omega)]
        · rw [if_neg h2, if_neg (by omega)]

theorem div_pow_eq_of_testBit {x y d : Nat} (h : ∀ m, d ≤ m → x.testBit m = y.testBit m) :
    x / 2 ^ d = y / 2 ^ d := by
  apply Nat.eq_of_testBit_eq
  intro i
  rw [Nat.testBit_div_two_pow, Nat.testBit_div_two_pow]
  exact h _ (by omega)

theorem EncSt.uintFwd_spec {N : Nat} {s : EncSt} {hd : List Nat} {tl : List Bool} {v n : Nat}
    (h : FrameInv N s hd tl) (hv : v < 256) (hn1 : 1 ≤ n) (hn8 : n ≤ 8)
    (hfit : 8 * hd.length + n + tl.length ≤ 8 * N) :
    ∃ s', s.uintFwd v n = .ok s' ∧ s'.buf.length = N ∧ Bytes s'.buf ∧ s'.buf.take hd.length = hd ∧
      (∀ j, (hj : j < tl.length) → tailBit s'.buf j = tl[j]) ∧
      (s'.buf.getD hd.length 0) / 2 ^ (8 - n) = v / 2 ^ (8 - n) ∧
      (∀ j, tl.length ≤ j → j + n < 8 * (N - hd.length) → tailBit s'.buf j = false) := by
  have hbp : hd.length < N := by omega
  obtain ⟨buf', e, l', b', o', t'⟩ := writeUintForwardLoop_spec (v := v) h.len hbp h.bytes n 8 hn8 (le_refl 8)
  have e' : s.uintFwd v n = .ok { s with buf := buf' } := by
    unfold EncSt.uintFwd Writer.writeUintForward
    rw [h.bp]
    have e2 : writeUintForwardLoop hd.length v s.buf 128 n = Res.ok buf' := e
    rw [show (0x80 : Nat) = 128 from rfl, e2]; rfl
  have hbits : ∀ j, j + n < 8 * (N - hd.length) → tailBit buf' j = tailBit s.buf j := by
    intro j hj
    rw [tailBit_eq l', tailBit_eq h.len]
    by_cases hb : N - 1 - j / 8 = hd.length
    · rw [hb, t' _ (by omega), if_neg (by omega)]
    · rw [o' _ hb]
  refine ⟨_, e', l', b', ?_, ?_, ?_, ?_⟩
  · show buf'.take hd.length = hd
    have hh := h.head
    apply List.ext_getElem
    · rw [List.length_take, l']; omega
    · intro i hi1 hi2
      rw [List.getElem_take]
      have hi3 : i < buf'.length := by omega
      have := o' i (by omega)
      rw [List.getD_eq_getElem _ _ hi3, List.getD_eq_getElem _ _ (by rw [h.len]; omega)] at this
      rw [this]
      conv_rhs => rw [List.getElem_of_eq hh.symm hi2]
      rw [List.getElem_take]
  · intro j hj
    show tailBit buf' j = _
    rw [hbits j (by omega)]
    exact h.tail j hj
  · apply div_pow_eq_of_testBit
    intro m hm
    by_cases hm8 : m < 8
    · rw [t' m hm8, if_pos (by omega)]
    · have h1 : buf'.getD hd.length 0 < 2 ^ 8 := b'.getD _
      have h2 : v < 2 ^ 8 := hv
      rw [Nat.testBit_lt_two_pow (lt_of_lt_of_le h1 (Nat.pow_le_pow_right (by omega) (by omega))),
        Nat.testBit_lt_two_pow (lt_of_lt_of_le h2 (Nat.pow_le_pow_right (by omega) (by omega)))]
  · intro j hj hj2
    show tailBit buf' j = _
    rw [hbits j hj2]
    exact h.gap j hj (by omega)

theorem finishCarries_spec {N : Nat} {s : EncSt} {hd : List Nat} {tl : List Bool} (n : Nat)
    (h : FrameInv N s hd tl) (hfit : 8 * (hd.length + n) + tl.length ≤ 8 * N) :
    ∃ s', finishCarries s n = .ok s' ∧ FrameInv N s' (hd ++ List.replicate n 255) tl := by
  induction n generalizing s hd with
  | zero => exact ⟨s, rfl, by simpa using h⟩
  | succ n ih =>
    obtain ⟨s1, e1, f1, a1⟩ := EncSt.byte_spec h (v := 0xff) (by omega) (by omega)
    obtain ⟨s2, e2, f2⟩ := ih (f1.congr_ac { s1.ac with carryCount := s1.ac.carryCount - 1 })
      (by simp; omega)
    refine ⟨s2, ?_, ?_⟩
    · simp only [finishCarries, e1, Res.bind_ok]; exact e2
    · rw [List.append_assoc, List.singleton_append] at f2; exact f2

end Lc3
