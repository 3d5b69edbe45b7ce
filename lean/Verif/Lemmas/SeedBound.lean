import Mathlib.Analysis.SpecialFunctions.Log.Base
import Verif.Lemmas.ShortFrames
/-!
The size of the noise filling seed sum in terms of the number of bits a frame spends (C06, builds with overflow checks).

`used` measures the bits read so far: the bits of the tail reader plus the information content taken by the range
decoder. The magnitudes of a decoded pair are bounded by the bits that the pair uses.
-/

namespace Lc3
open Tables Real

/-- bits consumed: tail bits, and eight per head byte less what the range still holds -/
noncomputable def used (r : Reader) (st : AcDec) : ℝ := r.tail + 8 * r.head - logb 2 st.range

theorem logb_shift {a : Nat} (h : 0 < a) : logb 2 ((a <<< 8 : Nat) : ℝ) = logb 2 a + 8 := by
  rw [Nat.shiftLeft_eq]
  push_cast
  rw [logb_mul (by exact_mod_cast h.ne') (by norm_num), show (256 : ℝ) = (2 : ℝ) ^ (8 : ℝ) by norm_num,
    logb_rpow (by norm_num) (by norm_num)]

theorem used_renorm {buf : List Nat} : ∀ (fuel : Nat) {r : Reader} {st : AcDec}, 0 < st.range →
    ∀ {p : AcDec × Reader}, acDecRenorm buf fuel r st = .ok p → used p.2 p.1 = used r st := by
  intro fuel
  induction fuel with
  | zero =>
    intro r st h p e
    rw [acDecRenorm.eq_def] at e
    simp only at e
    by_cases hr : st.range < 0x10000
    · rw [if_pos hr] at e; cases e
    · rw [if_neg hr] at e; cases e; rfl
  | succ fuel ih =>
    intro r st h p e
    rw [acDecRenorm.eq_def] at e
    simp only at e
    by_cases hr : st.range < 0x10000
    · rw [if_pos hr] at e
      obtain ⟨⟨b, r1⟩, h1, e⟩ := bind_ok_inv e
      have hr : r1 = ⟨r.head + 1, r.tail⟩ := by
        unfold Reader.readHeadByte at h1
        cases hb : buf[r.head]? with
        | none => rw [hb] at h1; cases h1
        | some b => rw [hb] at h1; cases h1; rfl
      subst hr
      have := ih (by simp only [Nat.shiftLeft_eq]; omega) e
      rw [this]
      unfold used
      rw [logb_shift h]
      push_cast
      ring
    · rw [if_neg hr] at e; cases e; rfl

/-- a decoded symbol of frequency `f` uses at least `log2 (1024 / f)` bits -/
theorem used_acDecode {buf : List Nat} {r : Reader} {st : AcDec} {cum freq : List Nat}
    (hm : ProperModel cum freq) (hst : DecOk st) :
    Safe (acDecode buf r st cum freq)
      (fun p => ∃ h : p.1 < freq.length, used r st + (10 - logb 2 (freq[p.1] : ℝ)) ≤ used p.2.2 p.2.1) := by
  rw [safe_iff]
  refine ⟨(safe_acDecode hm hst).ne_panic, ?_⟩
  rintro ⟨v, st', r'⟩ e
  have hv := (safe_acDecode hm hst).of_ok e
  refine ⟨hv.1, ?_⟩
  unfold acDecode at e
  simp only at e
  split at e
  · cases e
  obtain ⟨last, h1, e⟩ := bind_ok_inv e
  obtain ⟨v', h2, e⟩ := bind_ok_inv e
  obtain ⟨c, h3, e⟩ := bind_ok_inv e
  obtain ⟨f, h4, e⟩ := bind_ok_inv e
  obtain ⟨low, h5, e⟩ := bind_ok_inv e
  obtain ⟨⟨s, q⟩, h6, e⟩ := bind_ok_inv e
  simp only [Res.ok.injEq, Prod.mk.injEq] at e
  obtain ⟨rfl, rfl, rfl⟩ := e
  simp only at hv ⊢
  have hvl := hv.1
  rw [idx_eq_ok hvl] at h4
  cases h4
  have hpos := hm.pos _ (List.getElem_mem hvl)
  have hr1 : 0 < st.range >>> 10 := by rw [Nat.shiftRight_eq_div_pow]; have := hst.lo; omega
  have := used_renorm 3 (st := ⟨low, st.range >>> 10 * freq[v']⟩) (Nat.mul_pos hr1 hpos) h6
  rw [this]
  unfold used
  simp only
  have hR : (0 : ℝ) < st.range := by have := hst.lo; exact_mod_cast (by omega : 0 < st.range)
  have hf : (0 : ℝ) < freq[v'] := by exact_mod_cast hpos
  have hle : ((st.range >>> 10 : Nat) : ℝ) ≤ st.range / 1024 := by
    rw [le_div_iff₀ (by norm_num)]
    have : st.range >>> 10 * 1024 ≤ st.range := by rw [Nat.shiftRight_eq_div_pow]; omega
    exact_mod_cast this
  have h10 : logb 2 (1024 : ℝ) = 10 := by
    rw [show (1024 : ℝ) = (2 : ℝ) ^ (10 : ℝ) by norm_num, logb_rpow (by norm_num) (by norm_num)]
  have key : logb 2 ((st.range >>> 10 * freq[v'] : Nat) : ℝ) ≤ logb 2 st.range - 10 + logb 2 (freq[v'] : ℝ) := by
    push_cast
    rw [logb_mul (by exact_mod_cast hr1.ne') hf.ne', ← h10, ← logb_div hR.ne' (by norm_num)]
    have := logb_le_logb_of_le (b := 2) (by norm_num) (by exact_mod_cast hr1) hle
    linarith
  linarith

/-- every symbol uses a nonnegative number of bits -/
theorem used_acDecode_le {buf : List Nat} {r : Reader} {st : AcDec} {cum freq : List Nat}
    (hm : ProperModel cum freq) (hst : DecOk st) :
    Safe (acDecode buf r st cum freq) (fun p => used r st ≤ used p.2.2 p.2.1) := by
  refine (used_acDecode hm hst).mono ?_
  rintro p ⟨hv, h⟩
  have hle : freq[p.1] ≤ 1024 := by
    have h1 := take_sum_succ freq hv
    have h2 := take_sum_le freq (p.1 + 1)
    have := hm.total
    omega
  have hpos := hm.pos _ (List.getElem_mem hv)
  have h10 : logb 2 (1024 : ℝ) = 10 := by
    rw [show (1024 : ℝ) = (2 : ℝ) ^ (10 : ℝ) by norm_num, logb_rpow (by norm_num) (by norm_num)]
  have : logb 2 (freq[p.1] : ℝ) ≤ 10 := by
    rw [← h10]
    exact logb_le_logb_of_le (by norm_num) (by exact_mod_cast hpos) (by exact_mod_cast hle)
  linarith

theorem used_decodeTnsCoefs {buf : List Nat} (n : Nat) {k : Nat} (hk : k + n ≤ 8) {r : Reader} {st : AcDec}
    (hst : DecOk st) :
    Safe (decodeTnsCoefs buf r st k n) (fun p => used r st ≤ used p.2.2 p.2.1) := by
  induction n generalizing k r st with
  | zero => exact le_refl _
  | succ n ih =>
    unfold decodeTnsCoefs
    have h1 : k < AC_TNS_COEF_CUMFREQ.length := by rw [tnsCoef_cum_len]; omega
    have h2 : k < AC_TNS_COEF_FREQ.length := by rw [tnsCoef_freq_len]; omega
    rw [idx_eq_ok h1, idx_eq_ok h2]
    simp only [Res.bind_ok]
    have hp := tnsCoef_proper h1 h2
    refine ((safe_acDecode hp.1 hst).and (used_acDecode_le hp.1 hst)).bind ?_
    rintro ⟨v, st', r'⟩ ⟨⟨a1, a2, a3, a4⟩, a5⟩
    simp only at a2 a5 ⊢
    refine (ih (by omega) a2).bind ?_
    rintro ⟨l, st'', r''⟩ b
    exact le_trans a5 b

theorem used_decodeTnsFilters {buf : List Nat} {w : Nat} (hw : w < 2) (os : List Nat) {r : Reader} {st : AcDec}
    (hst : DecOk st) :
    Safe (decodeTnsFilters buf w r st os) (fun p => used r st ≤ used p.2.2 p.2.1) := by
  induction os generalizing r st with
  | nil => exact le_refl _
  | cons o os ih =>
    unfold decodeTnsFilters
    have h1 : w < AC_TNS_ORDER_CUMFREQ.length := by rw [tnsOrder_cum_len]; omega
    have h2 : w < AC_TNS_ORDER_FREQ.length := by rw [tnsOrder_freq_len]; omega
    apply Safe.ite
    · intro _
      rw [idx_eq_ok h1, idx_eq_ok h2]
      simp only [Res.bind_ok]
      have hp := tnsOrder_proper h1 h2
      refine ((safe_acDecode hp.1 hst).and (used_acDecode_le hp.1 hst)).bind ?_
      rintro ⟨v, st', r'⟩ ⟨⟨a1, a2, a3, a4⟩, a5⟩
      simp only at a1 a2 a5 ⊢
      refine ((safe_decodeTnsCoefs (v + 1) (by omega) a2).and (used_decodeTnsCoefs (v + 1) (by omega) a2)).bind ?_
      rintro ⟨l, st'', r''⟩ ⟨⟨b1, b2, b3, b4⟩, b5⟩
      simp only at b3 b5 ⊢
      refine (ih b3).bind ?_
      rintro ⟨fs, st3, r3⟩ c
      exact (a5.trans b5).trans c
    · intro _
      refine (ih hst).bind ?_
      rintro ⟨fs, st3, r3⟩ c
      exact c

/-- bits of `lev` escapes when an escape from level three on uses `γ` bits of the range coder -/
noncomputable def escUse (γ : ℝ) (lev : Nat) : ℝ := 2 * ((lev - 1 : Nat) : ℝ) + γ * ((lev - 3 : Nat) : ℝ)

/-- `γ` bounds the information of an escape symbol from level three on in context `t` -/
def EscInfo (γ : ℝ) (t : Nat) : Prop :=
  ∀ lev, 3 ≤ lev → γ ≤ 10 - logb 2 ((AC_SPEC_FREQ.getD (specPki t lev) []).getD 16 0 : ℝ)

theorem used_tail (r : Reader) (st : AcDec) (n : Nat) : used ⟨r.head, r.tail + n⟩ st = used r st + n := by
  unfold used; push_cast; ring

theorem used_decodeEscapes {buf : List Nat} {lsb : Bool} {t : Nat} {γ : ℝ} (ht : t < 1024)
    (hγ : EscInfo γ t) (fuel : Nat) :
    ∀ {lev sym xk xk1 : Nat} {r : Reader} {st : AcDec}, DecOk st → Past r → lev + fuel = 14 →
      (0 < lev → sym = 16) →
    Safe (decodeEscapes buf lsb t fuel lev sym xk xk1 r st)
      (fun p => (p.1.2.1 = 14 → p.1.1 = 16 ∨ lev = 14 ∧ lev = 0) ∧
        used r st + (escUse γ p.1.2.1 - escUse γ lev) ≤ used p.2.2 p.2.1) := by
  induction fuel with
  | zero =>
    intro lev sym xk xk1 r st hst hr hl hs
    refine ⟨fun _ => .inl (hs (by omega)), ?_⟩
    simp
  | succ fuel ih =>
    intro lev sym xk xk1 r st hst hr hl hs
    unfold decodeEscapes
    rw [spec_lookup ht, Res.bind_ok, spec_cum_idx, Res.bind_ok, spec_freq_idx, Res.bind_ok]
    obtain ⟨hm, hm17⟩ := spec_model t lev
    refine ((safe_acDecode hm hst).and ((used_acDecode hm hst).and (used_acDecode_le hm hst))).bind ?_
    rintro ⟨v, st', r'⟩ ⟨⟨a1, a2, a3, a4⟩, ⟨hv, a5⟩, a6⟩
    simp only at a1 a2 a3 a4 a5 a6 hv ⊢
    rw [hm17] at a1
    have hr' : Past r' := le_trans hr a4
    apply Safe.ite
    · intro h16
      refine ⟨fun h => ?_, ?_⟩
      · simp only at h; omega
      · simp only [sub_self, add_zero]; exact a6
    intro h16
    have hv16 : v = 16 := by omega
    subst hv16
    have hγ' : 3 ≤ lev → used r st + γ ≤ used r' st' := by
      intro h3
      have := hγ lev h3
      rw [List.getD_eq_getElem _ _ hv] at this
      linarith
    have step : escUse γ (lev + 1) - escUse γ lev =
        (if 1 ≤ lev then 2 else 0) + (if 3 ≤ lev then γ else 0) := by
      unfold escUse
      rcases Nat.lt_or_ge lev 1 with h | h
      · rw [if_neg (by omega), if_neg (by omega)]
        obtain rfl : lev = 0 := by omega
        norm_num
      · rw [if_pos h]
        have e1 : ((lev + 1 - 1 : Nat) : ℝ) = ((lev - 1 : Nat) : ℝ) + 1 := by
          rw [← Nat.cast_one (R := ℝ), ← Nat.cast_add]; congr 1; omega
        rw [e1]
        split
        · have e2 : ((lev + 1 - 3 : Nat) : ℝ) = ((lev - 3 : Nat) : ℝ) + 1 := by
            rw [← Nat.cast_one (R := ℝ), ← Nat.cast_add]; congr 1; omega
          rw [e2]; ring
        · rw [show lev + 1 - 3 = 0 by omega, show lev - 3 = 0 by omega]; ring
    have grow : used r st + (if 3 ≤ lev then γ else 0) ≤ used r' st' := by
      split
      · exact hγ' ‹_›
      · simpa using a6
    apply Safe.ite
    · intro _
      refine hr'.bool.bind ?_
      rintro ⟨b0, r1⟩ ⟨hr1, _⟩
      simp only at hr1 ⊢
      subst hr1
      have hr1 : Past ⟨r'.head, r'.tail + 1⟩ := hr'
      refine hr1.bool.bind ?_
      rintro ⟨b1, r2⟩ ⟨hr2, _⟩
      simp only at hr2 ⊢
      subst hr2
      have hr2 : Past ⟨r'.head, r'.tail + 1 + 1⟩ := hr'
      refine (ih (sym := 16) a2 hr2 (by omega) (fun _ => rfl)).mono ?_
      rintro p ⟨b1, b2⟩
      refine ⟨fun h => ?_, ?_⟩
      · rcases b1 h with h | h
        · exact .inl h
        · omega
      · rw [show r'.tail + 1 + 1 = r'.tail + 2 by omega, used_tail] at b2
        have : (if 1 ≤ lev then (2 : ℝ) else 0) ≤ 2 := by split <;> norm_num
        push_cast at b2
        linarith
    · intro hl0
      have hlev : lev = 0 := by
        simp only [Bool.or_eq_true, Bool.not_eq_true', decide_eq_true_eq, not_or] at hl0; omega
      refine (ih (sym := 16) a2 hr' (by omega) (fun _ => rfl)).mono ?_
      rintro p ⟨b1, b2⟩
      refine ⟨fun h => ?_, ?_⟩
      · rcases b1 h with h | h
        · exact .inl h
        · omega
      · rw [if_neg (show ¬ 1 ≤ lev by omega)] at step
        linarith

theorem used_decodeSign {buf : List Nat} {r : Reader} (st : AcDec) (h : Past r) (x : Nat) :
    Safe (decodeSign buf r x) (fun p => used r st + (if 0 < x then 1 else 0) ≤ used p.2 st) := by
  unfold decodeSign
  apply Safe.ite
  · intro hx
    refine h.bool.bind ?_
    rintro ⟨b, r1⟩ ⟨hr1, _⟩
    simp only at hr1 ⊢
    subst hr1
    rw [safe_ok, if_pos hx]
    simp only
    rw [used_tail]; simp
  · intro hx; rw [safe_ok, if_neg hx]; simp

/-! ### one pair -/

/-- the prices: a pair whose lines have weight at most `w` pays `A` per bit, and `B` once -/
structure Price (A γ B w : ℝ) : Prop where
  w0 : 0 ≤ w
  w1 : w ≤ 399
  a : 546000 ≤ A
  g : 0 ≤ γ
  b : 0 ≤ B
  p14 : 98302 * w ≤ A * (28 + 11 * γ) + B
  p13 : 65534 * w ≤ A * (25 + 10 * γ)

/-- magnitudes of a pair with `lev` escapes against the bits it uses -/
theorem pair_price {A γ B w : ℝ} (h : Price A γ B w) {lev m0 m1 : Nat} (hl : lev ≤ 14)
    (h13 : lev ≤ 13 → m0 < 4 * 2 ^ lev ∧ m1 < 4 * 2 ^ lev) (h14 : lev = 14 → m0 ≤ 16383 ∧ m1 ≤ 81919 ∧ 0 < m1) :
    ((m0 + m1 : Nat) : ℝ) * w ≤
      A * (escUse γ lev + (if 0 < m0 then 1 else 0) + (if 0 < m1 then 1 else 0)) + B := by
  obtain ⟨w0, w1, a, g, b, p14, p13⟩ := h
  have hAg : 0 ≤ A * γ := mul_nonneg (by linarith) g
  have bound : ∀ M : Nat, m0 + m1 ≤ M → ((m0 + m1 : Nat) : ℝ) * w ≤ M * w := fun M hM =>
    mul_le_mul_of_nonneg_right (by exact_mod_cast hM) w0
  have zero : m0 + m1 = 0 → ((m0 + m1 : Nat) : ℝ) = 0 := fun h => by rw [h]; simp
  generalize ((m0 + m1 : Nat) : ℝ) = m at bound zero ⊢
  have s0 : (0 : ℝ) ≤ (if 0 < m0 then 1 else 0) := by split <;> norm_num
  have s1 : (0 : ℝ) ≤ (if 0 < m1 then 1 else 0) := by split <;> norm_num
  have hA : (0 : ℝ) ≤ A := by linarith
  rcases Nat.lt_or_ge lev 12 with hlt | hge
  · have hlo := h13 (by omega)
    rcases Nat.lt_or_ge lev 8 with h8 | h8
    · have hp : 2 ^ lev ≤ 2 ^ 7 := Nat.pow_le_pow_right (by norm_num) (by omega)
      have e0 : 0 ≤ escUse γ lev := by unfold escUse; positivity
      by_cases hz : m0 + m1 = 0
      · rw [zero hz, zero_mul]
        positivity
      · have hs : (1 : ℝ) ≤ (if 0 < m0 then 1 else 0) + (if 0 < m1 then 1 else 0) := by
          rcases Nat.eq_zero_or_pos m0 with h0 | h0
          · rw [if_pos (show 0 < m1 by omega)]; linarith
          · rw [if_pos h0]; linarith
        have := bound 1022 (by omega)
        have h2 : A * 1 ≤ A * (escUse γ lev + (if 0 < m0 then 1 else 0) + (if 0 < m1 then 1 else 0)) :=
          mul_le_mul_of_nonneg_left (by linarith) hA
        push_cast at this
        linarith
    · have hp : 2 ^ lev ≤ 2 ^ 11 := Nat.pow_le_pow_right (by norm_num) (by omega)
      have e0 : 14 ≤ escUse γ lev := by
        unfold escUse
        have : (7 : ℝ) ≤ ((lev - 1 : Nat) : ℝ) := by exact_mod_cast (by omega : 7 ≤ lev - 1)
        have : 0 ≤ γ * ((lev - 3 : Nat) : ℝ) := by positivity
        linarith
      have := bound 16382 (by omega)
      have h2 : A * 14 ≤ A * (escUse γ lev + (if 0 < m0 then 1 else 0) + (if 0 < m1 then 1 else 0)) :=
        mul_le_mul_of_nonneg_left (by linarith) hA
      push_cast at this
      linarith
  · obtain rfl | rfl | rfl : lev = 12 ∨ lev = 13 ∨ lev = 14 := by omega
    · have hlo := h13 (by omega)
      have e : escUse γ 12 = 22 + 9 * γ := by unfold escUse; norm_num; ring
      rw [e]
      by_cases h0 : 0 < m0
      · by_cases h1 : 0 < m1
        · rw [if_pos h0, if_pos h1]
          have := bound 32766 (by omega)
          push_cast at this
          nlinarith
        · rw [if_pos h0, if_neg h1]
          have := bound 16383 (by omega)
          push_cast at this
          nlinarith
      · have h2 := bound 16383 (by omega)
        have h3 : A * (22 + 9 * γ) ≤
            A * (22 + 9 * γ + (if 0 < m0 then 1 else 0) + (if 0 < m1 then 1 else 0)) :=
          mul_le_mul_of_nonneg_left (by linarith) hA
        push_cast at h2
        nlinarith
    · have hlo := h13 (by omega)
      have e : escUse γ 13 = 24 + 10 * γ := by unfold escUse; norm_num; ring
      rw [e]
      by_cases h0 : 0 < m0 ∧ 0 < m1
      · rw [if_pos h0.1, if_pos h0.2]
        have := bound 65534 (by omega)
        push_cast at this
        nlinarith
      · have h2 := bound 32767 (by omega)
        have h3 : A * (24 + 10 * γ) ≤
            A * (24 + 10 * γ + (if 0 < m0 then 1 else 0) + (if 0 < m1 then 1 else 0)) :=
          mul_le_mul_of_nonneg_left (by linarith) hA
        push_cast at h2
        nlinarith
    · obtain ⟨q0, q1, q2⟩ := h14 rfl
      have e : escUse γ 14 = 26 + 11 * γ := by unfold escUse; norm_num; ring
      rw [e, if_pos q2]
      by_cases h0 : 0 < m0
      · rw [if_pos h0]
        have := bound 98302 (by omega)
        push_cast at this
        nlinarith
      · rw [if_neg h0]
        have := bound 81919 (by omega)
        push_cast at this
        nlinarith

/-! ### the sum over the pairs -/

theorem seedSum_append (l m : List Int) (k : Nat) : seedSum (l ++ m) k = seedSum l k + seedSum m (k + l.length) := by
  induction l generalizing k with
  | nil => simp [seedSum]
  | cons x xs ih =>
    simp only [List.cons_append, seedSum, ih, List.length_cons]
    rw [show k + 1 + xs.length = k + (xs.length + 1) by omega]; omega

theorem seedSum_zeros (n k : Nat) : seedSum (List.replicate n 0) k = 0 := by
  induction n generalizing k with
  | zero => rfl
  | succ n ih => simp [List.replicate_succ, seedSum, ih]

theorem seedSum_take_le (l : List Int) (n k : Nat) : seedSum (l.take n) k ≤ seedSum l k := by
  conv_rhs => rw [← List.take_append_drop n l, seedSum_append]
  omega

/-- what the pairs pay once: sum of `B` over `n` pairs from pair `k` on -/
def payOnce (k : Nat) : Nat → Nat
  | 0 => 0
  | n + 1 => (98302 * (2 * k + 1) - 29702400) + payOnce (k + 1) n

theorem payOnce_mono {n m : Nat} (h : n ≤ m) (k : Nat) : payOnce k n ≤ payOnce k m := by
  induction n generalizing k m with
  | zero => exact Nat.zero_le _
  | succ n ih =>
    obtain ⟨m, rfl⟩ : ∃ m', m = m' + 1 := ⟨m - 1, by omega⟩
    have := ih (m := m) (by omega) (k + 1)
    simp only [payOnce]
    omega

theorem payOnce_total : payOnce 0 200 = 235278498 := by decide +kernel

/-- prices for all pairs of a frame -/
def Prices (A : ℝ) (rf ne : Nat) : Prop :=
  ∀ k c, 2 * k + 1 < ne → c < 256 →
    ∃ γ, EscInfo γ (c + rf + if k * 2 > ne / 2 then 256 else 0) ∧
      Price A γ ((98302 * (2 * k + 1) - 29702400 : Nat) : ℝ) ((2 * k + 1 : Nat) : ℝ)

theorem used_decodePairs {buf : List Nat} {lsb : Bool} {rf ne : Nat} {A : ℝ} (hrf : rf ≤ 512) (hp : Prices A rf ne)
    (n : Nat) :
    ∀ {k c : Nat} {r : Reader} {st : AcDec}, 2 * (k + n) ≤ ne → c < 256 → DecOk st → Past r →
    Safe (decodePairs buf lsb rf ne n k c r st)
      (fun p => (seedSum (pairLines p.1) (2 * k) : ℝ) ≤ A * (used p.2.2 p.2.1 - used r st) + (payOnce k n : ℝ)) := by
  induction n with
  | zero =>
    intro k c r st hk hc hst hr
    show ((seedSum [] (2 * k) : Nat) : ℝ) ≤ _
    simp [seedSum, payOnce]
  | succ n ih =>
    intro k c r st hk hc hst hr
    unfold decodePairs
    obtain ⟨γ, hγ, hpr⟩ := hp k c (by omega) hc
    have ht : c + rf + (if k * 2 > ne / 2 then 256 else 0) < 1024 := by split <;> omega
    refine ((safe_decodeEscapes ht 14 hst hr (by omega) (by omega) (by norm_num) (by norm_num)).and
      (used_decodeEscapes ht hγ 14 hst hr (by omega) (by omega))).bind ?_
    rintro ⟨⟨sym, lev, xk, xk1⟩, st1, r1⟩ ⟨⟨a1, a2, a3, a4, a5, a6, a7⟩, a8, a9⟩
    simp only at a1 a2 a3 a4 a5 a6 a7 a8 a9 ⊢
    have hr1 := a7.past hr
    have hand : sym &&& 3 < 4 := Nat.lt_succ_of_le Nat.and_le_right
    refine ((safe_decodeSign hr1 _).and (used_decodeSign st1 hr1 _)).bind ?_
    rintro ⟨x0, r2⟩ ⟨⟨b1, b2⟩, b3⟩
    simp only at b1 b2 b3 ⊢
    refine ((safe_decodeSign (b2.past hr1) _).and (used_decodeSign st1 (b2.past hr1) _)).bind ?_
    rintro ⟨x1, r3⟩ ⟨⟨c1, c2⟩, c3⟩
    simp only at c1 c2 c3 ⊢
    have hc' : (c &&& 15) * 16 + ctxT (sym &&& 3) (sym >>> 2) lev < 256 := by
      have h15 : c &&& 15 ≤ 15 := Nat.and_le_right
      have : ctxT (sym &&& 3) (sym >>> 2) lev < 16 := by
        rcases a2 with h | h
        · exact ctxT_lt hand (by rw [Nat.shiftRight_eq_div_pow]; omega)
        · unfold ctxT; rw [h]; simp
      omega
    refine (ih (k := k + 1) (by omega) hc' a6 (c2.past (b2.past hr1))).bind ?_
    rintro ⟨rest, st4, r4⟩ d
    simp only [safe_ok] at d ⊢
    rw [← b1] at b3
    rw [← c1] at c3
    have hpair := pair_price hpr (lev := lev) (m0 := x0.natAbs) (m1 := x1.natAbs) a3 ?_ ?_
    · simp only [pairLines, seedSum, payOnce]
      rw [show 2 * (k + 1) = 2 * k + 1 + 1 by ring] at d
      have e0 : escUse γ 0 = 0 := by unfold escUse; simp
      rw [e0] at a9
      have hA : 0 ≤ A := by have := hpr.a; linarith
      have grow : A * (escUse γ lev + (if 0 < x0.natAbs then 1 else 0) + (if 0 < x1.natAbs then 1 else 0)) ≤
          A * (used r3 st1 - used r st) := mul_le_mul_of_nonneg_left (by linarith) hA
      have hw : ((x0.natAbs * (2 * k) + x1.natAbs * (2 * k + 1) : Nat) : ℝ) ≤
          ((x0.natAbs + x1.natAbs : Nat) : ℝ) * ((2 * k + 1 : Nat) : ℝ) := by
        rw [← Nat.cast_mul]
        have : x0.natAbs * (2 * k) ≤ x0.natAbs * (2 * k + 1) := Nat.mul_le_mul_left _ (by omega)
        exact_mod_cast (by rw [Nat.add_mul]; omega)
      push_cast at hw hpair d ⊢
      nlinarith
    · intro h13
      have h16 : sym < 16 := by omega
      have hsh : sym >>> 2 < 4 := by rw [Nat.shiftRight_eq_div_pow]; omega
      rw [b1, c1, Nat.shiftLeft_eq, Nat.shiftLeft_eq]
      have e1 := Nat.mul_le_mul_right (2 ^ lev) (show sym &&& 3 ≤ 3 by omega)
      have e2 := Nat.mul_le_mul_right (2 ^ lev) (show sym >>> 2 ≤ 3 by omega)
      omega
    · rintro rfl
      have hs : sym = 16 := by
        rcases a8 rfl with h | h
        · exact h
        · omega
      subst hs
      rw [b1, c1, show 16 &&& 3 = 0 from rfl]
      norm_num at a4 a5 ⊢
      omega

/-! ### the prices hold -/

set_option maxRecDepth 100000 in
theorem esc_freq_lo : ∀ p ∈ (AC_SPEC_LOOKUP.drop 3584).take 256, (AC_SPEC_FREQ.getD p []).getD 16 0 ≤ 594 := by
  decide +kernel

set_option maxRecDepth 100000 in
theorem esc_freq_hi : ∀ p ∈ AC_SPEC_LOOKUP.drop 3840, (AC_SPEC_FREQ.getD p []).getD 16 0 ≤ 190 := by
  decide +kernel

theorem esc_freq_pos (t lev : Nat) : 0 < (AC_SPEC_FREQ.getD (specPki t lev) []).getD 16 0 := by
  obtain ⟨hm, hl⟩ := spec_model t lev
  rw [List.getD_eq_getElem _ _ (show 16 < _ by omega)]
  exact hm.pos _ (List.getElem_mem _)

theorem logb_le_of_pow {f : Nat} {a b : Nat} (hf : 0 < f) (ha : 0 < a) (h : f ^ a ≤ 2 ^ b) :
    logb 2 (f : ℝ) ≤ b / a := by
  rw [le_div_iff₀ (by exact_mod_cast ha), mul_comm, ← logb_pow]
  have h2 : logb 2 ((2 : ℝ) ^ b) = b := by
    rw [logb_pow, logb_self_eq_one (by norm_num), mul_one]
  rw [← h2]
  exact logb_le_logb_of_le (by norm_num) (by positivity) (by exact_mod_cast h)

theorem escInfo_zero (t : Nat) : EscInfo 0 t := by
  intro lev _
  obtain ⟨hm, hl⟩ := spec_model t lev
  have hv : 16 < (AC_SPEC_FREQ.getD (specPki t lev) []).length := by omega
  have hle : (AC_SPEC_FREQ.getD (specPki t lev) []).getD 16 0 ≤ 1024 := by
    rw [List.getD_eq_getElem _ _ hv]
    have h1 := take_sum_succ _ hv
    have h2 := take_sum_le (AC_SPEC_FREQ.getD (specPki t lev) []) (16 + 1)
    have := hm.total
    omega
  have := logb_le_of_pow (a := 1) (b := 10) (esc_freq_pos t lev) (by norm_num) (by simpa using hle)
  push_cast at this
  linarith

theorem escInfo_lo {t : Nat} (h1 : 512 ≤ t) (h2 : t < 768) : EscInfo (3 / 4) t := by
  intro lev hl
  have hle : (AC_SPEC_FREQ.getD (specPki t lev) []).getD 16 0 ≤ 594 := by
    apply esc_freq_lo
    unfold specPki
    rw [show min lev 3 = 3 by omega, List.getD_eq_getElem _ _ (by rw [lookup_len]; omega)]
    have hlen : t - 512 < ((AC_SPEC_LOOKUP.drop 3584).take 256).length := by
      rw [List.length_take, List.length_drop, lookup_len]; omega
    have := List.getElem_mem hlen
    rw [List.getElem_take, List.getElem_drop] at this
    convert this using 2
    omega
  have := logb_le_of_pow (a := 4) (b := 37) (esc_freq_pos t lev) (by norm_num)
    (le_trans (Nat.pow_le_pow_left hle 4) (by norm_num))
  push_cast at this
  linarith

theorem escInfo_hi {t : Nat} (h1 : 768 ≤ t) (h2 : t < 1024) : EscInfo (12 / 5) t := by
  intro lev hl
  have hle : (AC_SPEC_FREQ.getD (specPki t lev) []).getD 16 0 ≤ 190 := by
    apply esc_freq_hi
    unfold specPki
    rw [show min lev 3 = 3 by omega, List.getD_eq_getElem _ _ (by rw [lookup_len]; omega)]
    have hlen : t - 768 < (AC_SPEC_LOOKUP.drop 3840).length := by
      rw [List.length_drop, lookup_len]; omega
    have := List.getElem_mem hlen
    rw [List.getElem_drop] at this
    convert this using 2
    omega
  have := logb_le_of_pow (a := 5) (b := 38) (esc_freq_pos t lev) (by norm_num)
    (le_trans (Nat.pow_le_pow_left hle 5) (by norm_num))
  push_cast at this
  linarith

/-- low rates: at most 100 bytes -/
theorem prices_low {ne : Nat} (hne : ne ≤ 400) : Prices 1401000 0 ne := by
  intro k c hk hc
  refine ⟨0, escInfo_zero _, ?_⟩
  have hw : ((2 * k + 1 : Nat) : ℝ) ≤ 399 := by exact_mod_cast (by omega : 2 * k + 1 ≤ 399)
  have hB : (0 : ℝ) ≤ ((98302 * (2 * k + 1) - 29702400 : Nat) : ℝ) := Nat.cast_nonneg _
  exact ⟨Nat.cast_nonneg _, hw, by norm_num, le_refl _, hB, by linarith, by linarith⟩

/-- high rates -/
theorem prices_high {ne : Nat} (hne : ne ≤ 400) : Prices 546000 512 ne := by
  intro k c hk hc
  have hw : ((2 * k + 1 : Nat) : ℝ) ≤ 399 := by exact_mod_cast (by omega : 2 * k + 1 ≤ 399)
  have hB : (0 : ℝ) ≤ ((98302 * (2 * k + 1) - 29702400 : Nat) : ℝ) := Nat.cast_nonneg _
  have hB2 : (98302 : ℝ) * ((2 * k + 1 : Nat) : ℝ) - 29702400 ≤ ((98302 * (2 * k + 1) - 29702400 : Nat) : ℝ) := by
    rw [sub_le_iff_le_add]
    exact_mod_cast (by omega : 98302 * (2 * k + 1) ≤ 98302 * (2 * k + 1) - 29702400 + 29702400)
  by_cases hh : k * 2 > ne / 2
  · rw [if_pos hh]
    exact ⟨12 / 5, escInfo_hi (by omega) (by omega),
      ⟨Nat.cast_nonneg _, hw, le_refl _, by norm_num, hB, by linarith, by linarith⟩⟩
  · rw [if_neg hh]
    have hw2 : ((2 * k + 1 : Nat) : ℝ) ≤ 201 := by exact_mod_cast (by omega : 2 * k + 1 ≤ 201)
    exact ⟨3 / 4, escInfo_lo (by omega) (by omega),
      ⟨Nat.cast_nonneg _, hw, le_refl _, by norm_num, hB, by linarith, by linarith⟩⟩

/-! ### residual bits and the whole frame -/

theorem readResBit_cost {buf : List Nat} {r : Reader} {x : Int} {n : Nat} {p : (Bool × Int × Nat) × Reader}
    (h : readResBit buf r x n = .ok p) : p.1.2.2 ≤ n ∧ p.1.2.1.natAbs ≤ x.natAbs + (n - p.1.2.2) := by
  unfold readResBit at h
  cases n with
  | zero => cases h; simp
  | succ n =>
    simp only at h
    obtain ⟨⟨b, r1⟩, -, h⟩ := bind_ok_inv h
    simp only at h
    split at h
    · split at h
      · cases h; simp only; omega
      · split at h
        · cases h; simp only; omega
        · cases n with
          | zero => cases h; simp
          | succ n =>
            simp only at h
            obtain ⟨⟨b, r2⟩, -, h⟩ := bind_ok_inv h
            cases h
            simp only
            cases b <;> simp <;> omega
    · cases h; simp only; omega

theorem weight_cost {a a' n n' w : Nat} (h1 : n' ≤ n) (h2 : a' ≤ a + (n - n')) (hw : w ≤ 400) :
    a' * w + 400 * n' ≤ a * w + 400 * n := by
  have e1 := Nat.mul_le_mul_right w h2
  have e2 := Nat.mul_le_mul_left (n - n') hw
  rw [Nat.add_mul] at e1
  omega

theorem decodeResidualLsb_cost {buf saveLev : List Nat} : ∀ (m : Nat) (xs : List Int) {k n : Nat} {r : Reader}
    {p : List Int × Reader}, xs.length ≤ m → 2 * k + xs.length ≤ 400 →
    decodeResidualLsb buf saveLev xs k n r = .ok p → seedSum p.1 (2 * k) ≤ seedSum xs (2 * k) + 400 * n := by
  intro m
  induction m with
  | zero =>
    intro xs k n r p hm hl h
    match xs with
    | [] => unfold decodeResidualLsb at h; cases h; simp
    | _ :: _ => simp at hm
  | succ m ih =>
    intro xs k n r p hm hl h
    match xs with
    | [] => unfold decodeResidualLsb at h; cases h; simp
    | [x] => unfold decodeResidualLsb at h; cases h; simp
    | a :: b :: xs =>
      simp only [List.length_cons] at hm hl
      unfold decodeResidualLsb at h
      obtain ⟨lev, -, h⟩ := bind_ok_inv h
      split at h
      · obtain ⟨⟨⟨c, a', n1⟩, r1⟩, h1, h⟩ := bind_ok_inv h
        obtain ⟨e1, e2⟩ := readResBit_cost h1
        simp only at e1 e2 h
        have w1 := weight_cost e1 e2 (show 2 * k ≤ 400 by omega)
        split at h
        · cases h
          simp only [seedSum]
          omega
        obtain ⟨⟨⟨c2, b', n2⟩, r2⟩, h2, h⟩ := bind_ok_inv h
        obtain ⟨e3, e4⟩ := readResBit_cost h2
        simp only at e3 e4 h
        have w2 := weight_cost e3 e4 (show 2 * k + 1 ≤ 400 by omega)
        split at h
        · cases h
          simp only [seedSum]
          omega
        obtain ⟨⟨l, r3⟩, h3, h⟩ := bind_ok_inv h
        cases h
        have := ih xs (k := k + 1) (by omega) (by omega) h3
        simp only [seedSum]
        rw [show 2 * (k + 1) = 2 * k + 1 + 1 by ring] at this
        simp only at this
        omega
      · obtain ⟨⟨l, r1⟩, h1, h⟩ := bind_ok_inv h
        cases h
        have := ih xs (k := k + 1) (by omega) (by omega) h1
        simp only [seedSum]
        rw [show 2 * (k + 1) = 2 * k + 1 + 1 by ring] at this
        simp only at this
        omega

/-- the bits counted by `calc_num_residual_bits` -/
theorem calcNumResidualBits_used {r : Reader} {st : AcDec} {total n : Nat} (hst : DecOk st) (hr : Past r)
    (ht : 8 ≤ r.tail) (h : calcNumResidualBits r st total = .ok n) : used r st + n + 1 ≤ total := by
  unfold calcNumResidualBits at h
  unfold Past at hr
  have hR : st.range ≠ 0 := by have := hst.lo; omega
  have hlog : Nat.log2 st.range < 24 := by rw [Nat.log2_lt hR]; exact hst.hi
  have sub : ∀ {a b : Nat}, b ≤ a → usub a b = .ok (a - b) := fun h => by unfold usub; rw [if_pos h]
  rw [sub ht, Res.bind_ok, sub (by omega), Res.bind_ok, sub (by omega), Res.bind_ok] at h
  split at h
  · cases h
    rename_i hle
    have hl : (Nat.log2 st.range : ℝ) ≤ logb 2 st.range := by
      have h2 : logb 2 ((2 : ℝ) ^ Nat.log2 st.range) = Nat.log2 st.range := by
        rw [logb_pow, logb_self_eq_one (by norm_num), mul_one]
      rw [← h2]
      exact logb_le_logb_of_le (by norm_num) (by positivity) (by exact_mod_cast Nat.log2_self_le hR)
    unfold used
    have e : r.tail + 8 * r.head + (total - (r.tail - 8) - ((r.head + 1 - 3) * 8 + 25 - Nat.log2 st.range)) + 1 =
        total + Nat.log2 st.range := by omega
    have e' : ((r.tail : ℝ) + 8 * r.head + ((total - (r.tail - 8) - ((r.head + 1 - 3) * 8 + 25 - Nat.log2 st.range) : Nat) : ℝ) + 1) =
        total + Nat.log2 st.range := by exact_mod_cast e
    linarith
  · cases h

theorem seed_small {buf : List Nat} {cfg : Lc3Config} {si : SideInfo} (hne : cfg.ne ≤ 400) (hfs : cfg.fsInd ≤ 4)
    (hs : SideBounds cfg si) (hlen : buf.length ≤ 400) {r r1 r2 r3 r4 : Reader} {st st2 st3 : AcDec} (ht : 8 ≤ r.tail)
    {td : List Nat × List Nat} {x x' : List Int} {sl : List Nat} {bits : List Bool}
    (h1 : acDecInit buf r = .ok (st, r1)) (h2 : decodeTnsData buf r1 si st (buf.length * 8) cfg.nMs = .ok (td, st2, r2))
    (h3 : decodeSpectralData buf r2 si (buf.length * 8) cfg.fsInd cfg.ne st2 = .ok ((x, sl), st3, r3))
    (h4 : decodeResidualBits buf r3 si st3 (buf.length * 8) cfg.ne x sl = .ok ((bits, x'), r4)) :
    seedSum x' 0 < 2 ^ 31 := by
  obtain ⟨a1, a2, a3⟩ := safe_acDecInit.of_ok h1
  simp only at a1 a2 a3
  -- initial use
  have u0 : 0 ≤ used r1 st := by
    unfold used
    have h24 : logb 2 (st.range : ℝ) ≤ 24 := by
      have := logb_le_of_pow (f := st.range) (a := 1) (b := 24) (by have := a1.lo; omega) (by norm_num)
        (by have := a1.hi; rw [Nat.pow_one]; omega)
      push_cast at this
      linarith
    have hh : (3 : ℝ) ≤ r1.head := by exact_mod_cast a3
    have : (0 : ℝ) ≤ r1.tail := Nat.cast_nonneg _
    linarith
  -- noise shaping data
  have hn : si.numTnsFilters = 1 ∨ si.numTnsFilters = 2 := by rw [hs.numTns]; split <;> simp
  have hw : tnsLpcWeightingIdx (buf.length * 8) cfg.nMs < 2 := by
    unfold tnsLpcWeightingIdx; cases cfg.nMs <;> simp only <;> split <;> omega
  unfold decodeTnsData at h2
  obtain ⟨⟨fs, s2, q2⟩, g2, h2⟩ := bind_ok_inv h2
  simp only [Res.ok.injEq, Prod.mk.injEq] at h2
  obtain ⟨-, rfl, rfl⟩ := h2
  obtain ⟨-, -, b5, b6⟩ := (safe_decodeTnsFilters hw _ a1).of_ok g2
  have u1 := (used_decodeTnsFilters hw _ a1).of_ok g2
  simp only at b5 b6 u1
  have hr2 := b6.past a3
  -- spectrum
  have hlz := hs.lastnzHi
  have hsl := ((safe_decodeSpectralData (by omega) hs.lastnzEven b5 hr2).of_ok h3).2.2.2.1
  simp only at hsl
  unfold decodeSpectralData at h3
  rw [if_neg (by omega)] at h3
  obtain ⟨⟨ps, s3, q3⟩, g3, h3⟩ := bind_ok_inv h3
  simp only [Res.ok.injEq, Prod.mk.injEq] at h3
  obtain ⟨⟨rfl, hsl'⟩, rfl, rfl⟩ := h3
  clear hsl'
  have hrf : rateFlagOf (buf.length * 8) cfg.fsInd ≤ 512 := by unfold rateFlagOf; split <;> omega
  obtain ⟨c1, -, c3, c4⟩ := (safe_decodePairs hrf _ (by omega) b5 hr2).of_ok g3
  simp only at c1 c3 c4
  have hr3 := c4.past hr2
  have ht3 : 8 ≤ q3.tail := by
    have := a2.2; have := b6.2; have := c4.2; omega
  obtain ⟨A, T, hA0, hA400, hpr, hT, hAT⟩ : ∃ A T : ℝ, 0 ≤ A ∧ 400 ≤ A ∧
      Prices A (rateFlagOf (buf.length * 8) cfg.fsInd) cfg.ne ∧ ((buf.length * 8 : Nat) : ℝ) ≤ T ∧
      A * T + 235278498 < 2 ^ 31 := by
    unfold rateFlagOf
    by_cases hb : buf.length * 8 > 160 + cfg.fsInd * 160
    · rw [if_pos hb]
      exact ⟨546000, 3200, by norm_num, by norm_num, prices_high hne,
        by exact_mod_cast (by omega : buf.length * 8 ≤ 3200), by norm_num⟩
    · rw [if_neg hb]
      exact ⟨1401000, 800, by norm_num, by norm_num, prices_low hne,
        by exact_mod_cast (by omega : buf.length * 8 ≤ 800), by norm_num⟩
  have u2 := (used_decodePairs (c := 0) hrf hpr (si.lastnz / 2) (k := 0) (by omega) (by omega) b5 hr2).of_ok g3
  simp only [Nat.mul_zero] at u2
  have hpay : (payOnce 0 (si.lastnz / 2) : ℝ) ≤ 235278498 := by
    have := payOnce_mono (show si.lastnz / 2 ≤ 200 by omega) 0
    rw [payOnce_total] at this
    exact_mod_cast this
  have hsum : seedSum (pairLines ps ++ List.replicate (400 - 2 * ps.length) 0) 0 = seedSum (pairLines ps) 0 := by
    rw [seedSum_append, seedSum_zeros]; omega
  -- residual bits
  unfold decodeResidualBits at h4
  obtain ⟨n, g4, h4⟩ := bind_ok_inv h4
  have u3 := calcNumResidualBits_used c3 hr3 ht3 g4
  have hx' : seedSum x' 0 ≤ seedSum (pairLines ps) 0 + 400 * n := by
    split at h4
    · obtain ⟨⟨bs, q4⟩, g5, h4⟩ := bind_ok_inv h4
      cases h4
      rw [hsum]; omega
    · obtain ⟨⟨xl, q4⟩, g5, h4⟩ := bind_ok_inv h4
      cases h4
      have hl4 : (pairLines ps ++ List.replicate (400 - 2 * ps.length) (0 : Int)).length = 400 := by
        rw [List.length_append, pairLines_length, List.length_replicate]; omega
      have htl : ((pairLines ps ++ List.replicate (400 - 2 * ps.length) (0 : Int)).take si.lastnz).length = si.lastnz := by
        rw [List.length_take, hl4]; omega
      have hc := decodeResidualLsb_cost _ _ (k := 0) (le_refl _) (by rw [htl]; omega) g5
      have hxl := ((safe_decodeResidualLsb (saveLev := sl) _ _ (k := 0) (n := n) (buf := buf) (le_refl _) hr3
        (by rw [htl, hsl]; omega)).of_ok g5).1
      simp only [Nat.mul_zero] at hc hxl
      have e := seedSum_append ((pairLines ps ++ List.replicate (400 - 2 * ps.length) (0 : Int)).take si.lastnz)
        ((pairLines ps ++ List.replicate (400 - 2 * ps.length) (0 : Int)).drop si.lastnz) 0
      rw [List.take_append_drop, hsum] at e
      rw [seedSum_append, hxl]
      omega
  have hn0 : (0 : ℝ) ≤ n := Nat.cast_nonneg _
  have e1 : A * (used q3 s3 - used q2 s2) + 400 * n ≤ A * T := by
    have : A * (used q3 s3 - used q2 s2) + A * n ≤ A * T := by
      rw [← mul_add]
      exact mul_le_mul_of_nonneg_left (by linarith) hA0
    nlinarith
  have e2 : (seedSum x' 0 : ℝ) ≤ (seedSum (pairLines ps) 0 : ℝ) + 400 * n := by exact_mod_cast hx'
  have e3 : (seedSum x' 0 : ℝ) < 2 ^ 31 := by linarith
  exact_mod_cast e3

end Lc3
