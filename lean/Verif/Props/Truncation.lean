import Verif.Props.BudgetTight
import Verif.Props.LsbMode
import Verif.Props.CodecError
/-!
# C125: the truncation drops no line that fits

C52 shows that the spectrum kept by the quantiser is within its budget. Here, for frames below the limit of the least significant bit mode (C122):
a pair of lines is dropped only if the spectrum up to this pair needs more than the budget, up to 1/2048 bit for every symbol.
-/

namespace Lc3
open Scalar Tables Spec

theorem specEv_waste {t lev sym : Nat} (ht : t < 1024) (hs : sym < 17) {β : Type} (f : Nat → Res β) :
    ∃ b : Nat, (b : ℝ) ≤ 2048 * evInfo (specEv t lev sym) + 1 ∧
      (idx AC_SPEC_LOOKUP (t + min lev 3 * 1024) >>= fun pki => idx AC_SPEC_BITS pki >>= fun row => idx row sym >>= f) = f b := by
  have hp := specPki_lt t lev
  have h2 : specPki t lev < AC_SPEC_BITS.length := by rw [spec_bits_len]; exact hp
  have h3 : sym < (AC_SPEC_BITS[specPki t lev]).length := by rw [bits_row h2]; exact hs
  refine ⟨(AC_SPEC_BITS[specPki t lev])[sym], ?_, ?_⟩
  · obtain ⟨h4, h5⟩ := rows_cost spec_cost.1 spec_cost.2 h2 h3
    have h6 : specPki t lev < AC_SPEC_FREQ.length := by rw [spec_freq_len]; exact hp
    have hpos : 0 < (AC_SPEC_FREQ[specPki t lev]).getD sym 0 := by
      obtain ⟨m1, m2⟩ := spec_model t lev
      rw [List.getD_eq_getElem _ _ h6] at m1
      rw [List.getD_eq_getElem _ _ h4]
      exact m1.pos _ (List.getElem_mem h4)
    have := (costOk_iff h5 hpos).2
    unfold specEv modelEv evInfo
    simp only
    rw [List.getD_eq_getElem _ [] h6]
    exact this.le
  · rw [spec_lookup ht, Res.bind_ok, idx_eq_ok h2, Res.bind_ok, idx_eq_ok h3, Res.bind_ok]

theorem evSym_specEv (t lev sym : Nat) : evSym (specEv t lev sym) = 1 := rfl

theorem estEscapes_waste {mode : Bool} {t : Nat} (ht : t < 1024) (fuel : Nat) : ∀ a b lev est lsb, max a b < 4 * 2 ^ fuel →
    ∃ e' l', estEscapes mode t fuel a b (min lev 3) est lsb =
        .ok ((escRun mode t fuel a b lev).2.1, (escRun mode t fuel a b lev).2.2.1, min (escRun mode t fuel a b lev).2.2.2 3, e', l') ∧
      (e' : ℝ) ≤ 2048 * evsBits (escRun mode t fuel a b lev).1 + est + evsSym (escRun mode t fuel a b lev).1 := by
  induction fuel with
  | zero =>
    intro a b lev est lsb hm
    unfold estEscapes escRun
    rw [if_neg (by simp at hm; omega)]
    refine ⟨_, _, rfl, ?_⟩
    simp [evsBits, evsInfo, evsTail, evsSym]
  | succ fuel ih =>
    intro a b lev est lsb hm
    unfold estEscapes escRun
    by_cases h4 : max a b ≥ 4
    · rw [if_pos h4, if_pos h4]
      simp only
      obtain ⟨bits, hb1, hb⟩ := specEv_waste (lev := lev) (sym := 16) ht (by omega) (fun bits =>
        estEscapes mode t fuel (a >>> 1) (b >>> 1) (min 3 (min lev 3 + 1)) (est + bits + if (min lev 3 == 0 && mode) = true then 0 else 2 * 2048)
          (lsb + if (min lev 3 == 0 && mode) = true then 2 else 0))
      rw [hb]
      have hlt : max (a >>> 1) (b >>> 1) < 4 * 2 ^ fuel := by
        rw [shiftRight_one, shiftRight_one]
        rw [Nat.pow_succ] at hm
        omega
      obtain ⟨e', l', he, hle⟩ := ih (a >>> 1) (b >>> 1) (lev + 1)
        (est + bits + if (min lev 3 == 0 && mode) = true then 0 else 2 * 2048)
        (lsb + if (min lev 3 == 0 && mode) = true then 2 else 0) hlt
      refine ⟨e', l', ?_, ?_⟩
      · rw [← he]
        congr 1
        omega
      · rw [evsBits_cons, evsBits_append, evsBits_bits, specEv_tail, evsSym_cons, evsSym_append, evsSym_bits, evSym_specEv]
        have hlen : 2048 * (escBits mode a b lev).length = if (min lev 3 == 0 && mode) = true then 0 else 2 * 2048 := by
          unfold escBits
          by_cases hl : lev = 0
          · subst hl
            cases mode <;> simp
          · have h3 : min lev 3 ≠ 0 := by omega
            simp [hl, h3]
        rw [← hlen] at hle
        push_cast at hle ⊢
        linarith
    · rw [if_neg h4, if_neg h4]
      refine ⟨_, _, rfl, ?_⟩
      simp [evsBits, evsInfo, evsTail, evsSym]

/-- signs LSB mode saves in a pair -/
def savedPair (mode : Bool) (x0 x1 : Int) : Nat :=
  if mode = true ∧ (4 ≤ x0.natAbs ∨ 4 ≤ x1.natAbs) then (if x0.natAbs = 1 then 1 else 0) + (if x1.natAbs = 1 then 1 else 0) else 0

def savedOf (mode : Bool) : List Int → Nat
  | x0 :: x1 :: xs => savedPair mode x0 x1 + savedOf mode xs
  | _ => 0

theorem savedOf_true : ∀ xs, savedOf true xs = savedSigns xs
  | x0 :: x1 :: xs => by simp [savedOf, savedSigns, savedPair, savedOf_true xs]
  | [_] => rfl
  | [] => rfl

theorem savedOf_false : ∀ xs, savedOf false xs = 0
  | x0 :: x1 :: xs => by simp [savedOf, savedPair, savedOf_false xs]
  | [_] => rfl
  | [] => rfl

theorem signBits_saved (mode : Bool) {x0 x1 : Int} (h0 : x0.natAbs < 32768) (h1 : x1.natAbs < 32768) :
    (if x0.natAbs > 0 then 1 else 0) + (if x1.natAbs > 0 then 1 else 0) =
      (signBits (mode && decide (levOf x0 x1 > 0)) x0).length + (signBits (mode && decide (levOf x0 x1 > 0)) x1).length + savedPair mode x0 x1 := by
  have hp := levOf_pos h0 h1
  have key : ∀ post x, (signBits post x).length = if (if post = true then x.natAbs / 2 else x.natAbs) > 0 then 1 else 0 := by
    intro post x
    unfold signBits
    rw [Nat.shiftRight_one]
    by_cases hk : (if post = true then x.natAbs / 2 else x.natAbs) > 0
    · rw [if_pos hk, if_pos hk]; rfl
    · rw [if_neg hk, if_neg hk]; rfl
  rw [key, key]
  unfold savedPair
  cases mode
  · simp
  · simp only [Bool.true_and, true_and, decide_eq_true_eq]
    by_cases h : 4 ≤ x0.natAbs ∨ 4 ≤ x1.natAbs
    · have : levOf x0 x1 > 0 := by omega
      rw [if_pos h, if_pos this, if_pos this]
      split_ifs <;> omega
    · have : ¬ levOf x0 x1 > 0 := by omega
      rw [if_neg h, if_neg this, if_neg this, Nat.add_zero]

/-- the estimate after the pairs `xs` is hardly larger than their cost, and every pair behind the truncation that is not zero is above the budget -/
theorem estPairs_waste {mode : Bool} {rate ne spec : Nat} (hr : rate ≤ 512) (m : Nat) :
    ∀ (xs : List Int) (n : Nat) (s : EstSt), xs.length = 2 * m → (∀ x ∈ xs, x.natAbs < 32768) → s.c < 256 → s.lastTrunc ≤ n + 2 →
    ∃ s', estPairs ℝ mode rate ne spec xs n s = .ok s' ∧ s.lastTrunc ≤ s'.lastTrunc ∧
      ∀ j, 0 < j → j ≤ m → s'.lastTrunc < n + 2 * j → (xs.getD (2 * j - 2) 0 ≠ 0 ∨ xs.getD (2 * j - 1) 0 ≠ 0) →
        ∃ e : Nat, spec < bits2048 ℝ e ∧ (e : ℝ) ≤ 2048 * evsBits (pairsEv mode rate ne (xs.take (2 * j)) n s.c) + s.est +
          evsSym (pairsEv mode rate ne (xs.take (2 * j)) n s.c) + 2048 * savedOf mode (xs.take (2 * j)) := by
  induction m with
  | zero =>
    intro xs n s hl _ hc _
    obtain rfl : xs = [] := List.length_eq_zero_iff.1 (by omega)
    exact ⟨s, rfl, le_refl _, fun j h0 h1 => by omega⟩
  | succ m ih =>
    intro xs n s hl hx hc hlt
    match xs, hl with
    | x0 :: x1 :: xs, hl =>
    have hx0 := hx x0 (by simp)
    have hx1 := hx x1 (by simp)
    unfold estPairs
    simp only
    obtain ⟨t, ht⟩ : ∃ t, t = s.c + rate + if n > ne / 2 then 256 else 0 := ⟨_, rfl⟩
    have ht' : t < 1024 := by rw [ht]; split <;> omega
    rw [← ht]
    obtain ⟨e', l', he, hle⟩ := estEscapes_waste ht' 16 x0.natAbs x1.natAbs 0 s.est s.lsb (by norm_num; omega)
    obtain ⟨q1, q2, q3, -⟩ := escOf_eq mode t hx0 hx1
    have hf := escRun_fuel mode t 13 16 x0.natAbs x1.natAbs 0 (by norm_num; omega) (by omega)
    rw [hf] at he hle
    change (e' : ℝ) ≤ 2048 * evsBits (escOf mode t x0 x1).1 + _ + evsSym (escOf mode t x0 x1).1 at hle
    rw [show escRun mode t 13 x0.natAbs x1.natAbs 0 = escOf mode t x0 x1 from rfl, q1] at he
    simp only at he
    rw [show min 0 3 = 0 from rfl] at he
    rw [he]
    simp only [Res.bind_ok]
    obtain ⟨bits, hb1, hb2⟩ := specEv_waste (lev := levOf x0 x1)
      (sym := x0.natAbs / 2 ^ levOf x0 x1 + 4 * (x1.natAbs / 2 ^ levOf x0 x1)) ht' (by omega) (fun b => Res.ok b)
    obtain ⟨bits', -, hb3⟩ := specEv_cost (lev := levOf x0 x1)
      (sym := x0.natAbs / 2 ^ levOf x0 x1 + 4 * (x1.natAbs / 2 ^ levOf x0 x1)) ht' (by omega)
    rw [hb3] at hb2
    obtain rfl : bits' = bits := by simpa using hb2
    rw [hb3]
    obtain ⟨est', hest⟩ : ∃ e, e = e' + bits' + (if x0.natAbs > 0 then 2048 else 0) + (if x1.natAbs > 0 then 2048 else 0) :=
      ⟨_, rfl⟩
    rw [← hest]
    have hpair : (est' : ℝ) ≤ 2048 * evsBits (pairEv mode t x0 x1) + s.est + evsSym (pairEv mode t x0 x1) +
        2048 * savedPair mode x0 x1 := by
      unfold pairEv
      rw [evsBits_append, evsBits_append, evsBits_bits, evsBits_cons, specEv_tail, evsSym_append, evsSym_append, evsSym_bits, evsSym_cons,
        evSym_specEv, evsSym_nil]
      have hz : evsBits [] = 0 := by simp [evsBits, evsInfo, evsTail]
      rw [hz, List.length_append]
      have e0 : est' = 2048 * ((signBits (mode && decide (levOf x0 x1 > 0)) x0).length + (signBits (mode && decide (levOf x0 x1 > 0)) x1).length +
          savedPair mode x0 x1) + (e' + bits') := by
        rw [← signBits_saved mode hx0 hx1]
        have t0 : (if x0.natAbs > 0 then 2048 else 0) = 2048 * (if x0.natAbs > 0 then 1 else 0) := by split <;> rfl
        have t1 : (if x1.natAbs > 0 then 2048 else 0) = 2048 * (if x1.natAbs > 0 then 1 else 0) := by split <;> rfl
        rw [hest, t0, t1]; omega
      rw [e0]
      push_cast
      linarith
    obtain ⟨lsb', hlsb⟩ : ∃ e, e = (if (decide (min (levOf x0 x1) 3 > 0) && mode) = true then
        l' + (if x0.natAbs >>> 1 = 0 ∧ x0 ≠ 0 then 1 else 0) + (if x1.natAbs >>> 1 = 0 ∧ x1 ≠ 0 then 1 else 0)
      else l') := ⟨_, rfl⟩
    rw [← hlsb]
    obtain ⟨s', h1, h2, h3⟩ := ih xs (n + 2)
      { est := est'
        trunc := if (x0 ≠ 0 ∨ x1 ≠ 0) ∧ bits2048 ℝ est' ≤ spec then est' else s.trunc
        lsb := lsb'
        lastTrunc := if (x0 ≠ 0 ∨ x1 ≠ 0) ∧ bits2048 ℝ est' ≤ spec then n + 2 else s.lastTrunc
        c := pairCtx s.c x0 x1 }
      (by simp at hl; omega) (fun x hx' => hx x (by simp [hx'])) (pairCtx_lt _ hx0 hx1) (by simp only; split <;> omega)
    refine ⟨s', h1, ?_, ?_⟩
    · simp only at h2
      split at h2 <;> omega
    · intro j hj0 hj hjt hnz
      obtain ⟨j, rfl⟩ : ∃ i, j = i + 1 := ⟨j - 1, by omega⟩
      by_cases hj1 : j = 0
      · subst hj1
        simp only [show 2 * (0 + 1) - 2 = 0 by rfl, show 2 * (0 + 1) - 1 = 1 by rfl, List.getD_cons_zero, List.getD_cons_succ] at hnz
        refine ⟨est', ?_, ?_⟩
        · by_contra hc
          simp only at h2
          rw [if_pos ⟨hnz, by omega⟩] at h2
          omega
        · rw [show 2 * (0 + 1) = 0 + 1 + 1 by rfl, List.take_succ_cons, List.take_succ_cons, List.take_zero, pairsEv, savedOf, ← ht,
            evsBits_append, evsSym_append]
          have hz : evsBits (pairsEv mode rate ne [] (n + 2) (pairCtx s.c x0 x1)) = 0 := by
            simp [pairsEv, evsBits, evsInfo, evsTail]
          have hz'' : savedOf mode [] = 0 := rfl
          have hz' : evsSym (pairsEv mode rate ne [] (n + 2) (pairCtx s.c x0 x1)) = 0 := by
            simp [pairsEv, evsSym]
          rw [hz, hz', hz'']
          push_cast
          linarith
      · obtain ⟨e, e1, e2⟩ := h3 j (by omega) (by omega) (by omega) (by
          rw [show 2 * (j + 1) - 2 = 2 * j - 2 + 1 + 1 by omega, show 2 * (j + 1) - 1 = 2 * j - 1 + 1 + 1 by omega, List.getD_cons_succ,
            List.getD_cons_succ, List.getD_cons_succ, List.getD_cons_succ] at hnz
          exact hnz)
        refine ⟨e, e1, ?_⟩
        simp only at e2
        rw [show 2 * (j + 1) = 2 * j + 1 + 1 by ring, List.take_succ_cons, List.take_succ_cons, pairsEv, savedOf, ← ht, evsBits_append, evsSym_append]
        push_cast
        linarith

theorem truncation_waste (f : SamplingFrequency) (d : FrameDuration) {nbits nbw ntns nltpf : Nat} (hn : nbits < 32768)
    {mode : Bool} (hmode : encModeFlag nbits (Lc3Config.new f d).fsInd = mode)
    {s s' : QuantSt ℝ} {xf : List ℝ} {o : QuantOut ℝ}
    (h : quantRun (Lc3Config.new f d).ne (Lc3Config.new f d).fsInd s xf nbits nbw ntns nltpf = .ok (s', o))
    (hne : ∀ y ∈ xf, y ≠ -(32768 - 3 / 8) * o.gg) {xs : List Int} (hxs : xs = xf.map (quantLine o.gg)) {j : Nat} (hj : o.lastnzTrunc < 2 * j)
    (hnz : xs.getD (2 * j - 2) 0 ≠ 0 ∨ xs.getD (2 * j - 1) 0 ≠ 0) :
    (o.nbitsSpec : ℝ) < symbolInfo o.rateFlag (Lc3Config.new f d).ne (xs.take (2 * j)) + plainBits mode (xs.take (2 * j)) +
      savedOf mode (xs.take (2 * j)) + symbolCount o.rateFlag (Lc3Config.new f d).ne (xs.take (2 * j)) / 2048 := by
  have hcfg : 2 ≤ (Lc3Config.new f d).ne ∧ (Lc3Config.new f d).ne % 2 = 0 ∧ (Lc3Config.new f d).fsInd ≤ 4 := by cases f <;> cases d <;> decide
  generalize (Lc3Config.new f d).ne = ne at *
  generalize (Lc3Config.new f d).fsInd = fsInd at *
  obtain ⟨h2, he, hfs⟩ := hcfg
  obtain ⟨p1, p2⟩ := C43 (by omega) h
  obtain ⟨hl, hb, _, _, _, _, _, q, -, -, -, -, hq, ho⟩ := quantRun_inv h
  have hgg : q.gg = ggValue o.ggInd (ggOffEnc nbits fsInd) := by
    unfold quantSpectrum at hq
    obtain ⟨bc, -, hq⟩ := Res.bind_eq_ok.1 hq
    split at hq
    · simp only [Res.ok.injEq] at hq
      rw [← hq]
    · cases hq
  have hog : o.gg = q.gg := by rw [ho]
  rw [hog, hgg] at p1 p2 hne hxs
  have e2 : o.lastnzTrunc = q.bc.lastnzTrunc := by rw [ho]
  have e4 : o.rateFlag = q.bc.rateFlag := by rw [ho]
  rw [e2] at hj
  rw [e4]
  unfold quantSpectrum at hq
  simp only at hq
  rw [← hxs] at hq
  obtain ⟨bc, e1, hq⟩ := Res.bind_eq_ok.1 hq
  split at hq
  case isFalse => cases hq
  simp only [Res.ok.injEq] at hq
  have hbc : q.bc = bc := by rw [← hq]
  rw [hbc] at hj ⊢
  have hb : ∀ x ∈ xs, x.natAbs ≤ 32768 := by
    intro x hx
    rw [hxs] at hx
    obtain ⟨y, -, rfl⟩ := List.mem_map.1 hx
    exact quantLine_bounds _ _
  have hb' : ∀ x ∈ xs, x.natAbs < 32768 := by
    intro x hx'
    have h1 := hb x hx'
    rw [hxs] at hx'
    obtain ⟨y, hy, rfl⟩ := List.mem_map.1 hx'
    exact lt_of_natAbs_le h1 (quantLine_real_neg p1 (p2 y hy) (hne y hy)) (quantLine_hi _ _)
  have hlen : xs.length = ne := by rw [hxs]; simpa using hl
  obtain ⟨bc', e1', c1, c2, c3, c4, c5, c6, c7, c8, c9⟩ := bitConsumption_ok (α := ℝ) (fsInd := fsInd) (nbits := nbits) (spec := o.nbitsSpec)
    h2 he hlen hb
  rw [e1] at e1'
  obtain rfl : bc = bc' := by simpa using e1'
  have hev := c1.even
  have hle := c1.le
  unfold bitConsumption at e1
  simp only at e1
  rw [if_neg (by omega)] at e1
  obtain ⟨st, e3, e1⟩ := Res.bind_eq_ok.1 e1
  simp only [Res.ok.injEq] at e1
  have hln : lastNz ne (xs.take ne).reverse = bc.lastnz := by rw [← e1]
  have htr : bc.lastnzTrunc = st.lastTrunc := by rw [← e1]
  rw [hln, ← c8, hmode] at e3
  have hr512 : bc.rateFlag ≤ 512 := by rw [c8]; unfold encRateFlag; split <;> omega
  -- the pair is below the last line that is not zero
  have hjl : 2 * j ≤ bc.lastnz := by
    by_contra hc
    have h1 : xs.getD (2 * j - 2) 0 = 0 := c1.zeros _ (by omega)
    have h2 : xs.getD (2 * j - 1) 0 = 0 := c1.zeros _ (by omega)
    rcases hnz with hz | hz
    · exact hz h1
    · exact hz h2
  obtain ⟨st', w1, -, w2⟩ := estPairs_waste (mode := mode) (rate := bc.rateFlag) (ne := ne) (spec := o.nbitsSpec) hr512 (bc.lastnz / 2) (xs.take bc.lastnz) 0
    ⟨0, 0, 0, 2, 0⟩ (by simp; omega) (fun x hx' => hb' x (List.mem_of_mem_take hx')) (by simp) (by simp)
  rw [e3] at w1
  obtain rfl : st = st' := by simpa using w1
  have hg : ∀ k < bc.lastnz, (xs.take bc.lastnz).getD k 0 = xs.getD k 0 := by
    intro k hk
    rw [List.getD_eq_getElem?_getD, List.getD_eq_getElem?_getD, List.getElem?_take_of_lt hk]
  obtain ⟨e, u1, u2⟩ := w2 j (by omega) (by omega) (by omega) (by rw [hg _ (by omega), hg _ (by omega)]; exact hnz)
  rw [List.take_take, Nat.min_eq_left hjl] at u2
  obtain ⟨v1, v2, v3⟩ := pairsEv_spec (lsb := mode) (rf := bc.rateFlag) (ne := ne) (xs := xs.take (2 * j))
    (fun x hx' => hb' x (List.mem_of_mem_take hx')) (by rw [List.length_take, Nat.min_eq_left (by omega)]; omega)
  unfold evsBits at u2
  rw [v1, v2, v3] at u2
  have he64 : 2048 * o.nbitsSpec < e := by
    by_contra hc
    rw [bits2048_real _ (by omega)] at u1
    omega
  have he' : 2048 * (o.nbitsSpec : ℝ) < e := by exact_mod_cast he64
  simp only [Nat.cast_zero, add_zero] at u2
  linarith


/-- **C125** In exact arithmetic, for every frame of fewer than `480 + 160 i` bits whose lines are in range: if the quantiser drops a pair of
lines `2 j - 2`, `2 j - 1` that is not zero, then the lines up to this pair need more bits than the budget, up to 1/2048 bit for every symbol. -/
theorem C125 (f : SamplingFrequency) (d : FrameDuration) {nbits nbw ntns nltpf : Nat} (hn : nbits < 480 + 160 * (Lc3Config.new f d).fsInd)
    {s s' : QuantSt ℝ} {xf : List ℝ} {o : QuantOut ℝ}
    (h : quantRun (Lc3Config.new f d).ne (Lc3Config.new f d).fsInd s xf nbits nbw ntns nltpf = .ok (s', o))
    (hne : ∀ y ∈ xf, y ≠ -(32768 - 3 / 8) * o.gg) {xs : List Int} (hxs : xs = xf.map (quantLine o.gg)) {j : Nat} (hj : o.lastnzTrunc < 2 * j)
    (hnz : xs.getD (2 * j - 2) 0 ≠ 0 ∨ xs.getD (2 * j - 1) 0 ≠ 0) :
    (o.nbitsSpec : ℝ) < symbolInfo o.rateFlag (Lc3Config.new f d).ne (xs.take (2 * j)) + plainBits false (xs.take (2 * j)) +
      symbolCount o.rateFlag (Lc3Config.new f d).ne (xs.take (2 * j)) / 2048 := by
  have hfs : (Lc3Config.new f d).fsInd ≤ 4 := by cases f <;> cases d <;> decide
  have := truncation_waste f d (mode := false) (by omega) (by unfold encModeFlag; exact decide_eq_false (by omega)) h hne hxs hj hnz
  rw [savedOf_false] at this
  simpa using this

/-- **C125** (larger frames) For frames of `480 + 160 i` bits or more, where the least significant bit mode is used as soon as lines are dropped: the
lines up to a dropped pair need more than the budget in this mode; the estimate also counts the signs this mode does not write at once. -/
theorem C125_lsb (f : SamplingFrequency) (d : FrameDuration) {nbits nbw ntns nltpf : Nat} (hn : 480 + 160 * (Lc3Config.new f d).fsInd ≤ nbits)
    (hn' : nbits < 32768) {s s' : QuantSt ℝ} {xf : List ℝ} {o : QuantOut ℝ}
    (h : quantRun (Lc3Config.new f d).ne (Lc3Config.new f d).fsInd s xf nbits nbw ntns nltpf = .ok (s', o))
    (hne : ∀ y ∈ xf, y ≠ -(32768 - 3 / 8) * o.gg) {xs : List Int} (hxs : xs = xf.map (quantLine o.gg)) {j : Nat} (hj : o.lastnzTrunc < 2 * j)
    (hnz : xs.getD (2 * j - 2) 0 ≠ 0 ∨ xs.getD (2 * j - 1) 0 ≠ 0) :
    (o.nbitsSpec : ℝ) < symbolInfo o.rateFlag (Lc3Config.new f d).ne (xs.take (2 * j)) + plainBits true (xs.take (2 * j)) +
      savedSigns (xs.take (2 * j)) + symbolCount o.rateFlag (Lc3Config.new f d).ne (xs.take (2 * j)) / 2048 := by
  have := truncation_waste f d (mode := true) hn' (by unfold encModeFlag; exact decide_eq_true (by omega)) h hne hxs hj hnz
  rwa [savedOf_true] at this

/-- the frequencies of the spectral models are at most 1024, hence no symbol has negative information -/
theorem symbolInfo_nonneg (rf ne : Nat) (xs : List Int) : 0 ≤ symbolInfo rf ne xs := by
  unfold symbolInfo
  apply List.sum_nonneg
  intro v hv
  obtain ⟨e, -, rfl⟩ := List.mem_map.1 hv
  generalize AC_SPEC_LOOKUP.getD e.1 0 = i
  have hall : AC_SPEC_FREQ.all (fun row => row.all fun v => decide (v ≤ 1024)) = true := by decide +kernel
  have hf : (AC_SPEC_FREQ.getD i []).getD e.2 0 ≤ 1024 := by
    by_cases hi : i < AC_SPEC_FREQ.length
    · rw [List.getD_eq_getElem _ _ hi]
      by_cases hj : e.2 < (AC_SPEC_FREQ[i]).length
      · rw [List.getD_eq_getElem _ _ hj]
        have := List.all_eq_true.1 hall _ (List.getElem_mem hi)
        simpa using List.all_eq_true.1 this _ (List.getElem_mem hj)
      · rw [List.getD_eq_default _ _ (by omega)]; omega
    · rw [List.getD_eq_default AC_SPEC_FREQ _ (by omega)]; simp
  generalize (AC_SPEC_FREQ.getD i []).getD e.2 0 = v at hf
  unfold idealBits
  rcases Nat.eq_zero_or_pos v with rfl | h0
  · simp
  · apply Real.logb_nonneg (by norm_num)
    have h1 : (0 : ℝ) < v := by exact_mod_cast h0
    have h2 : (v : ℝ) ≤ 1024 := by exact_mod_cast hf
    rw [le_div_iff₀ h1]; linarith

theorem maxAbs_million : maxAbs (List.replicate 80 (1000000 : ℝ)) = 1000000 := by
  rw [maxAbs_real]
  have : ∀ n (m : ℝ), 0 ≤ m → m ≤ 1000000 → (List.replicate (n + 1) (1000000 : ℝ)).foldl (fun m x => max m |x|) m = 1000000 := by
    intro n
    induction n with
    | zero => intro m _ h; simpa using h
    | succ n ih =>
      intro m _ h
      rw [List.replicate_succ, List.foldl_cons]
      exact ih _ (by positivity) (by simpa using h)
  exact this 79 0 (le_refl _) (by norm_num)

theorem step_million {nbits : Nat} (h : 58 ≤ nbits) (h' : nbits ≤ 480) : 10 ^ (3 : ℕ) ≤ stepOf nbits 0 255 ∧ stepOf nbits 0 255 ≤ 10 ^ (5 : ℕ) := by
  unfold stepOf
  have h1 : (-158 : ℝ) ≤ gainOffset nbits 0 := by
    have : -158 ≤ gainOffset nbits 0 := by unfold gainOffset; omega
    exact_mod_cast this
  have h2 : (gainOffset nbits 0 : ℝ) ≤ -115 := by
    have : gainOffset nbits 0 ≤ -115 := by unfold gainOffset; omega
    exact_mod_cast this
  constructor
  · rw [← Real.rpow_natCast]
    apply Real.rpow_le_rpow_of_exponent_le (by norm_num)
    push_cast
    linarith
  · rw [← Real.rpow_natCast]
    apply Real.rpow_le_rpow_of_exponent_le (by norm_num)
    push_cast
    linarith

theorem ggMin_million {off : Int} (h : off ≤ 0) (h' : -200 ≤ off) : 0 ≤ ggMinOf (List.replicate 80 (1000000 : ℝ)) off := by
  unfold ggMinOf
  split
  · rw [maxAbs_million]
    obtain ⟨y, hy⟩ : ∃ y, y = 28 * Real.logb 10 (1000000 / (32768 - 3 / 8)) := ⟨_, rfl⟩
    have he : (ceilS ((ofRat 28 : ℝ) * log10 (1000000 / (ofRat 32768 - ofRat (3 / 8))))) = ((⌈y⌉ : ℤ) : ℝ) := by
      show ((⌈((28 : ℚ) : ℝ) * Real.logb 10 (1000000 / (((32768 : ℚ) : ℝ) - ((3 / 8 : ℚ) : ℝ)))⌉ : ℤ) : ℝ) = _
      rw [hy]
      norm_num
    rw [he]
    have ht : (toI32 (((⌈y⌉ : ℤ) : ℝ)) : ℤ) = max (-2147483648) (min 2147483647 ⌈y⌉) := by
      show realToI32 _ = _
      unfold realToI32
      simp
    unfold toI16
    rw [ht]
    have hy0 : 0 ≤ y := by
      rw [hy]
      have := Real.logb_nonneg (b := 10) (x := 1000000 / (32768 - 3 / 8)) (by norm_num) (by norm_num)
      linarith
    have c1 : 0 ≤ ⌈y⌉ := Int.ceil_nonneg hy0
    omega
  · omega

/-- 80 lines of magnitude one million and a budget of zero bits: the run returns and drops a pair that is not zero -/
theorem million_dropped {nbits ntns : Nat} (hs : nbits = ntns + 58) (h480 : nbits ≤ 480) :
    ∃ (s' : QuantSt ℝ) (o : QuantOut ℝ), quantRun (Lc3Config.new .hz8000 .tenMs).ne (Lc3Config.new .hz8000 .tenMs).fsInd QuantSt.new
        (List.replicate 80 (1000000 : ℝ)) nbits 0 ntns 0 = .ok (s', o) ∧
      (∀ y ∈ List.replicate 80 (1000000 : ℝ), y ≠ -(32768 - 3 / 8) * o.gg) ∧ o.lastnzTrunc < 2 * 40 ∧
      ((List.replicate 80 (1000000 : ℝ)).map (quantLine o.gg)).getD (2 * 40 - 2) 0 ≠ 0 := by
  obtain ⟨hs1, hs2⟩ := step_million (nbits := nbits) (by omega) h480
  have hfix : nbitsFixed (Lc3Config.new .hz8000 .tenMs).ne nbits = 58 := by
    unfold nbitsFixed
    rw [if_pos (by omega)]
    rfl
  have hm := ggMinOf_le (xf := List.replicate 80 (1000000 : ℝ)) (nbits := nbits) (fsInd := 0) (by omega) (by norm_num) (by
    intro x hx
    rw [List.eq_of_mem_replicate hx]
    unfold maxLine
    rw [abs_of_nonneg (by norm_num)]
    nlinarith)
  have hoff : ggOffEnc nbits 0 = gainOffset nbits 0 := ggOffEnc_spec (by omega)
  have hm0 := ggMin_million (off := ggOffEnc nbits 0) (by rw [hoff]; unfold gainOffset; omega) (by rw [hoff]; unfold gainOffset; omega)
  obtain ⟨s', o, h⟩ := C44 (α := ℝ) .hz8000 .tenMs (fsInd := 0) (nbits := nbits) (nbw := 0) (ntns := ntns) (nltpf := 0) (s := QuantSt.new)
    (xf := List.replicate 80 (1000000 : ℝ)) (by norm_num) (by rw [List.length_replicate]; rfl) (by rw [hfix]; omega) (by omega) (by omega)
  refine ⟨s', o, h, ?_⟩
  obtain ⟨g0, g1⟩ := ggInd_real h hm
  obtain ⟨p1, p2⟩ := C43 (by omega) h
  have hne : ∀ y ∈ List.replicate 80 (1000000 : ℝ), y ≠ -(32768 - 3 / 8) * o.gg := by
    intro y hy hc
    rw [List.eq_of_mem_replicate hy] at hc
    nlinarith
  have h52 := C52 .hz8000 .tenMs (by omega) h hne
  obtain ⟨hl, hb, _, _, _, _, _, q, -, -, -, -, hq, ho⟩ := quantRun_inv h
  have hspec : o.nbitsSpec = 0 := by omega
  unfold quantSpectrum at hq
  obtain ⟨bc, -, hq⟩ := Res.bind_eq_ok.1 hq
  split at hq
  case isFalse => cases hq
  rename_i hbc
  simp only [Res.ok.injEq] at hq
  have hgg : o.gg = ggValue o.ggInd (ggOffEnc nbits 0) := by rw [ho, ← hq]
  have hxq : o.xq = ((List.replicate 80 (1000000 : ℝ)).map (quantLine o.gg)).take bc.lastnzTrunc ++ List.replicate (bc.lastnz - bc.lastnzTrunc) 0 ++
      ((List.replicate 80 (1000000 : ℝ)).map (quantLine o.gg)).drop bc.lastnz := by
    rw [hgg, ho, ← hq]
  have htr : o.lastnzTrunc = bc.lastnzTrunc := by rw [ho, ← hq]
  have hle : o.gg ≤ 10 ^ (5 : ℕ) := by
    refine le_trans ?_ hs2
    rw [hgg, hoff]
    unfold stepOf ggValue
    show (10 : ℝ) ^ _ ≤ _
    apply Real.rpow_le_rpow_of_exponent_le (by norm_num)
    show ((((o.ggInd : ℤ) : ℚ) : ℝ) + (((gainOffset nbits 0 : ℤ) : ℚ) : ℝ)) / ((28 : ℚ) : ℝ) ≤ _
    have : (o.ggInd : ℝ) ≤ 255 := by exact_mod_cast g1
    push_cast
    linarith
  obtain ⟨hv0, -, hv⟩ := (quantLine_real p1 (p2 1000000 (by simp))).1 (by norm_num)
  have hpos : 2 ≤ quantLine o.gg (1000000 : ℝ) := by
    have h10 : (10 : ℝ) ≤ 1000000 / o.gg := by
      rw [le_div_iff₀ p1]
      norm_num at hle
      linarith
    have : (2 : ℝ) ≤ (quantLine o.gg (1000000 : ℝ) : ℝ) := by linarith
    exact_mod_cast this
  rw [List.map_replicate] at hxq ⊢
  generalize quantLine o.gg (1000000 : ℝ) = v at hpos hxq ⊢
  refine ⟨hne, ?_, ?_⟩
  · by_contra hc
    have h80 : 80 ≤ bc.lastnzTrunc := by omega
    have hlen : (List.replicate 80 v).length = 80 := List.length_replicate
    rw [List.take_of_length_le (by omega), List.drop_of_length_le (by omega), List.append_nil] at hxq
    rcases h52 with h52 | h52
    · omega
    · have htk : o.xq.take o.lastnzTrunc = v :: v :: (List.replicate 78 v) := by
        have h78 : bc.lastnz - bc.lastnzTrunc = 0 := by
          have := hbc.2
          rw [List.length_map, List.length_replicate] at this
          omega
        rw [hxq, h78, List.replicate_zero, List.append_nil, List.take_of_length_le (by omega)]
        rfl
      rw [htk, hspec] at h52
      have h1 := symbolInfo_nonneg o.rateFlag (Lc3Config.new .hz8000 .tenMs).ne (v :: v :: List.replicate 78 v)
      have h2 : plainBits o.lsbMode (v :: v :: List.replicate 78 v) ≤ 0 := by
        have : (plainBits o.lsbMode (v :: v :: List.replicate 78 v) : ℝ) ≤ 0 := by
          simp only [Nat.cast_zero] at h52
          linarith
        exact_mod_cast this
      have h3 : 1 ≤ plainPair o.lsbMode v v := by
        unfold plainPair
        simp only
        rw [if_neg (by omega : ¬ (v = 0 ∨ o.lsbMode = true ∧ 0 < Context.escapes v.natAbs v.natAbs ∧ v.natAbs = 1))]
        omega
      unfold plainBits at h2
      omega
  · rw [List.getD_eq_getElem _ _ (by simp)]
    simp only [List.getElem_replicate]
    omega

/-- C125 is not vacuous: a frame of 58 bits -/
example : ∃ (s' : QuantSt ℝ) (o : QuantOut ℝ), quantRun (Lc3Config.new .hz8000 .tenMs).ne (Lc3Config.new .hz8000 .tenMs).fsInd QuantSt.new
      (List.replicate 80 (1000000 : ℝ)) 58 0 0 0 = .ok (s', o) ∧
    (∀ y ∈ List.replicate 80 (1000000 : ℝ), y ≠ -(32768 - 3 / 8) * o.gg) ∧ o.lastnzTrunc < 2 * 40 ∧
    ((List.replicate 80 (1000000 : ℝ)).map (quantLine o.gg)).getD (2 * 40 - 2) 0 ≠ 0 := million_dropped (by norm_num) (by norm_num)

/-- C125_lsb is not vacuous: a frame of 480 bits of which 422 are used for temporal noise shaping -/
example : ∃ (s' : QuantSt ℝ) (o : QuantOut ℝ), quantRun (Lc3Config.new .hz8000 .tenMs).ne (Lc3Config.new .hz8000 .tenMs).fsInd QuantSt.new
      (List.replicate 80 (1000000 : ℝ)) 480 0 422 0 = .ok (s', o) ∧
    (∀ y ∈ List.replicate 80 (1000000 : ℝ), y ≠ -(32768 - 3 / 8) * o.gg) ∧ o.lastnzTrunc < 2 * 40 ∧
    ((List.replicate 80 (1000000 : ℝ)).map (quantLine o.gg)).getD (2 * 40 - 2) 0 ≠ 0 := million_dropped (by norm_num) (by norm_num)

end Lc3
