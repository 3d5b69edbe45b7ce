import Verif.Lemmas.RangeFinish
/-! `ac_enc_finish` as a whole. -/

namespace Lc3

theorem beVal_take_add {l : List Nat} (hb : Bytes l) {n k : Nat} (h : n + k ≤ l.length) :
    beVal (l.take n) * 256 ^ k ≤ beVal (l.take (n + k)) ∧
    beVal (l.take (n + k)) < (beVal (l.take n) + 1) * 256 ^ k := by
  induction k with
  | zero => simp
  | succ k ih =>
    obtain ⟨h1, h2⟩ := ih (by omega)
    have hlt : n + k < l.length := by omega
    have e : n + (k + 1) = n + k + 1 := by omega
    rw [e, beVal_take_succ hlt, pow_succ]
    have hx := hb.getElem (n + k) hlt
    constructor
    · rw [← mul_assoc]; nlinarith
    · rw [← mul_assoc]; nlinarith

theorem beVal_take_div {l : List Nat} (hb : Bytes l) {n k : Nat} (h : n + k ≤ l.length) :
    beVal (l.take (n + k)) / 256 ^ k = beVal (l.take n) := by
  obtain ⟨h1, h2⟩ := beVal_take_add hb h
  have hp : 0 < 256 ^ k := by positivity
  apply le_antisymm
  · have := Nat.div_lt_of_lt_mul (m := beVal (l.take (n + k))) (n := 256 ^ k) (k := beVal (l.take n) + 1)
      (by rw [Nat.mul_comm]; exact h2)
    omega
  · exact (Nat.le_div_iff_mul_le hp).2 h1

theorem getD_eq_zero_of_bits {buf : List Nat} {N i : Nat} (hl : buf.length = N) (hb : Bytes buf)
    (hi : i < N) (h : ∀ m, m < 8 → tailBit buf (8 * (N - 1 - i) + m) = false) :
    buf.getD i 0 = 0 := by
  apply Nat.eq_of_testBit_eq
  intro m
  rw [Nat.zero_testBit]
  by_cases hm : m < 8
  · have := h m hm
    rw [tailBit_eq hl] at this
    have e1 : N - 1 - (8 * (N - 1 - i) + m) / 8 = i := by omega
    have e2 : (8 * (N - 1 - i) + m) % 8 = m := by omega
    rw [e1, e2] at this
    exact this
  · have h1 : buf.getD i 0 < 2 ^ 8 := hb.getD _
    exact Nat.testBit_lt_two_pow (lt_of_lt_of_le h1 (Nat.pow_le_pow_right (by omega) (by omega)))

theorem getD_mod_eq_zero_of_bits {buf : List Nat} {N i d : Nat} (hl : buf.length = N)
    (hi : i < N) (hd : d ≤ 8) (h : ∀ m, m < d → tailBit buf (8 * (N - 1 - i) + m) = false) :
    buf.getD i 0 % 2 ^ d = 0 := by
  apply Nat.eq_of_testBit_eq
  intro m
  rw [Nat.zero_testBit, Nat.testBit_mod_two_pow]
  by_cases hm : m < d
  · have := h m hm
    rw [tailBit_eq hl] at this
    have e1 : N - 1 - (8 * (N - 1 - i) + m) / 8 = i := by omega
    have e2 : (8 * (N - 1 - i) + m) % 8 = m := by omega
    rw [e1, e2] at this
    rw [this, Bool.and_false]
  · simp [hm]

theorem finishShift_done (fuel : Nat) (bits : Int) (s : EncSt) (h : bits ≤ 0) :
    finishShift fuel bits s = .ok (bits, s) := by
  unfold finishShift; rw [if_neg (by omega)]

theorem finishShift_step (fuel : Nat) (bits : Int) (s : EncSt) (h : 0 < bits) :
    finishShift (fuel + 1) bits s = (acShift s >>= fun s => finishShift fuel (bits - 8) s) := by
  rw [finishShift.eq_def]; simp [h]

/-- two frames of length `N` have the same first `K` bits -/
def SameHead (N K : Nat) (buf buf' : List Nat) : Prop :=
  ∀ j, 8 * N ≤ j + K → j < 8 * N → tailBit buf' j = tailBit buf j

theorem SameHead.refl (N K : Nat) (buf : List Nat) : SameHead N K buf buf := fun _ _ _ => rfl

theorem SameHead.mono {N K K' : Nat} {buf buf' : List Nat} (h : SameHead N K buf buf') (hK : K' ≤ K) :
    SameHead N K' buf buf' := fun j h1 h2 => h j (by omega) h2

theorem SameHead.byte {N K i n : Nat} {buf buf' : List Nat} (h : SameHead N K buf buf')
    (hl : buf.length = N) (hl' : buf'.length = N) (hb : Bytes buf) (hb' : Bytes buf') (hn : n ≤ 8)
    (hi : i < N) (hK : 8 * i + n ≤ K) :
    buf'.getD i 0 / 2 ^ (8 - n) = buf.getD i 0 / 2 ^ (8 - n) := by
  apply Nat.eq_of_testBit_eq
  intro m
  rw [Nat.testBit_div_two_pow, Nat.testBit_div_two_pow]
  by_cases hm : m + (8 - n) < 8
  · have := h (8 * (N - 1 - i) + (m + (8 - n))) (by omega) (by omega)
    rw [tailBit_eq hl, tailBit_eq hl'] at this
    have e1 : N - 1 - (8 * (N - 1 - i) + (m + (8 - n))) / 8 = i := by omega
    have e2 : (8 * (N - 1 - i) + (m + (8 - n))) % 8 = m + (8 - n) := by omega
    rw [e1, e2] at this
    exact this
  · have h1 : buf.getD i 0 < 2 ^ 8 := hb.getD _
    have h2 : buf'.getD i 0 < 2 ^ 8 := hb'.getD _
    have hp : (2 : Nat) ^ 8 ≤ 2 ^ (m + (8 - n)) := Nat.pow_le_pow_right (by omega) (by omega)
    rw [Nat.testBit_lt_two_pow (lt_of_lt_of_le h1 hp), Nat.testBit_lt_two_pow (lt_of_lt_of_le h2 hp)]

theorem SameHead.take {N K m : Nat} {buf buf' : List Nat} (h : SameHead N K buf buf')
    (hl : buf.length = N) (hl' : buf'.length = N) (hb : Bytes buf) (hb' : Bytes buf')
    (hm : m ≤ N) (hK : 8 * m ≤ K) : buf'.take m = buf.take m := by
  apply List.ext_getElem (by simp [hl, hl'])
  intro i h1 h2
  simp only [List.length_take] at h1 h2
  have := h.byte (i := i) (n := 8) hl hl' hb hb' (le_refl _) (by omega) (by omega)
  simp only [List.getElem_take]
  rw [List.getD_eq_getElem _ _ (by omega), List.getD_eq_getElem _ _ (by omega)] at this
  simpa using this

/-- what the caller of `acEncFinish` gets; `K` is the number of bits reserved at the head -/
structure FinishPost (N K : Nat) (tl : List Bool) (a : Abs) (over : Bool) (buf : List Nat) : Prop where
  len : buf.length = N
  bytes : Bytes buf
  tail : ∀ j, (hj : j < tl.length) → tailBit buf j = tl[j]
  any : ∀ buf', buf'.length = N → Bytes buf' → SameHead N K buf buf' →
    a.L ≤ beVal (buf'.take (a.S + 3)) ∧ (over = false → beVal (buf'.take (a.S + 3)) < a.L + a.R)
  hiGap : 8 * (a.S + 3) + tl.length ≤ 8 * N → beVal (buf.take (a.S + 3)) < a.L + a.R

/-- top-`n`-bits write: final value up to the unwritten bits -/
theorem partial_byte_bound {buf : List Nat} {N : Nat} {w : List Nat} {c n k : Nat} (hl : buf.length = N)
    (hb : Bytes buf) (hw : buf.take w.length = w)
    (hlen : w.length + 1 + k ≤ N)
    (hc : (buf.getD w.length 0) / 2 ^ (8 - n) = c / 2 ^ (8 - n)) (hc0 : c % 2 ^ (8 - n) = 0) :
    (beVal w * 256 + c) * 256 ^ k ≤ beVal (buf.take (w.length + 1 + k)) ∧
    beVal (buf.take (w.length + 1 + k)) < (beVal w * 256 + c + 2 ^ (8 - n)) * 256 ^ k := by
  obtain ⟨h1, h2⟩ := beVal_take_add hb (n := w.length + 1) (k := k) (by omega)
  have hlt : w.length < buf.length := by omega
  rw [beVal_take_succ hlt, hw] at h1 h2
  rw [List.getD_eq_getElem _ _ hlt] at hc
  have hp : 0 < 2 ^ (8 - n) := by positivity
  have d1 := Nat.div_add_mod buf[w.length] (2 ^ (8 - n))
  have d2 := Nat.div_add_mod c (2 ^ (8 - n))
  have d3 := Nat.mod_lt buf[w.length] hp
  rw [hc] at d1
  rw [hc0] at d2
  constructor
  · refine le_trans (Nat.mul_le_mul_right _ ?_) h1
    omega
  · refine lt_of_lt_of_le h2 (Nat.mul_le_mul_right _ ?_)
    omega

theorem acEncFinish_spec {N : Nat} {s : EncSt} {hd : List Nat} {tl : List Bool} {a : Abs}
    (hf : FrameInv N s hd tl) (hc : CInv s.ac hd a)
    (hfit : nbitsAriForecast s + tl.length ≤ 8 * N) (hroom : a.S + 3 ≤ N) :
    ∃ s', acEncFinish s = .ok s' ∧ FinishPost N (nbitsAriForecast s) tl a (finishOver s.ac) s'.buf := by
  obtain ⟨L, R, S⟩ := a
  have hrc := hc.rc
  have hlo := hc.lo
  have hhi := hc.hi
  have hsum := hc.sum
  have hrange := hc.range
  simp only at hrc hlo hhi hsum hrange hroom
  obtain ⟨b, eb, hb1, hb8, hR1, hR2, hlog⟩ := finishBits_spec hlo hhi
  obtain ⟨bits, low, carry, ev, hbits, hlowlt, hlowmod, hcarry, hge, hltR, hin, hov⟩ :=
    finishValue_spec (ac := s.ac) hb1 hb8 (by rw [hrange]; exact hR1) (by rw [hrange]; exact hR2) hrc.low
      hrc.carry (by rw [hrange]; exact hsum)
  rw [hrange] at hltR hin
  have hfore : 8 * S + (25 - (24 - b)) + tl.length + (if s.ac.cache < 0 then 8 else 0) ≤ 8 * N := by
    have hS := hrc.hS
    unfold nbitsAriForecast at hfit
    rw [hf.bp, hrange, hlog] at hfit
    unfold pending at hS
    by_cases hneg : s.ac.cache < 0
    · simp [hneg] at hS ⊢; omega
    · simp [hneg] at hS ⊢; omega
  have hK : 8 * S + (25 - (24 - b)) + (if s.ac.cache < 0 then 8 else 0) ≤ nbitsAriForecast s := by
    have hS := hrc.hS
    unfold nbitsAriForecast
    rw [hf.bp, hrange, hlog]
    unfold pending at hS
    by_cases hneg : s.ac.cache < 0
    · simp [hneg] at hS ⊢; omega
    · simp [hneg] at hS ⊢; omega
  have hK1 : 8 * S + b + 1 ≤ nbitsAriForecast s := by omega
  have hover : finishOver s.ac = decide (2 ^ 24 ≤ s.ac.low + (2 ^ (24 - b) - 1)) := by
    unfold finishOver; rw [hrange, hlog]
  -- the chosen final number
  obtain ⟨ac0, hac0⟩ : ∃ x : AcEnc, x = { s.ac with low := low, carry := carry } := ⟨_, rfl⟩
  have hpend0 : pending ac0 = pending s.ac := by rw [hac0]; rfl
  have hLs : L = (beVal (hd ++ pending s.ac) + s.ac.carry) * 2 ^ 24 + s.ac.low := hrc.hL
  obtain ⟨Ls, hLsdef⟩ : ∃ x, x = (beVal (hd ++ pending s.ac) + carry) * 2 ^ 24 + low := ⟨_, rfl⟩
  have hLle : L ≤ Ls := by rw [hLs, hLsdef, Nat.add_mul, Nat.add_mul]; linarith
  have hLlt : Ls < L + R := by rw [hLs, hLsdef, Nat.add_mul, Nat.add_mul]; linarith
  have hMpos : 0 < 2 ^ (24 - bits) := by positivity
  have hMle : 2 ^ (24 - bits) ≤ 2 ^ 23 := Nat.pow_le_pow_right (by omega) (by omega)
  have hMd : 2 ^ (24 - bits) ∣ 2 ^ 24 := pow_dvd_pow 2 (by omega)
  have hLin : s.ac.low + (2 ^ (24 - b) - 1) < 2 ^ 24 → Ls + 2 ^ (24 - bits) ≤ L + R := by
    intro h
    have := hin h
    rw [hLs, hLsdef, Nat.add_mul, Nat.add_mul]; linarith
  have hnoc : Ls + 2 ^ (24 - bits) ≤ (beVal hd + 1) * 256 ^ (pending s.ac).length * 2 ^ 24 := by
    by_cases ho : s.ac.low + (2 ^ (24 - b) - 1) < 2 ^ 24
    · exact le_trans (hLin ho) hrc.nocarry
    · obtain ⟨h0, -⟩ := hov (by omega)
      have h1 := lt_of_lt_of_le hLlt hrc.nocarry
      rw [hLsdef, h0] at h1 ⊢
      rw [Nat.add_zero] at h1 ⊢
      have h2 := lt_of_mul_lt_mul_right h1 (Nat.zero_le _)
      have h3 := Nat.mul_le_mul_right (2 ^ 24) (Nat.succ_le_of_lt h2)
      rw [Nat.succ_mul] at h3
      have h4 : 2 ^ 23 ≤ 2 ^ 24 := by norm_num
      exact le_trans (Nat.add_le_add_left (le_trans hMle h4) _) h3
  have hrc0 : RC ac0 hd Ls (2 ^ (24 - bits)) S := by
    refine ⟨by rw [hpend0]; exact hrc.hS, ?_, ?_, ?_, ?_, ?_, hrc.bytes, hMpos, by rw [hpend0]; exact hnoc⟩
    · rw [hpend0, hLsdef, hac0]
    · rw [hac0]; exact hlowlt
    · rw [hac0]; exact hcarry
    · rw [hac0]; exact hrc.cacheLo
    · rw [hac0]; exact hrc.cacheHi
  have hlowM : low + 2 ^ (24 - bits) ≤ 2 ^ 24 := by
    obtain ⟨c, hc⟩ := hMd
    obtain ⟨d, hd'⟩ := Nat.dvd_of_mod_eq_zero hlowmod
    have : d < c := by
      by_contra hcon
      have := Nat.mul_le_mul_left (2 ^ (24 - bits)) (Nat.not_lt.1 hcon)
      omega
    have := Nat.mul_le_mul_left (2 ^ (24 - bits)) this
    rw [Nat.mul_succ] at this
    omega
  have hf0 : FrameInv N { s with ac := ac0 } hd tl := hf.congr_ac ac0
  have hlow0 : ac0.low = low := by rw [hac0]
  obtain ⟨s1, hd1, e1, f1, r1, -, c1, l1, alt1⟩ := acShift_spec hf0 hrc0
    (by intro _; show ac0.low + _ ≤ _; rw [hlow0]; exact hlowM) (by omega)
  have hstart : acEncFinish s = (finishShift 4 (bits : Int) { s with ac := ac0 } >>= fun p =>
      let bits := p.1 + 8
      if bits < 0 then .panic
      else if p.2.ac.carryCount > 0 then do
        let s ← p.2.byte (p.2.ac.cache % 256).toNat
        let s ← finishCarries s (s.ac.carryCount - 1)
        s.uintFwd (0xff >>> (8 - bits.toNat)) bits.toNat
      else p.2.uintFwd (p.2.ac.cache % 65536).toNat bits.toNat) := by
    unfold acEncFinish
    rw [hrange, eb]
    simp only [Res.bind_ok, ev, ← hac0]
  by_cases hb9 : bits = 9
  · -- nine bits: two shifts, the second one always flushes
    have hnov : s.ac.low + (2 ^ (24 - b) - 1) < 2 ^ 24 := by
      by_contra hcon
      have := (hov (by omega)).2
      omega
    subst hb9
    have hl1lt : s1.ac.low = low % 65536 * 256 := by rw [l1, ← hlow0]
    have hdv : low % 2 ^ 15 = 0 := hlowmod
    have hl1 : s1.ac.low = 0 ∨ s1.ac.low = 2 ^ 23 := by rw [hl1lt]; omega
    have hM2 : 256 * 2 ^ (24 - 9) = 2 ^ 23 := by norm_num
    rw [hM2] at r1
    obtain ⟨s2, hd2, e2, f2, r2, -, c2, l2, alt2⟩ := acShift_spec f1 r1
      (by intro _; rcases hl1 with h | h <;> rw [h] <;> norm_num) (by omega)
    rcases alt2 with ⟨k1, k2, k3, k4⟩ | ⟨k1, -⟩
    swap
    · exfalso; rcases hl1 with h | h <;> rw [h] at k1 <;> norm_num at k1
    have hcache : s2.ac.cache = 0 ∨ s2.ac.cache = 128 := by
      rw [k4]; rcases hl1 with h | h <;> rw [h] <;> norm_num
    have hcn : (s2.ac.cache % 65536).toNat = s2.ac.cache.toNat := by
      rcases hcache with h | h <;> rw [h] <;> rfl
    obtain ⟨s3, e3, q1, q2, q3, q4, q5, -⟩ := EncSt.uintFwd_spec f2 (v := s2.ac.cache.toNat) (n := 1)
      (by omega) (by omega) (by omega) (by rw [k3]; omega)
    refine ⟨s3, ?_, ?_⟩
    · rw [hstart, finishShift_step _ _ _ (by norm_num), e1, Res.bind_ok,
        finishShift_step _ _ _ (by norm_num), e2, Res.bind_ok, finishShift_done _ _ _ (by norm_num)]
      simp only [Res.bind_ok, k1]
      rw [if_neg (by norm_num), if_neg (by omega), hcn]
      exact e3
    · have hL2 := r2.hL
      have hl20 : s2.ac.low = 0 := by
        rw [l2]; rcases hl1 with h | h <;> rw [h]
        norm_num
      have hp2 : pending s2.ac = [s2.ac.cache.toNat] := by
        unfold pending; rw [k1, if_neg (by omega)]; rfl
      rw [hp2, c2, hl20, beVal_concat] at hL2
      have hin' := hLin hnov
      have hany : ∀ buf', buf'.length = N → Bytes buf' → SameHead N (nbitsAriForecast s) s3.buf buf' →
          L ≤ beVal (buf'.take (S + 3)) ∧ beVal (buf'.take (S + 3)) < L + R := by
        intro buf' w1 w2 w3
        have q3' := (w3.take (m := hd2.length) q1 w1 q2 w2 (by omega) (by omega)).trans q3
        have q5' := (w3.byte (i := hd2.length) (n := 1) q1 w1 q2 w2 (by omega) (by omega) (by omega)).trans q5
        have hpb := partial_byte_bound (k := 1) w1 w2 q3' (by rw [k3]; omega) q5'
          (by rcases hcache with h | h <;> rw [h] <;> rfl)
        have hlen : hd2.length + 1 + 1 = S + 3 := by omega
        rw [hlen] at hpb
        obtain ⟨p1, p2⟩ := hpb
        have : (2 : Nat) ^ (24 - 9) = 2 ^ (8 - 1) * 256 ^ 1 := by norm_num
        constructor <;> omega
      refine ⟨q1, q2, q4, fun buf' w1 w2 w3 => ⟨(hany buf' w1 w2 w3).1, fun _ => (hany buf' w1 w2 w3).2⟩,
        fun _ => (hany _ q1 q2 (SameHead.refl _ _ _)).2⟩
  · have hb8' : bits ≤ 8 := by omega
    have hM16 : 2 ^ 16 ∣ 2 ^ (24 - bits) := pow_dvd_pow 2 (by omega)
    have hlow16 : low % 65536 = 0 := by
      have := dvd_trans hM16 (Nat.dvd_of_mod_eq_zero hlowmod)
      exact Nat.mod_eq_zero_of_dvd this
    have hl10 : s1.ac.low = 0 := by rw [l1]; show ac0.low % 65536 * 256 = 0; rw [hlow0, hlow16]
    have hMM : 2 ^ (24 - bits) = 2 ^ (8 - bits) * 65536 := by
      have : 24 - bits = (8 - bits) + 16 := by omega
      rw [this, pow_add]; norm_num
    have hbpos : 1 ≤ bits := by omega
    rcases alt1 with ⟨k1, k2, k3, k4⟩ | ⟨k1, k2, k3, k4⟩
    · -- flushed: the last byte is the cache
      have k4' : s1.ac.cache = ((low / 65536 : Nat) : Int) := by rw [k4]; show ((ac0.low / 65536 : Nat) : Int) = _; rw [hlow0]
      have hclt : low / 65536 < 256 := by omega
      have hcn : (s1.ac.cache % 65536).toNat = low / 65536 := by rw [k4']; omega
      obtain ⟨s3, e3, q1, q2, q3, q4, q5, q6⟩ := EncSt.uintFwd_spec f1 (v := low / 65536) (n := bits)
        hclt hbpos hb8' (by rw [k3]; omega)
      have hc0 : low / 65536 % 2 ^ (8 - bits) = 0 := by
        obtain ⟨d, hd'⟩ := Nat.dvd_of_mod_eq_zero hlowmod
        rw [hd', hMM]
        have : 2 ^ (8 - bits) * 65536 * d / 65536 = 2 ^ (8 - bits) * d := by
          rw [Nat.mul_right_comm, Nat.mul_div_cancel _ (by omega)]
        rw [this]; exact Nat.mul_mod_right _ _
      refine ⟨s3, ?_, ?_⟩
      · rw [hstart, finishShift_step _ _ _ (by omega), e1, Res.bind_ok, finishShift_done _ _ _ (by omega)]
        simp only [Res.bind_ok, k1]
        have hbt : ((bits : Int) - 8 + 8) = (bits : Int) := by omega
        rw [hbt, if_neg (by omega), if_neg (by omega), hcn]
        exact e3
      · have hL1 := r1.hL
        have hp1 : pending s1.ac = [low / 65536] := by
          unfold pending; rw [k1, if_neg (by omega), k4']; rfl
        rw [hp1, c1, hl10, beVal_concat] at hL1
        have hany : ∀ buf', buf'.length = N → Bytes buf' → SameHead N (nbitsAriForecast s) s3.buf buf' →
            L ≤ beVal (buf'.take (S + 3)) ∧ (s.ac.low + (2 ^ (24 - b) - 1) < 2 ^ 24 →
              beVal (buf'.take (S + 3)) < L + R) := by
          intro buf' w1 w2 w3
          have q3' := (w3.take (m := hd1.length) q1 w1 q2 w2 (by omega) (by omega)).trans q3
          have q5' := (w3.byte (i := hd1.length) (n := bits) q1 w1 q2 w2 (by omega) (by omega)
            (by omega)).trans q5
          have hpb := partial_byte_bound (k := 2) w1 w2 q3' (by rw [k3]; omega) q5' hc0
          have hlen : hd1.length + 1 + 2 = S + 3 := by omega
          rw [hlen] at hpb
          obtain ⟨p1, p2⟩ := hpb
          refine ⟨by omega, ?_⟩
          intro hnov
          have := hLin hnov
          rw [Nat.add_mul] at p2
          omega
        refine ⟨q1, q2, q4, ?_, ?_⟩
        · intro buf' w1 w2 w3
          refine ⟨(hany buf' w1 w2 w3).1, fun h => (hany buf' w1 w2 w3).2 ?_⟩
          rw [hover] at h; simp at h; omega
        · intro hroom2
          show beVal (s3.buf.take (S + 3)) < L + R
          have hroom2 : 8 * (S + 3) + tl.length ≤ 8 * N := hroom2
          by_cases hnov : s.ac.low + (2 ^ (24 - b) - 1) < 2 ^ 24
          · exact (hany _ q1 q2 (SameHead.refl _ _ _)).2 hnov
          · -- all bits behind the written ones are zero
            have z0 := getD_mod_eq_zero_of_bits (i := S) (d := 8 - bits) q1 (by omega) (by omega)
              (by intro m hm; exact q6 _ (by omega) (by omega))
            have z1 := getD_eq_zero_of_bits (i := S + 1) q1 q2 (by omega)
              (by intro m hm; exact q6 _ (by omega) (by omega))
            have z2 := getD_eq_zero_of_bits (i := S + 2) q1 q2 (by omega)
              (by intro m hm; exact q6 _ (by omega) (by omega))
            have g0 : S < s3.buf.length := by omega
            have g1 : S + 1 < s3.buf.length := by omega
            have g2 : S + 2 < s3.buf.length := by omega
            rw [k3] at q5 q3
            have hval : beVal (s3.buf.take (S + 3)) = Ls := by
              have y2 : beVal (s3.buf.take (S + 3)) = beVal (s3.buf.take (S + 2)) * 256 + s3.buf[S + 2] :=
                beVal_take_succ g2
              have y1 : beVal (s3.buf.take (S + 2)) = beVal (s3.buf.take (S + 1)) * 256 + s3.buf[S + 1] :=
                beVal_take_succ g1
              rw [y2, y1, beVal_take_succ g0, q3]
              rw [List.getD_eq_getElem _ _ g0] at z0 q5
              rw [List.getD_eq_getElem _ _ g1] at z1
              rw [List.getD_eq_getElem _ _ g2] at z2
              rw [z1, z2]
              have d1 := Nat.div_add_mod s3.buf[S] (2 ^ (8 - bits))
              have d2 := Nat.div_add_mod (low / 65536) (2 ^ (8 - bits))
              rw [q5, z0] at d1
              rw [hc0] at d2
              omega
            rw [hval]; exact hLlt
    · -- not flushed: the last byte is 0xff and eight bits are needed
      have k1' : 0x00ff0000 ≤ low := by rw [← hlow0]; exact k1
      have hlowv : low = 255 * 65536 := by omega
      have hb8e : bits = 8 := by
        by_contra hne
        have h17 : 2 ^ 17 ∣ 2 ^ (24 - bits) := pow_dvd_pow 2 (by omega)
        have := dvd_trans h17 (Nat.dvd_of_mod_eq_zero hlowmod)
        rw [hlowv] at this
        omega
      have k2' : s1.ac.carryCount = s.ac.carryCount + 1 := by rw [k2]; show ac0.carryCount + 1 = _; rw [hac0]
      have k3' : s1.ac.cache = s.ac.cache := by rw [k3]; show ac0.cache = _; rw [hac0]
      have hnov : s.ac.low + (2 ^ (24 - b) - 1) < 2 ^ 24 := by
        by_contra hcon
        have := (hov (by omega)).1
        omega
      have hS := hrc.hS
      have hcLo := hrc.cacheLo
      have hcHi := hrc.cacheHi
      have hSlen : S = hd.length + (if s.ac.cache < 0 then 0 else 1) + s.ac.carryCount := by
        rw [hS]; unfold pending; split <;> simp <;> omega
      subst k4
      have hbyte : (s1.ac.cache % 256).toNat < 256 := by omega
      have hfb : 8 * (hd1.length + 1) + tl.length ≤ 8 * N := by
        by_cases hneg : s.ac.cache < 0 <;> simp [hneg] at hSlen hfore <;> omega
      obtain ⟨t1, g1, u1, v1⟩ := EncSt.byte_spec f1 hbyte hfb
      have hcc : t1.ac.carryCount - 1 = s.ac.carryCount := by rw [v1, k2']; omega
      obtain ⟨t2, g2, u2⟩ := finishCarries_spec s.ac.carryCount u1
        (by
          simp only [List.length_append, List.length_singleton]
          by_cases hneg : s.ac.cache < 0 <;> simp [hneg] at hSlen hfore <;> omega)
      obtain ⟨t3, g3, q1, q2, q3, q4, q5, -⟩ := EncSt.uintFwd_spec u2 (v := 255) (n := 8) (by omega) (by omega)
        (by omega)
        (by
          simp only [List.length_append, List.length_singleton, List.length_replicate]
          by_cases hneg : s.ac.cache < 0 <;> simp [hneg] at hSlen hfore <;> omega)
      refine ⟨t3, ?_, ?_⟩
      · rw [hstart, finishShift_step _ _ _ (by omega), e1, Res.bind_ok, finishShift_done _ _ _ (by omega)]
        have hbt : ((bits : Int) - 8 + 8) = 8 := by omega
        simp only [Res.bind_ok, hbt]
        rw [if_neg (by omega), if_pos (by omega), g1, Res.bind_ok, hcc, g2, Res.bind_ok]
        exact g3
      · -- the first S + 1 bytes are the pending digits
        have hL1 := r1.hL
        have hp1 : pending s1.ac = (if s.ac.cache < 0 then [] else [s.ac.cache.toNat]) ++
            List.replicate (s.ac.carryCount + 1) 255 := by
          unfold pending; rw [k2', k3']
        rw [hp1, c1, hl10] at hL1
        have hpre : t3.buf.take (S + 1) = hd1 ++ ((if s.ac.cache < 0 then [] else [s.ac.cache.toNat]) ++
            List.replicate (s.ac.carryCount + 1) 255) := by
          by_cases hneg : s.ac.cache < 0
          · have hm1 : s.ac.cache = -1 := by omega
            simp only [hneg, if_true, List.nil_append]
            simp only [hneg, if_true] at hSlen
            have hfull : hd1 ++ [(s1.ac.cache % 256).toNat] ++ List.replicate s.ac.carryCount 255 =
                hd1 ++ List.replicate (s.ac.carryCount + 1) 255 := by
              rw [k3', hm1, List.append_assoc]; rfl
            rw [hfull] at q3
            have : (hd1 ++ List.replicate (s.ac.carryCount + 1) 255).length = S + 1 := by
              simp; omega
            rw [this] at q3
            exact q3
          · simp only [hneg, if_false]
            simp only [hneg, if_false] at hSlen
            have hcb : (s1.ac.cache % 256).toNat = s.ac.cache.toNat := by rw [k3']; omega
            rw [hcb] at q3 q5
            have hlen2 : (hd1 ++ [s.ac.cache.toNat] ++ List.replicate s.ac.carryCount 255).length = S := by
              simp; omega
            rw [hlen2] at q3 q5
            have hlt : S < t3.buf.length := by omega
            rw [List.take_succ_eq_append_getElem hlt, q3]
            rw [List.getD_eq_getElem _ _ hlt] at q5
            have : t3.buf[S] = 255 := by simpa using q5
            rw [this, List.replicate_succ']
            simp
        have hin' := hLin hnov
        rw [hb8e] at hin'
        have hany : ∀ buf', buf'.length = N → Bytes buf' → SameHead N (nbitsAriForecast s) t3.buf buf' →
            L ≤ beVal (buf'.take (S + 3)) ∧ beVal (buf'.take (S + 3)) < L + R := by
          intro buf' w1 w2 w3
          have hpre' := (w3.take (m := S + 1) q1 w1 q2 w2 (by omega) (by omega)).trans hpre
          have hpb := beVal_take_add w2 (n := S + 1) (k := 2) (by omega)
          rw [show S + 1 + 2 = S + 3 from rfl] at hpb
          rw [hpre'] at hpb
          obtain ⟨p1, p2⟩ := hpb
          rw [Nat.add_mul] at p2
          constructor <;> omega
        exact ⟨q1, q2, q4, fun buf' w1 w2 w3 => ⟨(hany buf' w1 w2 w3).1, fun _ => (hany buf' w1 w2 w3).2⟩,
          fun _ => (hany _ q1 q2 (SameHead.refl _ _ _)).2⟩

end Lc3
