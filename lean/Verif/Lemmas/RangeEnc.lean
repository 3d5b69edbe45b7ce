import Verif.Lemmas.FrameInv
/-! The range encoder refines an abstract interval coder on unbounded naturals. -/

namespace Lc3

/-- Bytes that are decided except for a possible carry. -/
def pending (ac : AcEnc) : List Nat :=
  (if ac.cache < 0 then [] else [ac.cache.toNat]) ++ List.replicate ac.carryCount 255

/-- `ac` together with the flushed bytes `hd` represents the interval `[L, L + R)` at scale
`256 ^ S * 2 ^ 24`. `R` is a parameter: it need not be `ac.range`. -/
structure RC (ac : AcEnc) (hd : List Nat) (L R S : Nat) : Prop where
  hS : S = hd.length + (pending ac).length
  hL : L = (beVal (hd ++ pending ac) + ac.carry) * 2 ^ 24 + ac.low
  low : ac.low < 2 ^ 24
  carry : ac.carry ≤ 1
  cacheLo : -1 ≤ ac.cache
  cacheHi : ac.cache < 256
  bytes : Bytes hd
  pos : 0 < R
  nocarry : L + R ≤ (beVal hd + 1) * 256 ^ (pending ac).length * 2 ^ 24

theorem pending_bytes {ac : AcEnc} (h : ac.cache < 256) : Bytes (pending ac) := by
  intro b hb
  unfold pending at hb
  rcases List.mem_append.1 hb with h1 | h1
  · by_cases hc : ac.cache < 0
    · simp [hc] at h1
    · simp [hc] at h1; omega
  · rw [List.eq_of_mem_replicate h1]; omega

/-- the flushed form of the pending bytes -/
def flushed (ac : AcEnc) : List Nat :=
  (if ac.cache < 0 then [] else [(ac.cache.toNat + ac.carry) % 256]) ++
    List.replicate ac.carryCount ((ac.carry + 255) % 256)

theorem flushed_length (ac : AcEnc) : (flushed ac).length = (pending ac).length := by
  unfold flushed pending; split <;> simp

theorem flushed_bytes (ac : AcEnc) : Bytes (flushed ac) := by
  intro b hb
  unfold flushed at hb
  rcases List.mem_append.1 hb with h1 | h1
  · by_cases hc : ac.cache < 0
    · simp [hc] at h1
    · simp [hc] at h1; omega
  · rw [List.eq_of_mem_replicate h1]; omega

/-- A carry into the pending bytes never overflows them. -/
theorem RC.carry_fits {ac : AcEnc} {hd : List Nat} {L R S : Nat} (h : RC ac hd L R S) :
    beVal (pending ac) + ac.carry < 256 ^ (pending ac).length := by
  have h1 := h.hL
  have h2 := h.nocarry
  have h3 := h.pos
  rw [beVal_append] at h1
  by_contra hcon
  push Not at hcon
  have : (beVal hd + 1) * 256 ^ (pending ac).length * 2 ^ 24 ≤
      (beVal hd * 256 ^ (pending ac).length + beVal (pending ac) + ac.carry) * 2 ^ 24 := by
    apply Nat.mul_le_mul_right
    rw [add_mul, one_mul]
    omega
  omega

theorem RC.flushed_val {ac : AcEnc} {hd : List Nat} {L R S : Nat} (h : RC ac hd L R S) :
    beVal (flushed ac) = beVal (pending ac) + ac.carry := by
  have hc := h.carry
  have hfit := h.carry_fits
  have h0 : ac.carry = 0 ∨ ac.carry = 1 := by omega
  rcases h0 with h0 | h0
  · unfold flushed pending
    rw [h0]
    by_cases hneg : ac.cache < 0
    · simp [hneg]
    · have : ac.cache.toNat % 256 = ac.cache.toNat := by have := h.cacheHi; omega
      simp [hneg, this]
  · unfold flushed pending
    unfold pending at hfit
    rw [h0] at hfit ⊢
    by_cases hneg : ac.cache < 0
    · simp only [hneg, if_true, List.nil_append, List.length_replicate] at hfit ⊢
      have := beVal_replicate ac.carryCount
      omega
    · simp only [hneg, if_false, List.length_append, List.length_replicate, List.length_singleton,
        beVal_append, beVal_singleton] at hfit ⊢
      have h255 := beVal_replicate ac.carryCount
      have h00 := beVal_replicate_zero ac.carryCount
      have e1 : (1 + 255) % 256 = 0 := rfl
      rw [e1, h00]
      have hcache := h.cacheHi
      have hlt : ac.cache.toNat ≠ 255 := by
        intro he
        rw [he] at hfit
        have : (256 : Nat) ^ (1 + ac.carryCount) = 256 * 256 ^ ac.carryCount := by ring
        omega
      have hm : (ac.cache.toNat + 1) % 256 = ac.cache.toNat + 1 := by omega
      rw [hm]
      have : (ac.cache.toNat + 1) * 256 ^ ac.carryCount =
        ac.cache.toNat * 256 ^ ac.carryCount + 256 ^ ac.carryCount := by ring
      omega

theorem flushCarries_spec {N : Nat} {s : EncSt} {hd : List Nat} {tl : List Bool} (n : Nat)
    (h : FrameInv N s hd tl) (hfit : 8 * (hd.length + n) + tl.length ≤ 8 * N) :
    ∃ s', flushCarries s n = .ok s' ∧
      FrameInv N s' (hd ++ List.replicate n ((s.ac.carry + 255) % 256)) tl ∧
      s'.ac = { s.ac with carryCount := 0 } := by
  induction n generalizing s hd with
  | zero =>
    refine ⟨_, rfl, ?_, rfl⟩
    simpa using ⟨h.len, h.small, h.bytes, h.bp, h.head, h.tlt, h.side, h.mask, h.tail, h.gap, h.fit⟩
  | succ n ih =>
    obtain ⟨s1, e1, f1, a1⟩ := EncSt.byte_spec h (v := (s.ac.carry + 255) % 256)
      (Nat.mod_lt _ (by omega)) (by omega)
    obtain ⟨s2, e2, f2, a2⟩ := ih f1 (by simp; omega)
    refine ⟨s2, ?_, ?_, ?_⟩
    · show (EncSt.byte s ((s.ac.carry + 0xff) % 256) >>= fun s => flushCarries s n) = _
      rw [e1]; exact e2
    · rw [a1] at f2
      rw [List.append_assoc, List.singleton_append] at f2
      exact f2
    · rw [a2, a1]

theorem FrameInv.congr_ac {N : Nat} {s : EncSt} {hd : List Nat} {tl : List Bool}
    (h : FrameInv N s hd tl) (ac : AcEnc) : FrameInv N { s with ac := ac } hd tl :=
  ⟨h.len, h.small, h.bytes, h.bp, h.head, h.tlt, h.side, h.mask, h.tail, h.gap, h.fit⟩

theorem shl8_mask (x : Nat) (_h : x < 2 ^ 24) : x <<< 8 &&& 0x00ffffff = x % 65536 * 256 := by
  rw [show (0x00ffffff : Nat) = 2 ^ 24 - 1 from rfl, Nat.and_two_pow_sub_one_eq_mod,
    Nat.shiftLeft_eq]
  omega

theorem acShift_spec {N : Nat} {s : EncSt} {hd : List Nat} {tl : List Bool} {L R S : Nat}
    (hf : FrameInv N s hd tl) (hr : RC s.ac hd L R S)
    (hcond : s.ac.low < 0x00ff0000 ∨ s.ac.carry = 1 → s.ac.low + R ≤ 2 ^ 24)
    (hfit : 8 * S + tl.length ≤ 8 * N) :
    ∃ s' hd', acShift s = .ok s' ∧ FrameInv N s' hd' tl ∧ RC s'.ac hd' (256 * L) (256 * R) (S + 1) ∧
      s'.ac.range = s.ac.range ∧ s'.ac.carry = 0 ∧ s'.ac.low = s.ac.low % 65536 * 256 ∧
      ((s'.ac.carryCount = 0 ∧ 0 ≤ s'.ac.cache ∧ hd'.length = S ∧
          s'.ac.cache = ((s.ac.low / 65536 : Nat) : Int)) ∨
        (0x00ff0000 ≤ s.ac.low ∧ s'.ac.carryCount = s.ac.carryCount + 1 ∧ s'.ac.cache = s.ac.cache ∧
          hd' = hd)) := by
  have hS := hr.hS
  have hpos := hr.pos
  have hlow := hr.low
  by_cases hfl : s.ac.low < 0x00ff0000 ∨ s.ac.carry = 1
  · -- flush
    have hsum := hcond hfl
    have hv := hr.flushed_val
    unfold acShift
    rw [if_pos hfl]
    -- the cache byte
    have step1 : ∃ s1, (if s.ac.cache ≥ 0 then s.byte ((s.ac.cache.toNat + s.ac.carry) % 256) else .ok s) = .ok s1 ∧
        FrameInv N s1 (hd ++ (if s.ac.cache < 0 then [] else [(s.ac.cache.toNat + s.ac.carry) % 256])) tl ∧
        s1.ac = s.ac := by
      by_cases hc : s.ac.cache < 0
      · refine ⟨s, by rw [if_neg (by omega)], by simpa [hc] using hf, rfl⟩
      · have hp : (pending s.ac).length = 1 + s.ac.carryCount := by simp [pending, hc]; omega
        obtain ⟨s1, e1, f1, a1⟩ := EncSt.byte_spec hf (v := (s.ac.cache.toNat + s.ac.carry) % 256)
          (Nat.mod_lt _ (by omega)) (by omega)
        refine ⟨s1, by rw [if_pos (by omega)]; exact e1, by simpa [hc] using f1, a1⟩
    obtain ⟨s1, e1, f1, a1⟩ := step1
    have hlen1 : (hd ++ (if s.ac.cache < 0 then [] else [(s.ac.cache.toNat + s.ac.carry) % 256])).length
        + s.ac.carryCount = S := by
      rw [hS]; unfold pending; split <;> simp <;> omega
    obtain ⟨s2, e2, f2, a2⟩ := flushCarries_spec s1.ac.carryCount f1 (by rw [a1]; omega)
    rw [a1] at f2 e2
    refine ⟨{ s2 with ac := { s2.ac with
      cache := ((s2.ac.low >>> 16 : Nat) : Int), carry := 0, low := s2.ac.low <<< 8 &&& 0x00ffffff } },
      hd ++ flushed s.ac, ?_, ?_, ?_, ?_, ?_, ?_, ?_⟩
    · simp only [e1, Res.bind_ok]
      rw [a1, e2]
      rfl
    · have : hd ++ flushed s.ac = hd ++ (if s.ac.cache < 0 then [] else [(s.ac.cache.toNat + s.ac.carry) % 256]) ++
          List.replicate s.ac.carryCount ((s.ac.carry + 255) % 256) := by
        rw [List.append_assoc]; rfl
      rw [this]
      exact f2.congr_ac _
    · have hl2 : s2.ac.low = s.ac.low := by rw [a2, a1]
      have hr2 : s2.ac.carryCount = 0 := by rw [a2]
      have hsh : s.ac.low >>> 16 = s.ac.low / 65536 := by rw [Nat.shiftRight_eq_div_pow]
      have hpend : pending { s2.ac with
          cache := ((s2.ac.low >>> 16 : Nat) : Int), carry := 0, low := s2.ac.low <<< 8 &&& 0x00ffffff }
          = [s.ac.low / 65536] := by
        unfold pending
        simp only [hr2, hl2, hsh, List.replicate_zero, List.append_nil]
        rw [if_neg (by omega)]
        simp only [Int.toNat_natCast]
      have hlenfl : (hd ++ flushed s.ac).length = S := by
        rw [List.length_append, flushed_length, ← hS]
      have hL := hr.hL
      rw [beVal_append] at hL
      refine ⟨?_, ?_, ?_, ?_, ?_, ?_, ?_, ?_, ?_⟩
      · rw [hpend, hlenfl]; rfl
      · rw [hpend]
        show 256 * L = (beVal (hd ++ flushed s.ac ++ [s.ac.low / 65536]) + 0) * 2 ^ 24 +
          (s2.ac.low <<< 8 &&& 0x00ffffff)
        rw [hl2, shl8_mask _ hlow, beVal_concat, beVal_append, hv, flushed_length]
        rw [hL]
        omega
      · show s2.ac.low <<< 8 &&& 0x00ffffff < 2 ^ 24
        rw [hl2, shl8_mask _ hlow]; omega
      · exact Nat.zero_le 1
      · show (-1 : Int) ≤ ((s2.ac.low >>> 16 : Nat) : Int); omega
      · show ((s2.ac.low >>> 16 : Nat) : Int) < 256
        rw [hl2, hsh]; omega
      · exact hr.bytes.append (flushed_bytes _)
      · omega
      · rw [hpend]
        rw [beVal_append, hv, flushed_length]
        show 256 * L + 256 * R ≤ _ * 256 ^ 1 * 2 ^ 24
        rw [hL]
        omega
    · show s2.ac.range = _; rw [a2, a1]
    · rfl
    · show s2.ac.low <<< 8 &&& 0x00ffffff = _
      have hl2 : s2.ac.low = s.ac.low := by rw [a2, a1]
      rw [hl2, shl8_mask _ hlow]
    · left
      have hl2 : s2.ac.low = s.ac.low := by rw [a2, a1]
      refine ⟨?_, ?_, ?_, ?_⟩
      · show s2.ac.carryCount = 0; rw [a2]
      · show (0 : Int) ≤ ((s2.ac.low >>> 16 : Nat) : Int); omega
      · rw [List.length_append, flushed_length, ← hS]
      · show ((s2.ac.low >>> 16 : Nat) : Int) = _
        rw [hl2, Nat.shiftRight_eq_div_pow]
  · -- one more pending 0xff
    have hc0 : s.ac.carry = 0 := by have := hr.carry; omega
    have hge : 0x00ff0000 ≤ s.ac.low := by omega
    unfold acShift
    rw [if_neg hfl]
    refine ⟨_, hd, rfl, hf.congr_ac _, ?_, rfl, hc0, shl8_mask _ hlow, Or.inr ⟨hge, rfl, rfl, rfl⟩⟩
    have hpend : pending { s.ac with
        carryCount := s.ac.carryCount + 1, low := s.ac.low <<< 8 &&& 0x00ffffff }
        = pending s.ac ++ [255] := by
      unfold pending
      simp only [List.replicate_succ', List.append_assoc]
    have hL := hr.hL
    have hn := hr.nocarry
    rw [hc0] at hL
    refine ⟨?_, ?_, ?_, ?_, hr.cacheLo, hr.cacheHi, hr.bytes, by omega, ?_⟩
    · rw [hpend]; simp; omega
    · rw [hpend]
      show 256 * L = (beVal (hd ++ (pending s.ac ++ [255])) + s.ac.carry) * 2 ^ 24 +
        (s.ac.low <<< 8 &&& 0x00ffffff)
      rw [hc0, shl8_mask _ hlow, ← List.append_assoc, beVal_concat, hL]
      omega
    · show s.ac.low <<< 8 &&& 0x00ffffff < 2 ^ 24
      rw [shl8_mask _ hlow]; omega
    · exact hr.carry
    · rw [hpend, List.length_append, List.length_singleton, pow_succ]
      have : (beVal hd + 1) * (256 ^ (pending s.ac).length * 256) * 2 ^ 24 =
        256 * ((beVal hd + 1) * 256 ^ (pending s.ac).length * 2 ^ 24) := by ring
      rw [this]; omega

/-- number of renormalisation steps for a range `R` -/
def nShift (R : Nat) : Nat := if R < 256 then 2 else if R < 65536 then 1 else 0

/-- Abstract encoder state: the interval `[L, L + R)` at scale `S`. -/
structure Abs where
  L : Nat
  R : Nat
  S : Nat

/-- start of coding -/
def Abs.init : Abs := ⟨0, 2 ^ 24 - 1, 0⟩

/-- narrowing the interval to a symbol, then rescaling -/
def Abs.step (a : Abs) (cum freq : Nat) : Abs :=
  let r := a.R / 1024
  let k := nShift (r * freq)
  ⟨(a.L + r * cum) * 256 ^ k, r * freq * 256 ^ k, a.S + k⟩

/-- invariant of the coder between symbols -/
structure CInv (ac : AcEnc) (hd : List Nat) (a : Abs) : Prop where
  rc : RC ac hd a.L a.R a.S
  range : ac.range = a.R
  lo : 2 ^ 16 ≤ a.R
  hi : a.R < 2 ^ 24
  sum : ac.carry * 2 ^ 24 + ac.low + a.R ≤ 2 ^ 25

theorem RC.congr_range {ac : AcEnc} {hd : List Nat} {L R S : Nat} (h : RC ac hd L R S) (x : Nat) :
    RC { ac with range := x } hd L R S :=
  ⟨h.hS, h.hL, h.low, h.carry, h.cacheLo, h.cacheHi, h.bytes, h.pos, h.nocarry⟩

theorem acEncRenorm_zero (s : EncSt) (fuel : Nat) (h : 2 ^ 16 ≤ s.ac.range) :
    acEncRenorm fuel s = .ok s := by
  unfold acEncRenorm; rw [if_neg (by omega)]

theorem acEncRenorm_succ (s : EncSt) (fuel : Nat) (h : s.ac.range < 2 ^ 16) :
    acEncRenorm (fuel + 1) s =
      (acShift { s with ac := { s.ac with range := s.ac.range <<< 8 } } >>= acEncRenorm fuel) := by
  rw [acEncRenorm.eq_def]; simp [show s.ac.range < 0x10000 from h]

/-- one renormalisation step -/
theorem renorm_step {N : Nat} {s : EncSt} {hd : List Nat} {tl : List Bool} {L R S : Nat}
    (hf : FrameInv N s hd tl) (hr : RC s.ac hd L R S) (hR : s.ac.range = R) (hlt : R < 2 ^ 16)
    (hsum : s.ac.carry * 2 ^ 24 + s.ac.low + R ≤ 2 ^ 25)
    (hfit : 8 * S + tl.length ≤ 8 * N) (fuel : Nat) :
    ∃ s' hd', acEncRenorm (fuel + 1) s = acEncRenorm fuel s' ∧ FrameInv N s' hd' tl ∧
      RC s'.ac hd' (256 * L) (256 * R) (S + 1) ∧ s'.ac.range = 256 * R ∧
      s'.ac.carry * 2 ^ 24 + s'.ac.low + 256 * R ≤ 2 ^ 25 := by
  have hlow := hr.low
  have hcy := hr.carry
  obtain ⟨s', hd', e, f, r, hrg, hc, hl, -⟩ := acShift_spec (hf.congr_ac { s.ac with range := s.ac.range <<< 8 })
    (hr.congr_range (s.ac.range <<< 8))
    (by
      intro hh
      show s.ac.low + R ≤ 2 ^ 24
      have hh : s.ac.low < 0x00ff0000 ∨ s.ac.carry = 1 := hh
      rcases hh with hh | hh
      · omega
      · rw [hh] at hsum; omega) hfit
  refine ⟨s', hd', ?_, f, r, ?_, ?_⟩
  · rw [acEncRenorm_succ s fuel (by omega), e]; rfl
  · rw [hrg]; show s.ac.range <<< 8 = _
    rw [hR, Nat.shiftLeft_eq]; omega
  · have h3 := r.low
    rw [hc]
    clear hl hc r e f hsum hfit hR hr hf hrg
    generalize s'.ac.low = x at *
    omega

theorem and24 (x : Nat) : x &&& 0x00ffffff = x % 2 ^ 24 := by
  rw [show (0x00ffffff : Nat) = 2 ^ 24 - 1 from rfl, Nat.and_two_pow_sub_one_eq_mod]

theorem Abs.step_fit_mono (a : Abs) (cum freq : Nat) : a.S ≤ (a.step cum freq).S := by
  simp [Abs.step]

set_option maxRecDepth 4000 in
theorem acEncode_spec {N : Nat} {s : EncSt} {hd : List Nat} {tl : List Bool} {a : Abs}
    {cum freq : Nat} (hf : FrameInv N s hd tl) (hc : CInv s.ac hd a) (hfreq : 0 < freq)
    (htot : cum + freq ≤ 1024) (hfit : 8 * (a.step cum freq).S + tl.length ≤ 8 * N) :
    ∃ s' hd', acEncode s cum freq = .ok s' ∧ FrameInv N s' hd' tl ∧
      CInv s'.ac hd' (a.step cum freq) := by
  obtain ⟨L, R, S⟩ := a
  have hrc := hc.rc
  have hlo := hc.lo
  have hhi := hc.hi
  have hsum := hc.sum
  have hrange := hc.range
  simp only at hrc hlo hhi hsum hrange
  generalize hr : R / 1024 = r at *
  have hr64 : 64 ≤ r := by omega
  have hrlt : r < 2 ^ 14 := by omega
  have hprod : r * (cum + freq) ≤ R := by
    calc r * (cum + freq) ≤ r * 1024 := Nat.mul_le_mul_left _ htot
      _ ≤ R := by omega
  rw [Nat.mul_add] at hprod
  have hfpos : r ≤ r * freq := Nat.le_mul_of_pos_right _ hfreq
  have hlow := hrc.low
  have hcy := hrc.carry
  have hL := hrc.hL
  have hn := hrc.nocarry
  -- state before renormalisation
  obtain ⟨ac1, hac1⟩ : ∃ x : AcEnc, x = AcEnc.mk (s.ac.low + r * cum &&& 0x00ffffff) (r * freq)
    s.ac.cache (if (s.ac.low + r * cum) >>> 24 ≠ 0 then 1 else s.ac.carry) s.ac.carryCount := ⟨_, rfl⟩
  have hsh : (s.ac.low + r * cum) >>> 24 = (s.ac.low + r * cum) / 2 ^ 24 := by
    rw [Nat.shiftRight_eq_div_pow]
  -- combined value of carry and low
  have hkey : ac1.carry ≤ 1 ∧ ac1.carry * 2 ^ 24 + ac1.low = s.ac.carry * 2 ^ 24 + s.ac.low + r * cum := by
    simp only [hac1, hsh, and24]
    by_cases hov : (s.ac.low + r * cum) / 2 ^ 24 ≠ 0
    · rw [if_pos hov]
      have h0 : s.ac.carry = 0 := by
        rcases (by omega : s.ac.carry = 0 ∨ s.ac.carry = 1) with h | h
        · exact h
        · rw [h] at hsum; omega
      rw [h0]
      omega
    · rw [if_neg hov]
      omega
  have hstart : acEncode s cum freq = acEncRenorm 3 { s with ac := ac1 } := by
    unfold acEncode
    rw [hrange, Nat.shiftRight_eq_div_pow]
    have : R / 2 ^ 10 = r := hr
    rw [this, hac1]
  have hf1 : FrameInv N { s with ac := ac1 } hd tl := hf.congr_ac ac1
  have hpend : pending ac1 = pending s.ac := by rw [hac1]; rfl
  have hcache : ac1.cache = s.ac.cache := by rw [hac1]
  have hrange1 : ac1.range = r * freq := by rw [hac1]
  have hr1 : RC ac1 hd (L + r * cum) (r * freq) S := by
    refine ⟨by rw [hpend]; exact hrc.hS, ?_, ?_, hkey.1, by rw [hcache]; exact hrc.cacheLo,
      by rw [hcache]; exact hrc.cacheHi, hrc.bytes, by omega, ?_⟩
    · rw [hpend, hL]
      have := hkey.2
      rw [Nat.add_mul, Nat.add_mul]; linarith
    · simp only [hac1, and24]; exact Nat.mod_lt _ (by norm_num)
    · rw [hpend]; linarith
  have hsum1 : ac1.carry * 2 ^ 24 + ac1.low + r * freq ≤ 2 ^ 25 := by
    rw [hkey.2]; linarith
  have hstep : Abs.step ⟨L, R, S⟩ cum freq =
      ⟨(L + r * cum) * 256 ^ nShift (r * freq), r * freq * 256 ^ nShift (r * freq),
        S + nShift (r * freq)⟩ := by
    simp only [Abs.step, hr]
  rw [hstep] at hfit ⊢
  simp only at hfit
  rw [hstart]
  by_cases h2 : r * freq < 256
  · have hk : nShift (r * freq) = 2 := by simp [nShift, h2]
    rw [hk] at hfit ⊢
    obtain ⟨s1, hd1, e1, f1, r1, g1, q1⟩ := renorm_step hf1 hr1 hrange1 (by omega) hsum1 (by omega) 2
    obtain ⟨s2, hd2, e2, f2, r2, g2, q2⟩ := renorm_step f1 r1 g1 (by omega) q1 (by omega) 1
    have e3 := acEncRenorm_zero s2 1 (by rw [g2]; omega)
    refine ⟨s2, hd2, by rw [e1, e2, e3], f2, ?_⟩
    have i1 : (L + r * cum) * 256 ^ 2 = 256 * (256 * (L + r * cum)) := by ring
    have i2 : r * freq * 256 ^ 2 = 256 * (256 * (r * freq)) := by ring
    exact ⟨by simpa only [i1, i2] using r2, by simp only [i2]; exact g2, by simp only [i2]; omega,
      by simp only [i2]; omega, by simp only [i2]; exact q2⟩
  · by_cases h1 : r * freq < 65536
    · have hk : nShift (r * freq) = 1 := by simp [nShift, h2, h1]
      rw [hk] at hfit ⊢
      obtain ⟨s1, hd1, e1, f1, r1, g1, q1⟩ := renorm_step hf1 hr1 hrange1 (by omega) hsum1 (by omega) 2
      have e3 := acEncRenorm_zero s1 2 (by rw [g1]; omega)
      refine ⟨s1, hd1, by rw [e1, e3], f1, ?_⟩
      have i1 : (L + r * cum) * 256 ^ 1 = 256 * (L + r * cum) := by ring
      have i2 : r * freq * 256 ^ 1 = 256 * (r * freq) := by ring
      exact ⟨by simpa only [i1, i2] using r1, by simp only [i2]; exact g1, by simp only [i2]; omega,
        by simp only [i2]; omega, by simp only [i2]; exact q1⟩
    · have hk : nShift (r * freq) = 0 := by simp [nShift, h2, h1]
      rw [hk] at hfit ⊢
      have e3 := acEncRenorm_zero { s with ac := ac1 } 3 (by show 2 ^ 16 ≤ ac1.range; omega)
      refine ⟨_, hd, e3, hf1, ?_⟩
      have i1 : (L + r * cum) * 256 ^ 0 = L + r * cum := by ring
      have i2 : r * freq * 256 ^ 0 = r * freq := by ring
      exact ⟨by simpa only [i1, i2, Nat.add_zero] using hr1, by simp only [i2]; exact hrange1, by simp only [i2]; omega,
        by simp only [i2]; omega, by simp only [i2]; exact hsum1⟩

end Lc3
