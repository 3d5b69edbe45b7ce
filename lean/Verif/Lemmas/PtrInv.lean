import Verif.Lemmas.Events
/-! Positions of the writer, independent of the contents: they follow the abstract state whenever the
encoder does not panic. -/

namespace Lc3

structure PtrInv (N : Nat) (s : EncSt) (σ : ASt) : Prop where
  len : s.buf.length = N
  range : s.ac.range = σ.abs.R
  scale : σ.abs.S = s.w.bp + (if s.ac.cache < 0 then 0 else 1) + s.ac.carryCount
  tlt : σ.tl.length < 8 * N
  side : s.w.bpSide = N - 1 - σ.tl.length / 8
  mask : s.w.maskSide = 2 ^ (σ.tl.length % 8)

theorem two_pow_eq_128 {k : Nat} (hk : k < 8) : 2 ^ k = 0x80 ↔ k = 7 := by
  have h : k = 0 ∨ k = 1 ∨ k = 2 ∨ k = 3 ∨ k = 4 ∨ k = 5 ∨ k = 6 ∨ k = 7 := by omega
  rcases h with h | h | h | h | h | h | h | h <;> subst h <;> decide

theorem PtrInv.bool {N : Nat} {s s' : EncSt} {σ : ASt} {b : Bool} (h : PtrInv N s σ)
    (hs : s.bool b = .ok s') : PtrInv N s' (σ.step (.bit b)) := by
  obtain ⟨h1, h2, h3, h4, h5, h6⟩ := h
  unfold EncSt.bool Writer.writeBoolBackward at hs
  have hlt : s.w.bpSide < s.buf.length := by rw [h5, h1]; omega
  rw [idx_eq_ok hlt] at hs
  simp only [Res.bind_ok, setIdx, hlt, if_true] at hs
  have hm := two_pow_eq_128 (k := σ.tl.length % 8) (Nat.mod_lt _ (by omega))
  rw [← h6] at hm
  by_cases h7 : s.w.maskSide = 0x80
  · rw [if_pos h7] at hs
    have h77 := hm.1 h7
    by_cases h0 : 1 ≤ s.w.bpSide
    · simp only [usub, h0, if_true, Res.bind_ok, Res.ok.injEq] at hs
      subst hs
      refine ⟨by simpa using h1, h2, h3, ?_, ?_, ?_⟩
      · simp [ASt.step]; omega
      · simp [ASt.step]; omega
      · have : (σ.tl.length + 1) % 8 = 0 := by omega
        simp [ASt.step, this]
    · simp [usub, h0] at hs
  · rw [if_neg h7] at hs
    have h77 := fun h => h7 (hm.2 h)
    simp only [Res.bind_ok, Res.ok.injEq] at hs
    subst hs
    refine ⟨by simpa using h1, h2, h3, ?_, ?_, ?_⟩
    · simp [ASt.step]; omega
    · simp [ASt.step]; omega
    · have : (σ.tl.length + 1) % 8 = σ.tl.length % 8 + 1 := by omega
      simp only [ASt.step, List.length_append, List.length_singleton, this]
      rw [h6, Nat.shiftLeft_eq, pow_succ]; rfl

/-- the part of the state that the bytes written forward do not touch -/
structure SameSide (s s' : EncSt) : Prop where
  len : s'.buf.length = s.buf.length
  side : s'.w.bpSide = s.w.bpSide
  mask : s'.w.maskSide = s.w.maskSide

theorem byte_ptr {s s' : EncSt} {v : Nat} (h : s.byte v = .ok s') :
    SameSide s s' ∧ s'.w.bp = s.w.bp + 1 ∧ s'.ac = s.ac := by
  unfold EncSt.byte Writer.writeByteForward setIdx at h
  by_cases hlt : s.w.bp < s.buf.length
  · simp only [hlt, if_true, Res.bind_ok, Res.ok.injEq] at h
    subst h
    exact ⟨⟨by simp, rfl, rfl⟩, rfl, rfl⟩
  · simp [hlt] at h

theorem flushCarries_ptr {s s' : EncSt} {n : Nat} (h : flushCarries s n = .ok s') :
    SameSide s s' ∧ s'.w.bp = s.w.bp + n ∧ s'.ac = { s.ac with carryCount := 0 } := by
  induction n generalizing s with
  | zero =>
    simp only [flushCarries, Res.ok.injEq] at h
    subst h
    exact ⟨⟨rfl, rfl, rfl⟩, rfl, rfl⟩
  | succ n ih =>
    simp only [flushCarries] at h
    obtain ⟨s1, e1, e2⟩ := Res.bind_eq_ok.1 h
    obtain ⟨a1, a2, a3⟩ := byte_ptr e1
    obtain ⟨b1, b2, b3⟩ := ih e2
    refine ⟨⟨by rw [b1.len, a1.len], by rw [b1.side, a1.side], by rw [b1.mask, a1.mask]⟩, by omega, ?_⟩
    rw [b3, a3]

def EncSt.scale (s : EncSt) : Nat := s.w.bp + (if s.ac.cache < 0 then 0 else 1) + s.ac.carryCount

theorem acShift_ptr {s s' : EncSt} (h : acShift s = .ok s') :
    SameSide s s' ∧ s'.scale = s.scale + 1 ∧ s'.ac.range = s.ac.range := by
  unfold acShift at h
  by_cases hc : s.ac.low < 0x00ff0000 ∨ s.ac.carry = 1
  · rw [if_pos hc] at h
    obtain ⟨s1, e1, h⟩ := Res.bind_eq_ok.1 h
    obtain ⟨s2, e2, h⟩ := Res.bind_eq_ok.1 h
    simp only [Res.ok.injEq] at h
    obtain ⟨b1, b2, b3⟩ := flushCarries_ptr e2
    have h1 : SameSide s s1 ∧ s1.w.bp = s.w.bp + (if s.ac.cache < 0 then 0 else 1) ∧ s1.ac = s.ac := by
      by_cases h0 : s.ac.cache ≥ 0
      · rw [if_pos h0] at e1
        obtain ⟨a1, a2, a3⟩ := byte_ptr e1
        refine ⟨a1, ?_, a3⟩
        rw [if_neg (by omega)]; exact a2
      · rw [if_neg h0] at e1
        simp only [Res.ok.injEq] at e1
        subst e1
        refine ⟨⟨rfl, rfl, rfl⟩, ?_, rfl⟩
        rw [if_pos (by omega)]; rfl
    obtain ⟨a1, a2, a3⟩ := h1
    subst h
    refine ⟨⟨by simp only; rw [b1.len, a1.len], by simp only; rw [b1.side, a1.side],
      by simp only; rw [b1.mask, a1.mask]⟩, ?_, ?_⟩
    · unfold EncSt.scale
      simp only
      rw [b2, a2, b3, a3]
      have : ¬ ((s2.ac.low >>> 16 : Nat) : Int) < 0 := by omega
      rw [b3, a3] at this
      simp only at this ⊢
      rw [if_neg this]
    · simp only; rw [b3, a3]
  · rw [if_neg hc] at h
    simp only [Res.ok.injEq] at h
    subst h
    refine ⟨⟨rfl, rfl, rfl⟩, ?_, rfl⟩
    unfold EncSt.scale
    simp only; omega

theorem acEncode_ptr {N : Nat} {s s' : EncSt} {σ : ASt} {c f : Nat} (h : PtrInv N s σ) (ho : σ.Ok)
    (hv : (Ev.sym c f).Valid) (hs : acEncode s c f = .ok s') : PtrInv N s' (σ.step (.sym c f)) := by
  obtain ⟨h1, h2, h3, h4, h5, h6⟩ := h
  obtain ⟨hv1, hv2⟩ := hv
  have hsr := step_range ho.1 ho.2 hv1 hv2
  have hx : 64 ≤ σ.abs.R / 1024 * f := by
    have := ho.1
    have : 64 ≤ σ.abs.R / 1024 := by simp only [Nat.reducePow] at this; omega
    nlinarith
  unfold acEncode at hs
  have hr : s.ac.range >>> 10 = σ.abs.R / 1024 := by rw [h2, Nat.shiftRight_eq_div_pow]
  rw [hr] at hs
  simp only at hs
  obtain ⟨s0, hs0⟩ : ∃ s0, s0 = ({ s with ac := { s.ac with
    low := s.ac.low + σ.abs.R / 1024 * c &&& 0x00ffffff, range := σ.abs.R / 1024 * f,
    carry := if (s.ac.low + σ.abs.R / 1024 * c) >>> 24 ≠ 0 then 1 else s.ac.carry } } : EncSt) := ⟨_, rfl⟩
  rw [← hs0] at hs
  have e0 : SameSide s s0 ∧ s0.scale = s.scale ∧ s0.ac.range = σ.abs.R / 1024 * f := by
    rw [hs0]; exact ⟨⟨rfl, rfl, rfl⟩, rfl, rfl⟩
  obtain ⟨a1, a2, a3⟩ := e0
  have hscale : σ.abs.S = s.scale := h3
  have main : SameSide s s' ∧ s'.scale = s.scale + nShift (σ.abs.R / 1024 * f) ∧
      s'.ac.range = σ.abs.R / 1024 * f * 256 ^ nShift (σ.abs.R / 1024 * f) := by
    generalize σ.abs.R / 1024 * f = x at *
    have step : ∀ (fuel : Nat) (t t' : EncSt), t.ac.range < 2 ^ 16 → acEncRenorm (fuel + 1) t = .ok t' →
        ∃ u, acEncRenorm fuel u = .ok t' ∧ SameSide t u ∧ u.scale = t.scale + 1 ∧
          u.ac.range = t.ac.range * 256 := by
      intro fuel t t' hlt ht
      rw [acEncRenorm_succ _ _ hlt] at ht
      obtain ⟨u, e1, e2⟩ := Res.bind_eq_ok.1 ht
      obtain ⟨b1, b2, b3⟩ := acShift_ptr e1
      refine ⟨u, e2, ⟨b1.len, b1.side, b1.mask⟩, b2, ?_⟩
      rw [b3]; simp only; rw [Nat.shiftLeft_eq]
    by_cases c1 : x < 256
    · have hk : nShift x = 2 := by simp [nShift, c1]
      obtain ⟨u, e1, q1, q2, q3⟩ := step 2 s0 s' (by rw [a3]; omega) hs
      obtain ⟨v, e2, r1, r2, r3⟩ := step 1 u s' (by rw [q3, a3]; omega) e1
      rw [acEncRenorm_zero _ _ (by rw [r3, q3, a3]; omega), Res.ok.injEq] at e2
      subst e2
      rw [hk]
      exact ⟨⟨by rw [r1.len, q1.len, a1.len], by rw [r1.side, q1.side, a1.side],
        by rw [r1.mask, q1.mask, a1.mask]⟩, by omega, by rw [r3, q3, a3]; ring⟩
    · by_cases c2 : x < 65536
      · have hk : nShift x = 1 := by simp [nShift, c1, c2]
        obtain ⟨u, e1, q1, q2, q3⟩ := step 2 s0 s' (by rw [a3]; omega) hs
        rw [acEncRenorm_zero _ _ (by rw [q3, a3]; omega), Res.ok.injEq] at e1
        subst e1
        rw [hk]
        exact ⟨⟨by rw [q1.len, a1.len], by rw [q1.side, a1.side],
          by rw [q1.mask, a1.mask]⟩, by omega, by rw [q3, a3]; ring⟩
      · have hk : nShift x = 0 := by simp [nShift, c1, c2]
        rw [acEncRenorm_zero _ _ (by rw [a3]; omega), Res.ok.injEq] at hs
        subst hs
        rw [hk]
        exact ⟨a1, by omega, by rw [a3]; ring⟩
  obtain ⟨m1, m2, m3⟩ := main
  refine ⟨by rw [m1.len, h1], m3, ?_, h4, by rw [m1.side, h5]; rfl, by rw [m1.mask, h6]; rfl⟩
  show σ.abs.S + nShift (σ.abs.R / 1024 * f) = s'.scale
  omega

theorem runEv_ptr {N : Nat} (es : List Ev) {s s' : EncSt} {σ : ASt} (h : PtrInv N s σ) (ho : σ.Ok)
    (hv : ∀ e ∈ es, e.Valid) (hs : runEv es s = .ok s') : PtrInv N s' (σ.run es) := by
  induction es generalizing s σ with
  | nil => simp only [runEv, Res.ok.injEq] at hs; subst hs; exact h
  | cons e es ih =>
    have hv1 := hv e (by simp)
    have hv2 : ∀ e' ∈ es, e'.Valid := fun e' he => hv e' (by simp [he])
    cases e with
    | sym c f =>
      obtain ⟨s1, e1, e2⟩ := Res.bind_eq_ok.1 hs
      exact ih (acEncode_ptr h ho hv1 e1) (ho.step hv1) hv2 e2
    | bit b =>
      obtain ⟨s1, e1, e2⟩ := Res.bind_eq_ok.1 hs
      exact ih (h.bool e1) (ho.step hv1) hv2 e2

theorem PtrInv.of_inv {N : Nat} {s : EncSt} {hd : List Nat} {σ : ASt} (hf : FrameInv N s hd σ.tl)
    (hc : CInv s.ac hd σ.abs) : PtrInv N s σ := by
  refine ⟨hf.len, hc.range, ?_, hf.tlt, hf.side, hf.mask⟩
  rw [hc.rc.hS, hf.bp]
  unfold pending
  by_cases h : s.ac.cache < 0 <;> simp [h]
  omega

theorem PtrInv.nbitsSideWritten {N : Nat} {s : EncSt} {σ : ASt} (h : PtrInv N s σ) :
    s.w.nbitsSideWritten (s.buf.length * 8) = .ok σ.tl.length := by
  have hT := h.tlt
  unfold Writer.nbitsSideWritten
  rw [h.mask, h.side, h.len, Nat.log2_two_pow]
  have : ((N * 8 : Nat) : Int) - (8 * ((N - 1 - σ.tl.length / 8 : Nat) : Int) + 8 - ((σ.tl.length % 8 : Nat) : Int))
      = (σ.tl.length : Int) := by omega
  simp only [this]
  rw [if_neg (by omega)]
  simp

/-- the encoder's estimate in terms of the abstract state -/
theorem PtrInv.forecast {N : Nat} {s : EncSt} {σ : ASt} (h : PtrInv N s σ) :
    nbitsAriForecast s = 8 * σ.abs.S + (25 - Nat.log2 σ.abs.R) + (if s.ac.cache < 0 then 8 else 0) := by
  unfold nbitsAriForecast
  rw [h.range]
  have := h.scale
  by_cases hc : s.ac.cache < 0
  · simp only [hc, if_true] at this ⊢; omega
  · simp only [hc, if_false] at this ⊢; omega

end Lc3
