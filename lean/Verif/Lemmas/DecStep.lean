import Verif.Lemmas.Events
import Verif.Spec.Coding
/-! The decoder in lock step with the abstract coder. -/

namespace Lc3

/-- the number formed by the bytes the range decoder has seen at scale `S` -/
def headVal (buf : List Nat) (S : Nat) : Nat := beVal (buf.take (S + 3))

def decAc (buf : List Nat) (σ : ASt) : AcDec := ⟨headVal buf σ.abs.S - σ.abs.L, σ.abs.R⟩

def decRd (σ : ASt) : Reader := ⟨σ.abs.S + 3, σ.tl.length⟩

/-- the frame is consistent with the events leading to `σ` -/
structure Good (buf : List Nat) (σ : ASt) : Prop where
  bytes : Bytes buf
  ok : σ.Ok
  room : σ.abs.S + 3 ≤ buf.length
  lo : σ.abs.L ≤ headVal buf σ.abs.S
  hi : headVal buf σ.abs.S < σ.abs.L + σ.abs.R
  tail : ∀ j, (hj : j < σ.tl.length) → tailBit buf j = σ.tl[j]
  fit : 8 * σ.abs.S + σ.tl.length ≤ 8 * buf.length

theorem headVal_div {buf : List Nat} (hb : Bytes buf) {S k : Nat} (h : S + k + 3 ≤ buf.length) :
    headVal buf (S + k) / 256 ^ k = headVal buf S := by
  unfold headVal
  have e : S + k + 3 = S + 3 + k := by omega
  rw [e]
  exact beVal_take_div hb (by omega)

theorem Good.back {buf : List Nat} {σ : ASt} {e : Ev} (h : Good buf (σ.step e)) (ho : σ.Ok)
    (hv : e.Valid) : Good buf σ := by
  cases e with
  | bit b =>
    obtain ⟨h1, h2, h3, h4, h5, h6, h7⟩ := h
    have hlen : (σ.step (.bit b)).tl.length = σ.tl.length + 1 := by simp [ASt.step]
    refine ⟨h1, ho, h3, h4, h5, ?_, ?_⟩
    · intro j hj
      have := h6 j (by omega)
      rw [this]
      simp only [ASt.step]
      rw [List.getElem_append_left hj]
    · have : (σ.step (.bit b)).abs.S = σ.abs.S := rfl
      omega
  | sym c f =>
    obtain ⟨h1, h2, h3, h4, h5, h6, h7⟩ := h
    obtain ⟨hv1, hv2⟩ := hv
    simp only [ASt.step, Abs.step] at h2 h3 h4 h5 h6 h7
    generalize nShift (σ.abs.R / 1024 * f) = k at *
    have hp : 0 < 256 ^ k := by positivity
    have hd := headVal_div h1 (S := σ.abs.S) (k := k) h3
    have hlo : σ.abs.L + σ.abs.R / 1024 * c ≤ headVal buf σ.abs.S := by
      rw [← hd]; exact (Nat.le_div_iff_mul_le hp).2 h4
    have hhi : headVal buf σ.abs.S < σ.abs.L + σ.abs.R / 1024 * c + σ.abs.R / 1024 * f := by
      rw [← hd]; apply Nat.div_lt_of_lt_mul; rw [Nat.mul_comm, Nat.add_mul]; exact h5
    have hle : σ.abs.R / 1024 * c + σ.abs.R / 1024 * f ≤ σ.abs.R := by
      rw [← Nat.mul_add]
      have : σ.abs.R / 1024 * (c + f) ≤ σ.abs.R / 1024 * 1024 := Nat.mul_le_mul_left _ hv2
      omega
    exact ⟨h1, ho, by omega, by omega, by omega, h6, by omega⟩

theorem Good.back_run {buf : List Nat} {σ : ASt} (es : List Ev) (h : Good buf (σ.run es)) (ho : σ.Ok)
    (hv : ∀ e ∈ es, e.Valid) : Good buf σ := by
  induction es generalizing σ with
  | nil => exact h
  | cons e es ih =>
    have he := hv e (by simp)
    exact (ih h (ho.step he) (fun e' h' => hv e' (by simp [h']))).back ho he

/-! ### one bit -/

theorem shift_bit (x i : Nat) (hi : i < 8) : ((x <<< (7 - i)) % 256) >>> 7 = (x.testBit i).toNat := by
  apply Nat.eq_of_testBit_eq
  intro m
  rw [Nat.testBit_shiftRight, show (256 : Nat) = 2 ^ 8 from rfl, Nat.testBit_mod_two_pow,
    Nat.testBit_shiftLeft]
  cases m with
  | zero =>
    have e : 7 + 0 - (7 - i) = i := by omega
    rw [e]
    have : (7 + 0 ≥ 7 - i) := by omega
    simp only [this, decide_true, Bool.true_and]
    cases x.testBit i <;> simp
  | succ m =>
    have : ¬ (7 + (m + 1) < 8) := by omega
    simp only [this, decide_false, Bool.false_and]
    cases x.testBit i <;> simp [Nat.testBit_succ]

theorem readTailBool_eq {buf : List Nat} {r : Reader} (h : r.tail < 8 * buf.length)
    (hh : r.head + r.tail / 8 ≤ buf.length + 2) :
    r.readTailBool buf = .ok (tailBit buf r.tail, { r with tail := r.tail + 1 }) := by
  unfold Reader.readTailBool
  rw [if_neg (by omega)]
  have hu : r.tail / 8 + 1 ≤ buf.length := by omega
  have hlt : buf.length - (r.tail / 8 + 1) < buf.length := by omega
  simp only [usub, hu, if_true, Res.bind_ok, idx_eq_ok hlt]
  rw [shift_bit _ _ (Nat.mod_lt _ (by omega))]
  unfold tailBit
  have e : buf.length - 1 - r.tail / 8 = buf.length - (r.tail / 8 + 1) := by omega
  rw [e, List.getD_eq_getElem _ _ hlt]
  congr 2
  cases Nat.testBit _ _ <;> rfl

theorem decRd_bit {buf : List Nat} {σ : ASt} {b : Bool} (h : Good buf (σ.step (.bit b))) :
    (decRd σ).readTailBool buf = .ok (b, decRd (σ.step (.bit b))) := by
  have hlen : (σ.step (.bit b)).tl.length = σ.tl.length + 1 := by simp [ASt.step]
  have hfit := h.fit
  have hroom := h.room
  have hS : (σ.step (.bit b)).abs.S = σ.abs.S := rfl
  rw [readTailBool_eq]
  · have := h.tail σ.tl.length (by omega)
    simp only [ASt.step] at this
    rw [List.getElem_append_right (le_refl _)] at this
    simp at this
    unfold decRd
    simp only
    rw [this, hlen, hS]
  · show σ.tl.length < _
    omega
  · show σ.abs.S + 3 + σ.tl.length / 8 ≤ _
    omega

theorem decAc_bit (buf : List Nat) (σ : ASt) (b : Bool) : decAc buf (σ.step (.bit b)) = decAc buf σ := rfl

/-! ### one symbol -/

theorem take_sum_mono (l : List Nat) {i j : Nat} (h : i ≤ j) : (l.take i).sum ≤ (l.take j).sum := by
  obtain ⟨k, rfl⟩ := Nat.exists_eq_add_of_le h
  rw [List.take_add, List.sum_append]
  omega

theorem take_sum_le (l : List Nat) (i : Nat) : (l.take i).sum ≤ l.sum := by
  conv_rhs => rw [← List.take_append_drop i l]
  rw [List.sum_append]; omega

theorem ProperModel.cum_eq {cum freq : List Nat} (h : ProperModel cum freq) {i : Nat}
    (hi : i < freq.length) : idx cum i = .ok (freq.take i).sum := by
  unfold idx; rw [h.prefixSums i hi]

theorem take_sum_succ (l : List Nat) {i : Nat} (h : i < l.length) :
    (l.take (i + 1)).sum = (l.take i).sum + l[i] := by
  rw [List.take_succ_eq_append_getElem h, List.sum_append]; simp

theorem ProperModel.valid {cum freq : List Nat} (h : ProperModel cum freq) {i : Nat}
    (hi : i < freq.length) : Ev.Valid (.sym (freq.take i).sum freq[i]) := by
  refine ⟨h.pos _ (List.getElem_mem hi), ?_⟩
  rw [← take_sum_succ freq hi, ← h.total]
  exact take_sum_le _ _

theorem acFindSym_spec {cum freq : List Nat} (h : ProperModel cum freq) {low tmp i : Nat}
    (hi : i < freq.length) (h1 : tmp * (freq.take i).sum ≤ low)
    (h2 : low < tmp * (freq.take (i + 1)).sum) :
    ∀ v, i ≤ v → v < freq.length → acFindSym low tmp cum v = .ok i := by
  intro v
  induction v with
  | zero =>
    intro hv hv2
    have : i = 0 := by omega
    subst this
    unfold acFindSym
    rw [h.cum_eq hv2]
    simp
  | succ v ih =>
    intro hv hv2
    unfold acFindSym
    rw [h.cum_eq hv2]
    simp only [Res.bind_ok]
    by_cases hiv : i = v + 1
    · subst hiv
      rw [if_neg (by omega)]
    · have hm := take_sum_mono freq (show i + 1 ≤ v + 1 by omega)
      have := Nat.mul_le_mul_left tmp hm
      rw [if_pos (by omega)]
      exact ih (by omega) (by omega)

theorem acDecRenorm_zero (buf : List Nat) (fuel : Nat) (r : Reader) (st : AcDec)
    (h : 2 ^ 16 ≤ st.range) : acDecRenorm buf fuel r st = .ok (st, r) := by
  unfold acDecRenorm; rw [if_neg (by omega)]

theorem acDecRenorm_succ {buf : List Nat} (hb : Bytes buf) (fuel : Nat) {S T L x : Nat}
    (h : x < 2 ^ 16) (hroom : S + 1 + 3 ≤ buf.length) (hlo : L ≤ headVal buf S)
    (hhi : headVal buf S < L + x) :
    acDecRenorm buf (fuel + 1) ⟨S + 3, T⟩ ⟨headVal buf S - L, x⟩ =
      acDecRenorm buf fuel ⟨S + 1 + 3, T⟩ ⟨headVal buf (S + 1) - L * 256, x * 256⟩ := by
  rw [acDecRenorm.eq_def]
  have hx : x < 0x10000 := h
  have hlt : S + 3 < buf.length := by omega
  have hv : headVal buf (S + 1) = headVal buf S * 256 + buf[S + 3] := by
    unfold headVal
    rw [show S + 1 + 3 = S + 3 + 1 by omega, beVal_take_succ hlt]
  have hl : (headVal buf S - L) <<< 8 &&& 0x00ffffff = (headVal buf S - L) * 256 := by
    rw [shl8_mask _ (by omega)]
    omega
  simp only [hx, if_true, Reader.readHeadByte, List.getElem?_eq_getElem hlt, Res.bind_ok]
  rw [hl, Nat.shiftLeft_eq, show (2 : Nat) ^ 8 = 256 from rfl]
  congr 2
  rw [hv, Nat.sub_mul]
  have : L * 256 ≤ headVal buf S * 256 := Nat.mul_le_mul_right _ hlo
  omega

theorem acDecRenorm_spec {buf : List Nat} (hb : Bytes buf) {S T L x : Nat} (hx1 : 64 ≤ x)
    (hroom : S + nShift x + 3 ≤ buf.length) (hlo : L ≤ headVal buf S)
    (hhi : headVal buf S < L + x) (hlo' : L * 256 ^ nShift x ≤ headVal buf (S + nShift x))
    (hhi' : headVal buf (S + nShift x) < (L + x) * 256 ^ nShift x) :
    acDecRenorm buf 3 ⟨S + 3, T⟩ ⟨headVal buf S - L, x⟩ =
      .ok (⟨headVal buf (S + nShift x) - L * 256 ^ nShift x, x * 256 ^ nShift x⟩, ⟨S + nShift x + 3, T⟩) := by
  by_cases h1 : x < 256
  · have hk : nShift x = 2 := by simp [nShift, h1]
    rw [hk] at hroom hlo' hhi' ⊢
    rw [acDecRenorm_succ hb 2 (by omega) (by omega) hlo hhi]
    have hd := headVal_div hb (S := S + 1) (k := 1) (by omega)
    rw [show S + 1 + 1 = S + 2 from rfl] at hd
    have hlo1 : L * 256 ≤ headVal buf (S + 1) := by
      rw [← hd, Nat.le_div_iff_mul_le (by norm_num)]
      have : L * 256 * 256 ^ 1 = L * 256 ^ 2 := by ring
      linarith
    have hhi1 : headVal buf (S + 1) < L * 256 + x * 256 := by
      rw [← hd]
      apply Nat.div_lt_of_lt_mul
      have : 256 ^ 1 * (L * 256 + x * 256) = (L + x) * 256 ^ 2 := by ring
      linarith
    rw [acDecRenorm_succ hb 1 (by omega) (by omega) hlo1 hhi1]
    rw [acDecRenorm_zero _ _ _ _ (by show 2 ^ 16 ≤ x * 256 * 256; omega)]
    rw [show S + 1 + 1 = S + 2 from rfl, Nat.mul_assoc, Nat.mul_assoc, show (256 : Nat) * 256 = 256 ^ 2 from rfl]
  · by_cases h2 : x < 65536
    · have hk : nShift x = 1 := by simp [nShift, h1, h2]
      rw [hk] at hroom hlo' hhi' ⊢
      rw [acDecRenorm_succ hb 2 (by omega) (by omega) hlo hhi]
      rw [acDecRenorm_zero _ _ _ _ (by show 2 ^ 16 ≤ x * 256; omega)]
      simp
    · have hk : nShift x = 0 := by simp [nShift, h1, h2]
      rw [hk] at hroom hlo' hhi' ⊢
      rw [acDecRenorm_zero _ _ _ _ (by show 2 ^ 16 ≤ x; omega)]
      simp

theorem acDecode_sym {buf : List Nat} {σ : ASt} {cum freq : List Nat} (hm : ProperModel cum freq)
    {i : Nat} (hi : i < freq.length) (ho : σ.Ok)
    (h : Good buf (σ.step (.sym (freq.take i).sum freq[i]))) :
    acDecode buf (decRd σ) (decAc buf σ) cum freq =
      .ok (i, decAc buf (σ.step (.sym (freq.take i).sum freq[i])),
        decRd (σ.step (.sym (freq.take i).sum freq[i]))) := by
  have hv := hm.valid hi
  have hb := h.bytes
  have h3 := h.room
  have h4 := h.lo
  have h5 := h.hi
  have hsum := take_sum_succ freq hi
  have hts : (freq.take i).sum + freq[i] ≤ 1024 := hv.2
  simp only [ASt.step, Abs.step] at h3 h4 h5
  obtain ⟨⟨L, R, S⟩, tl⟩ := σ
  obtain ⟨hR1, hR2⟩ := ho
  simp only at h3 h4 h5 hR1 hR2
  generalize hr : R / 1024 = r at *
  have hr1 : 64 ≤ r := by omega
  have hx1 : 64 ≤ r * freq[i] := by
    have : 0 < freq[i] := hv.1
    nlinarith
  have hkk : ∃ k, k = nShift (r * freq[i]) := ⟨_, rfl⟩
  obtain ⟨k, hk⟩ := hkk
  rw [← hk] at h3 h4 h5
  have hp : 0 < 256 ^ k := by positivity
  have hd := headVal_div hb (S := S) (k := k) h3
  have hlo : L + r * (freq.take i).sum ≤ headVal buf S := by
    rw [← hd]; exact (Nat.le_div_iff_mul_le hp).2 h4
  have hhi : headVal buf S < L + r * (freq.take i).sum + r * freq[i] := by
    rw [← hd]; apply Nat.div_lt_of_lt_mul; rw [Nat.mul_comm, Nat.add_mul]; exact h5
  have hle : r * (freq.take i).sum + r * freq[i] ≤ r * 1024 := by
    rw [← Nat.mul_add]; exact Nat.mul_le_mul_left _ hts
  unfold acDecode decAc decRd
  simp only [ASt.step, Abs.step]
  have hs10 : R >>> 10 = r := by rw [Nat.shiftRight_eq_div_pow]; exact hr
  have hs10' : r <<< 10 = r * 1024 := by rw [Nat.shiftLeft_eq]
  rw [hs10, hs10', if_neg (by omega)]
  have hlen := hm.len
  simp only [usub, show 1 ≤ cum.length by omega, if_true, Res.bind_ok]
  rw [acFindSym_spec hm hi (by omega) (by rw [hsum, Nat.mul_add]; omega) _ (by omega) (by omega)]
  simp only [Res.bind_ok, hm.cum_eq hi, idx_eq_ok hi]
  rw [if_pos (by omega)]
  simp only [Res.bind_ok]
  have hsub : headVal buf S - L - r * (freq.take i).sum = headVal buf S - (L + r * (freq.take i).sum) := by omega
  rw [hsub, acDecRenorm_spec hb hx1 (by rw [← hk]; exact h3) hlo hhi (by rw [← hk]; exact h4)
    (by rw [← hk, Nat.add_mul]; exact h5)]
  simp only [Res.bind_ok]
  rw [hr]

theorem acDecInit_spec {buf : List Nat} (hroom : 3 ≤ buf.length) (tl : List Bool) :
    acDecInit buf ⟨0, tl.length⟩ = .ok (decAc buf ⟨Abs.init, tl⟩, decRd ⟨Abs.init, tl⟩) := by
  have h0 : 0 < buf.length := by omega
  have h1 : 1 < buf.length := by omega
  have h2 : 2 < buf.length := by omega
  unfold acDecInit Reader.readHeadU24
  simp only [Nat.zero_add, h2, if_true, idx_eq_ok h0, idx_eq_ok h1, idx_eq_ok h2, Res.bind_ok]
  unfold decAc decRd headVal Abs.init
  simp only [Nat.zero_add, Nat.sub_zero]
  congr 3
  have e3 : buf.take 3 = [buf[0], buf[1], buf[2]] := by
    rw [List.take_succ_eq_append_getElem h2, List.take_succ_eq_append_getElem h1,
      List.take_succ_eq_append_getElem h0]
    simp
  rw [e3]
  simp [beVal]

end Lc3
