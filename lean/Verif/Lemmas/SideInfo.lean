import Verif.Lemmas.TailFields
import Verif.Spec.Frame
/-! Side information: the writer as a list of bits, the reader on these bits. -/

namespace Lc3
open Tables

def tnsFlagBits (p : FrameParams) : List Bool := (p.rcOrder.take p.numTns).map (· != 0)

def scf2Bits (p : FrameParams) : List Bool :=
  [p.shapeJ >>> 1 != 0] ++
    (natBits (p.gind >>> SNS_GAIN_LSB_BITS.getD p.shapeJ 0) (SNS_GAIN_MSB_BITS.getD p.shapeJ 0) ++
      ([p.lsInda != 0] ++ natBits p.indexJoint (if p.shapeJ >>> 1 != 0 then 24 else 25)))

def ltpfBits (p : FrameParams) : List Bool :=
  if p.pitchPresent then [p.ltpfActive] ++ natBits p.pitchIndex 9 else []

/-- all bits of the side information in the order of writing -/
def sideBits (ne : Nat) (p : FrameParams) : List Bool :=
  natBits p.bandwidthInd p.nbitsBandwidth ++ (natBits (p.lastnz / 2 - 1) (clog2 (ne / 2)) ++ ([p.lsbMode] ++
    (natBits p.ggInd 8 ++ (tnsFlagBits p ++ ([p.pitchPresent] ++ (natBits p.indLf 5 ++ (natBits p.indHf 5 ++
      (scf2Bits p ++ (ltpfBits p ++ natBits p.noiseFactor 3)))))))))

theorem encTnsFlags_eq (l : List Nat) (s : EncSt) : encTnsFlags l s = encBools (l.map (· != 0)) s := by
  induction l generalizing s with
  | nil => rfl
  | cons o os ih => simp only [encTnsFlags, List.map_cons, encBools]; congr 1; funext s'; exact ih s'

theorem natBits_add (v a b : Nat) : natBits v (a + b) = natBits v a ++ natBits (v >>> a) b := by
  induction a generalizing v with
  | zero => simp [natBits]
  | succ a ih =>
    rw [show a + 1 + b = (a + b) + 1 by omega]
    simp only [natBits, List.cons_append]
    rw [ih, Nat.shiftRight_succ_inside]

theorem encBools_single (b : Bool) (s : EncSt) : encBools [b] s = s.bool b := by
  simp only [encBools]; cases s.bool b <;> rfl

theorem encScf2_eq (p : FrameParams) (s : EncSt) (h : p.shapeJ < 4) :
    encScf2 p s = encBools (scf2Bits p) s := by
  have h1 : p.shapeJ < SNS_GAIN_MSB_BITS.length := h
  have h2 : p.shapeJ < SNS_GAIN_LSB_BITS.length := h
  unfold encScf2 scf2Bits
  rw [idx_eq_ok h1, idx_eq_ok h2, List.getD_eq_getElem _ _ h1, List.getD_eq_getElem _ _ h2]
  simp only [Res.bind_ok, EncSt.uint_eq, encBools_append, encBools_single]
  congr 1; funext s1; congr 1; funext s2; congr 1; funext s3
  cases hb : (p.shapeJ >>> 1 != 0) with
  | true =>
    simp only [if_true, Bool.not_true, Bool.false_eq_true, if_false]
    rw [show natBits p.indexJoint 24 = _ from natBits_add p.indexJoint 12 12, encBools_append]
  | false =>
    simp only [if_true, Bool.not_false, Bool.false_eq_true, if_false]
    rw [show natBits p.indexJoint 25 = _ from natBits_add p.indexJoint 13 12, encBools_append]

theorem encSideInfo_eq {cfg : Lc3Config} {p : FrameParams} {q : PulseIdx} (h : SideOk cfg p q) (ne : Nat)
    (s : EncSt) : encSideInfo ne p s = encBools (sideBits ne p) s := by
  have hlo := h.lastnzLo
  have hbw : (if p.nbitsBandwidth > 0 then s.uint p.bandwidthInd p.nbitsBandwidth else .ok s) =
      encBools (natBits p.bandwidthInd p.nbitsBandwidth) s := by
    by_cases h0 : p.nbitsBandwidth > 0
    · rw [if_pos h0, EncSt.uint_eq]
    · rw [if_neg h0]
      have : p.nbitsBandwidth = 0 := by omega
      rw [this]; rfl
  have hsr : p.lastnz >>> 1 = p.lastnz / 2 := Nat.shiftRight_one _
  have hnum : p.numTns ≤ p.rcOrder.length := by
    rw [h.numTns, h.rcOrderLen]; split <;> omega
  unfold encSideInfo sideBits
  rw [hbw, hsr]
  simp only [usub, show 1 ≤ p.lastnz / 2 by omega, if_true, Res.bind_ok, hnum, EncSt.uint_eq, encBools_append,
    encBools_single, encTnsFlags_eq, encScf2_eq _ _ h.shape]
  congr 1; funext s1; congr 1; funext s2; congr 1; funext s3; congr 1; funext s4; congr 1; funext s5
  congr 1; funext s6; congr 1; funext s7; congr 1; funext s8; congr 1; funext s9
  unfold ltpfBits
  cases p.pitchPresent with
  | true => simp only [if_true, encBools_append, encBools_single]
  | false => simp only [Bool.false_eq_true, if_false, encBools]

/-! ### reading -/

/-- the five fields of the second stage for one of the two layouts -/
theorem readSns_fields {buf : List Nat} (hb : Bytes buf) {T lf hf gv J : Nat} {msb sgn : Bool}
    (h1 : lf < 32) (h2 : hf < 32) (h3 : gv < 2 ^ (if msb then 2 else 1))
    (h4 : J < 2 ^ (if msb then 24 else 25))
    (hT : T + 38 < 8 * buf.length)
    (ht : TailIs buf T (natBits lf 5 ++ (natBits hf 5 ++ ([msb] ++ (natBits gv (if msb then 2 else 1) ++
      ([sgn] ++ natBits J (if msb then 24 else 25))))))) :
    readSnsVq buf ⟨0, T⟩ = (unpackSns lf hf (if sgn then 1 else 0) msb gv J >>= fun v => .ok (v, ⟨0, T + 38⟩)) := by
  obtain ⟨t1, ht⟩ := ht.append
  obtain ⟨t2, ht⟩ := ht.append
  obtain ⟨t3, ht⟩ := ht.append
  obtain ⟨t4, ht⟩ := ht.append
  obtain ⟨t5, t6⟩ := ht.append
  simp only [natBits_length, List.length_singleton] at t2 t3 t4 t5 t6
  unfold readSnsVq
  rw [readField hb (by omega) h1 (by omega) (by omega) t1]
  simp only [Res.bind_ok]
  rw [readField hb (by omega) h2 (by omega) (by omega) t2]
  simp only [Res.bind_ok]
  rw [readFlag (by omega) t3.single]
  simp only [Res.bind_ok]
  cases msb with
  | true =>
    simp only [if_true] at t4 t5 t6 h3 h4 ⊢
    rw [readField hb (by omega) h3 (by omega) (by omega) t4]
    simp only [Res.bind_ok]
    rw [readFlag (by omega) t5.single]
    simp only [Res.bind_ok]
    rw [readField hb (by omega) h4 (by omega) (by omega) t6]
    simp only [Res.bind_ok]
  | false =>
    simp only [Bool.false_eq_true, if_false] at t4 t5 t6 h3 h4 ⊢
    rw [readField hb (by omega) h3 (by omega) (by omega) t4]
    simp only [Res.bind_ok]
    rw [readFlag (by omega) t5.single]
    simp only [Res.bind_ok]
    rw [readField hb (by omega) h4 (by omega) (by omega) t6]
    simp only [Res.bind_ok]

theorem scf2Bits_length (p : FrameParams) (h : p.shapeJ < 4) : (scf2Bits p).length = 28 := by
  unfold scf2Bits
  have hs : p.shapeJ = 0 ∨ p.shapeJ = 1 ∨ p.shapeJ = 2 ∨ p.shapeJ = 3 := by omega
  rcases hs with hs | hs | hs | hs <;> rw [hs] <;> simp [SNS_GAIN_MSB_BITS]

theorem readSnsVq_spec {cfg : Lc3Config} {p : FrameParams} {q : PulseIdx} (h : SideOk cfg p q)
    {buf : List Nat} (hb : Bytes buf) {T : Nat} (hT : T + 38 < 8 * buf.length)
    (ht : TailIs buf T (natBits p.indLf 5 ++ (natBits p.indHf 5 ++ scf2Bits p))) :
    readSnsVq buf ⟨0, T⟩ = .ok ((expectedSide p q).snsVq, ⟨0, T + 38⟩) := by
  have h1 := h.shape
  have h2 := h.idxa
  have h3 := h.idxb
  have h5 := h.gain
  have hjoint := h.joint
  have hsg := h.sign
  have hls : (if (p.lsInda != 0) = true then 1 else 0) = p.lsInda := by
    have : p.lsInda = 0 ∨ p.lsInda = 1 := by omega
    rcases this with e | e <;> rw [e] <;> rfl
  unfold jointIndex at hjoint
  rw [Nat.and_one_is_mod] at hjoint
  have hs : p.shapeJ = 0 ∨ p.shapeJ = 1 ∨ p.shapeJ = 2 ∨ p.shapeJ = 3 := by omega
  unfold scf2Bits at ht
  have hsh := h.shape
  unfold expectedSide
  rcases hs with hs | hs | hs | hs
  · rw [hs] at hjoint h2 h3 h5 ht ⊢
    obtain ⟨h6, h7⟩ := h3 rfl
    simp only [if_true] at hjoint h5
    norm_num at h2
    rw [readSns_fields hb (msb := false) (gv := p.gind) (sgn := p.lsInda != 0) h.lf h.hf
      (by norm_num; omega) (by norm_num; omega) hT ht, hls]
    unfold unpackSns
    have hq : p.indexJoint / 2390004 = 2 * q.idxb + q.lsIndb + 2 := by omega
    simp only [Bool.not_false, if_true, hq]
    rw [if_neg (by omega), if_neg (by omega)]
    simp only [Res.bind_ok, Nat.shiftRight_one, Nat.and_one_is_mod]
    congr 3 <;> omega
  · rw [hs] at hjoint h2 h3 h5 ht ⊢
    norm_num at h2 h5 hjoint
    have hg2 : p.gind % 2 = 0 ∨ p.gind % 2 = 1 := by omega
    rw [readSns_fields hb (msb := false) (gv := p.gind / 2) (sgn := p.lsInda != 0) h.lf h.hf
      (by norm_num; omega) (by norm_num; rcases hg2 with e | e <;> rw [e] at hjoint <;> omega) hT ht, hls]
    unfold unpackSns
    have hq : p.indexJoint / 2390004 = p.gind % 2 := by
      rcases hg2 with e | e <;> rw [e] at hjoint ⊢ <;> omega
    simp only [Bool.not_false, if_true, hq]
    rw [if_neg (by rcases hg2 with e | e <;> rw [e] at hjoint <;> omega), if_pos (by omega)]
    simp only [Res.bind_ok, Nat.shiftLeft_eq]
    congr 3
    · rcases hg2 with e | e <;> rw [e] at hjoint ⊢ <;> omega
    · omega
  · rw [hs] at hjoint h2 h3 h5 ht ⊢
    norm_num at h2 h5 hjoint
    rw [readSns_fields hb (msb := true) (gv := p.gind) (sgn := p.lsInda != 0) h.lf h.hf
      (by norm_num; omega) (by norm_num; omega) hT ht, hls]
    unfold unpackSns
    simp only [Bool.not_true, Bool.false_eq_true, if_false]
    rw [if_neg (by omega), if_neg (by omega)]
    simp only [Res.bind_ok]
    rw [hjoint]; rfl
  · rw [hs] at hjoint h2 h3 h5 ht ⊢
    norm_num at h2 h5 hjoint
    have hg2 : p.gind % 2 = 0 ∨ p.gind % 2 = 1 := by omega
    rw [readSns_fields hb (msb := true) (gv := p.gind / 2) (sgn := p.lsInda != 0) h.lf h.hf
      (by norm_num; omega) (by norm_num; omega) hT ht, hls]
    unfold unpackSns
    simp only [Bool.not_true, Bool.false_eq_true, if_false]
    rw [if_neg (by omega), if_pos (by omega)]
    simp only [Res.bind_ok, Nat.shiftRight_one, Nat.and_one_is_mod, Nat.shiftLeft_eq]
    have e1 : (p.indexJoint - 15158272) / 2 = q.idxa := by omega
    have e2 : (p.indexJoint - 15158272) % 2 = p.gind % 2 := by omega
    have e3 : p.gind / 2 * 2 ^ 1 + p.gind % 2 = p.gind := by omega
    rw [e1, e2, e3]; rfl

theorem readTnsFlags_spec {buf : List Nat} (l : List Nat) {T : Nat} (hT : T + l.length < 8 * buf.length)
    (ht : TailIs buf T (l.map (· != 0))) :
    readTnsFlags buf ⟨0, T⟩ l.length =
      .ok (l.map (fun o => if o = 0 then 0 else 1), ⟨0, T + l.length⟩) := by
  induction l generalizing T with
  | nil => rfl
  | cons o os ih =>
    have ht' : TailIs buf T ([o != 0] ++ os.map (· != 0)) := ht
    obtain ⟨t1, t2⟩ := ht'.append
    simp only [List.length_cons] at hT ⊢
    simp only [List.length_singleton] at t2
    unfold readTnsFlags
    rw [readFlag (by omega) t1.single]
    simp only [Res.bind_ok]
    rw [ih (by omega) t2]
    simp only [Res.bind_ok, List.map_cons]
    congr 2
    · congr 1
      by_cases ho : o = 0 <;> simp [ho]
    · congr 1; omega

theorem clog2_bounds {f : SamplingFrequency} {d : FrameDuration} :
    0 < clog2 ((Lc3Config.new f d).ne / 2) ∧ clog2 ((Lc3Config.new f d).ne / 2) ≤ 8 ∧
    (Lc3Config.new f d).ne / 2 ≤ 2 ^ clog2 ((Lc3Config.new f d).ne / 2) ∧
    (Lc3Config.new f d).ne % 2 = 0 ∧ (Lc3Config.new f d).fsInd < 5 := by
  cases f <;> cases d <;> decide

theorem readSideInfo_spec {f : SamplingFrequency} {d : FrameDuration} {p : FrameParams} {q : PulseIdx}
    (h : SideOk (Lc3Config.new f d) p q) {buf : List Nat} (hb : Bytes buf)
    (hT : (sideBits (Lc3Config.new f d).ne p).length < 8 * buf.length)
    (ht : TailIs buf 0 (sideBits (Lc3Config.new f d).ne p)) :
    readSideInfo buf Reader.new (Lc3Config.new f d).fsInd (Lc3Config.new f d).ne =
      .ok (expectedSide p q, ⟨0, (sideBits (Lc3Config.new f d).ne p).length⟩) := by
  obtain ⟨c1, c2, c3, c4, c5⟩ := clog2_bounds (f := f) (d := d)
  generalize hcfg : Lc3Config.new f d = cfg at *
  have hlz1 := h.lastnzEven
  have hlz2 := h.lastnzLo
  have hlz3 := h.lastnzHi
  have hbwle := h.bw
  have hnt := h.numTns
  have hro := h.rcOrderLen
  have hl2 := scf2Bits_length p h.shape
  have hlf : (tnsFlagBits p).length = p.numTns := by
    unfold tnsFlagBits; simp [hro]; rw [hnt]; split <;> omega
  have hlen : (sideBits cfg.ne p).length = p.nbitsBandwidth + (clog2 (cfg.ne / 2) + (1 + (8 + (p.numTns + (1 + (5 + (5 +
      (28 + ((ltpfBits p).length + 3))))))))) := by
    unfold sideBits; simp only [List.length_append, natBits_length, List.length_singleton, hl2, hlf]
  rw [hlen] at hT ⊢
  unfold sideBits at ht
  obtain ⟨t1, ht⟩ := ht.append
  obtain ⟨t2, ht⟩ := ht.append
  obtain ⟨t3, ht⟩ := ht.append
  obtain ⟨t4, ht⟩ := ht.append
  obtain ⟨t5, ht⟩ := ht.append
  obtain ⟨t6, ht⟩ := ht.append
  rw [← List.append_assoc, ← List.append_assoc] at ht
  obtain ⟨t7, ht⟩ := ht.append
  rw [List.append_assoc] at t7
  obtain ⟨t8, t9⟩ := ht.append
  simp only [natBits_length, List.length_singleton, List.length_append, hlf, hl2] at t2 t3 t4 t5 t6 t7 t8 t9
  -- bandwidth
  have hbwr : readBandwidth buf Reader.new cfg.fsInd = .ok (p.bandwidthInd, ⟨0, p.nbitsBandwidth⟩) := by
    have hi : idx NBITS_BW_TABLE cfg.fsInd = .ok p.nbitsBandwidth := idx_ok_iff.2 h.bwBits
    have htab := h.bwBits
    unfold readBandwidth
    rw [hi]
    simp only [Res.bind_ok]
    have hf : cfg.fsInd = 0 ∨ cfg.fsInd = 1 ∨ cfg.fsInd = 2 ∨ cfg.fsInd = 3 ∨ cfg.fsInd = 4 := by omega
    have hcase : (p.nbitsBandwidth = 0 ∧ cfg.fsInd = 0) ∨ (0 < p.nbitsBandwidth ∧ p.nbitsBandwidth < 8 ∧
        p.bandwidthInd < 2 ^ p.nbitsBandwidth) := by
      rcases hf with e | e | e | e | e <;> rw [e] at htab hbwle <;>
        simp [NBITS_BW_TABLE] at htab <;> rw [← htab] <;> norm_num <;> omega
    rcases hcase with ⟨e0, e1⟩ | ⟨e0, e1, e2⟩
    · rw [if_neg (by omega)]
      have : p.bandwidthInd = 0 := by omega
      rw [this, e0]; rfl
    · rw [if_pos e0]
      have := readField hb e0 e2 (by omega) (by omega) t1
      rw [Nat.zero_add] at this
      unfold Reader.new
      rw [this]
      simp only [Res.bind_ok]
      rw [if_neg (by omega)]
  unfold readSideInfo
  rw [hbwr]
  simp only [Res.bind_ok]
  rw [Nat.zero_add] at t2
  rw [readField hb c1 (by omega) (by omega) (by omega) t2]
  simp only [Res.bind_ok]
  have hlz : (p.lastnz / 2 - 1 + 1) <<< 1 = p.lastnz := by rw [Nat.shiftLeft_eq]; omega
  rw [hlz, if_neg (by omega)]
  simp only [Nat.zero_add] at t3 t4 t5 t6 t7 t8 t9
  rw [readFlag (by omega) t3.single]
  simp only [Res.bind_ok]
  rw [readField hb (by omega) h.gg (by omega) (by omega) t4]
  simp only [Res.bind_ok]
  rw [← hnt]
  have hlt : (p.rcOrder.take p.numTns).length = p.numTns := by simp [hro]; rw [hnt]; split <;> omega
  have hflags := readTnsFlags_spec (buf := buf) (p.rcOrder.take p.numTns) (by rw [hlt]; omega) t5
  rw [hlt] at hflags
  rw [hflags]
  simp only [Res.bind_ok]
  rw [readFlag (by omega) t6.single]
  simp only [Res.bind_ok]
  rw [readSnsVq_spec h hb (by omega) t7]
  simp only [Res.bind_ok]
  have hltpf : readLtpfInfo buf ⟨0, p.nbitsBandwidth + clog2 (cfg.ne / 2) + 1 + 8 + p.numTns + 1 + 38⟩
      p.pitchPresent = .ok ((expectedSide p q).ltpf,
        ⟨0, p.nbitsBandwidth + clog2 (cfg.ne / 2) + 1 + 8 + p.numTns + 1 + 38 + (ltpfBits p).length⟩) := by
    unfold readLtpfInfo expectedSide
    unfold ltpfBits at t8 hT ⊢
    cases hpp : p.pitchPresent with
    | false => simp
    | true =>
      simp only [hpp, if_true] at t8 hT ⊢
      obtain ⟨u1, u2⟩ := t8.append
      simp only [List.length_append, natBits_length, List.length_singleton] at hT u2 ⊢
      rw [readFlag (by omega) u1.single]
      simp only [Res.bind_ok]
      rw [readField hb (by omega) h.pitch (by omega) (by omega) u2]
      simp only [Res.bind_ok]
  rw [hltpf]
  simp only [Res.bind_ok]
  rw [readField hb (by omega) h.noise (by omega) (by omega) t9]
  simp only [Res.bind_ok]
  rw [if_pos (by omega)]
  unfold expectedSide
  congr 3
  omega

end Lc3
