import Verif.Lemmas.Safe
import Verif.Lemmas.TableFacts
import Verif.Lemmas.DecStep
import Verif.Lemmas.PairEvents
import Verif.Model.ReadFrame
/-! The parser and the arithmetic decoder on arbitrary bytes: no panic (C06, C28). -/

namespace Lc3
open Tables

/-- bytes `read_tail_usize` needs for `n` bits at position `tail` -/
def bytesFor (tail n : Nat) : Nat :=
  n / 8 + if n > 8 - tail % 8 ∧ n < 8 then 2 else 1

theorem safe_readTailUsize {buf : List Nat} {r : Reader} {n : Nat} (h1 : 1 ≤ n) (h2 : n ≤ 25) :
    Safe (r.readTailUsize buf n) (fun p => p.2 = ⟨r.head, r.tail + n⟩ ∧ p.1 < 2 ^ n ∧
      r.head + r.tail / 8 + bytesFor r.tail n ≤ buf.length) := by
  unfold Reader.readTailUsize
  have hb : n / 8 + (if n > 8 - r.tail % 8 ∧ n < 8 then 2 else 1) = bytesFor r.tail n := rfl
  simp only [hb]
  apply Safe.ite
  · intro _; trivial
  · intro h
    refine (safe_usub (by omega)).bind ?_
    rintro _ rfl
    refine (safe_usub (by omega)).bind ?_
    rintro _ rfl
    rw [if_neg (by omega)]
    refine ⟨rfl, ?_, by omega⟩
    rw [Nat.shiftRight_eq_div_pow]
    apply Nat.div_lt_of_lt_mul
    have e : 2 ^ (32 - (n + r.tail % 8) + r.tail % 8) * 2 ^ n = 2 ^ 32 := by
      rw [← Nat.pow_add]; congr 1; omega
    rw [e]
    exact Nat.mod_lt _ (by norm_num)

theorem safe_readTailBool {buf : List Nat} {r : Reader}
    (h : r.tail < 8 * buf.length ∨ buf.length + 3 ≤ r.head + r.tail / 8) :
    Safe (r.readTailBool buf) (fun p => p.2 = ⟨r.head, r.tail + 1⟩ ∧ r.tail < 8 * buf.length) := by
  unfold Reader.readTailBool
  apply Safe.ite
  · intro _; trivial
  · intro hn
    refine (safe_usub (by omega)).bind ?_
    rintro _ rfl
    refine (safe_idx (by omega)).bind ?_
    rintro _ rfl
    exact ⟨rfl, by omega⟩

/-- what the parser guarantees for the side information it accepts -/
structure SideBounds (cfg : Lc3Config) (si : SideInfo) : Prop where
  bw : si.bandwidth ≤ cfg.fsInd
  bw4 : si.bandwidth ≤ 4
  lastnzEven : si.lastnz % 2 = 0
  lastnzLo : 2 ≤ si.lastnz
  lastnzHi : si.lastnz ≤ cfg.ne
  gg : si.globalGainIndex < 256
  numTns : si.numTnsFilters = if si.bandwidth < 3 then 1 else 2
  rcLen : si.rcOrderIn.length = 2
  rcFlag : ∀ o ∈ si.rcOrderIn, o ≤ 1
  lf : si.snsVq.indLf < 32
  hf : si.snsVq.indHf < 32
  sa : si.snsVq.lsInda ≤ 1
  sb : si.snsVq.lsIndb ≤ 1
  lsb : si.snsVq.submodeLsb ≤ 1
  msb : si.snsVq.submodeMsb ≤ 1
  gain : si.snsVq.gInd <
    (if si.snsVq.submodeMsb = 0 then (if si.snsVq.submodeLsb = 0 then 2 else 4)
     else (if si.snsVq.submodeLsb = 0 then 4 else 8))
  idxA : si.snsVq.idxA < (if si.snsVq.submodeMsb = 0 then 2390004
     else if si.snsVq.submodeLsb = 0 then 15158272 else 774912)
  idxB : si.snsVq.idxB < 6
  pitch : si.ltpf.pitchIndex < 512
  noise : si.noiseFactor < 8

/-- what `unpack` guarantees -/
structure SnsBounds (v : SnsVq) : Prop where
  lf : v.indLf < 32
  hf : v.indHf < 32
  sa : v.lsInda ≤ 1
  sb : v.lsIndb ≤ 1
  lsb : v.submodeLsb ≤ 1
  msb : v.submodeMsb ≤ 1
  gain : v.gInd < (if v.submodeMsb = 0 then (if v.submodeLsb = 0 then 2 else 4)
     else (if v.submodeLsb = 0 then 4 else 8))
  idxA : v.idxA < (if v.submodeMsb = 0 then 2390004 else if v.submodeLsb = 0 then 15158272 else 774912)
  idxB : v.idxB < 6

theorem unpackSns_bounds {lf hf sa g tmp : Nat} {msb : Bool} (h1 : lf < 32) (h2 : hf < 32) (h3 : sa ≤ 1)
    (h4 : g < if msb then 4 else 2) : Safe (unpackSns lf hf sa msb g tmp) SnsBounds := by
  unfold unpackSns
  cases msb
  · simp only [Bool.not_false, if_true] at h4 ⊢
    apply Safe.ite
    · intro _; trivial
    · intro h
      have hq : tmp / 2390004 < 14 := by omega
      apply Safe.ite
      · intro hq2
        refine ⟨h1, h2, h3, by simp, by simp, by simp, ?_, ?_, by simp⟩
        · simp only [Nat.shiftLeft_eq]; simp at h4; simp; omega
        · simp; omega
      · intro hq2
        refine ⟨h1, h2, h3, ?_, by simp, by simp, ?_, ?_, ?_⟩
        · simp only; exact Nat.and_le_right
        · simpa using h4
        · simp; omega
        · simp only [Nat.shiftRight_eq_div_pow]; omega
  · simp only [Bool.not_true, if_true] at h4 ⊢
    apply Safe.ite
    · intro h; exact absurd h (by simp)
    intro _
    apply Safe.ite
    · intro _; trivial
    · intro h
      apply Safe.ite
      · intro hq2
        refine ⟨h1, h2, h3, by simp, by simp, by simp, ?_, ?_, by simp⟩
        · have h5 : tmp - 15158272 &&& 1 ≤ 1 := Nat.and_le_right
          simp only [Nat.shiftLeft_eq]; simp
          generalize tmp - 15158272 &&& 1 = q at h5
          omega
        · simp only [Nat.shiftRight_eq_div_pow]; simp; omega
      · intro hq2
        exact ⟨h1, h2, h3, by simp, by simp, by simp, by simpa using h4, by simp; omega, by simp⟩

/-! ### side information -/

theorem safe_readSnsVq {buf : List Nat} {T : Nat}
    (hA : (T + 5) / 8 + bytesFor (T + 5) 5 ≤ buf.length → T + 10 < 8 * buf.length)
    (hB1 : (T + 11) / 8 + bytesFor (T + 11) 1 ≤ buf.length → T + 12 < 8 * buf.length)
    (hB2 : (T + 11) / 8 + bytesFor (T + 11) 2 ≤ buf.length → T + 13 < 8 * buf.length) :
    Safe (readSnsVq buf ⟨0, T⟩) (fun p => SnsBounds p.1 ∧ p.2 = ⟨0, T + 38⟩ ∧
      ((T + 13) / 8 + bytesFor (T + 13) 25 ≤ buf.length ∨ (T + 14) / 8 + bytesFor (T + 14) 24 ≤ buf.length)) := by
  unfold readSnsVq
  refine (safe_readTailUsize (by omega) (by omega)).bind ?_
  rintro ⟨lf, r⟩ ⟨hr, hlf, _⟩
  simp only at hr hlf ⊢
  subst hr
  refine (safe_readTailUsize (by omega) (by omega)).bind ?_
  rintro ⟨hf, r⟩ ⟨hr, hhf, hl⟩
  simp only [Nat.add_assoc, Nat.reduceAdd, Nat.zero_add] at hr hhf hl ⊢
  subst hr
  refine (safe_readTailBool (.inl (hA hl))).bind ?_
  rintro ⟨msb, r⟩ ⟨hr, _⟩
  simp only [Nat.add_assoc, Nat.reduceAdd] at hr ⊢
  subst hr
  refine (safe_readTailUsize (by split <;> omega) (by split <;> omega)).bind ?_
  rintro ⟨g, r⟩ ⟨hr, hg, hl⟩
  simp only [Nat.add_assoc, Nat.reduceAdd, Nat.zero_add] at hr hg hl ⊢
  subst hr
  cases msb with
  | false =>
    simp only [Bool.false_eq_true, if_false, Nat.reduceAdd] at hl hg ⊢
    refine (safe_readTailBool (.inl (hB1 hl))).bind ?_
    rintro ⟨sa, r⟩ ⟨hr, _⟩
    simp only [Nat.add_assoc, Nat.reduceAdd] at hr ⊢
    subst hr
    refine (safe_readTailUsize (by omega) (by omega)).bind ?_
    rintro ⟨tmp, r⟩ ⟨hr, _, hl⟩
    simp only [Nat.add_assoc, Nat.reduceAdd, Nat.zero_add] at hr hl ⊢
    subst hr
    refine (unpackSns_bounds hlf hhf (by split <;> omega) (by simpa using hg)).bind ?_
    intro v hv
    exact ⟨hv, rfl, .inl hl⟩
  | true =>
    simp only [if_true, Nat.reduceAdd] at hl hg ⊢
    refine (safe_readTailBool (.inl (hB2 hl))).bind ?_
    rintro ⟨sa, r⟩ ⟨hr, _⟩
    simp only [Nat.add_assoc, Nat.reduceAdd] at hr ⊢
    subst hr
    refine (safe_readTailUsize (by omega) (by omega)).bind ?_
    rintro ⟨tmp, r⟩ ⟨hr, _, hl⟩
    simp only [Nat.add_assoc, Nat.reduceAdd, Nat.zero_add] at hr hl ⊢
    subst hr
    refine (unpackSns_bounds hlf hhf (by split <;> omega) (by simpa using hg)).bind ?_
    intro v hv
    exact ⟨hv, rfl, .inr hl⟩

theorem safe_readLtpfInfo {buf : List Nat} {T : Nat} (pp : Bool) (h : T < 8 * buf.length) :
    Safe (readLtpfInfo buf ⟨0, T⟩ pp) (fun p => p.1.pitchIndex < 512 ∧ p.2.head = 0 ∧ T ≤ p.2.tail) := by
  unfold readLtpfInfo
  cases pp with
  | false => exact ⟨by simp, rfl, le_refl _⟩
  | true =>
    simp only [if_true]
    refine (safe_readTailBool (.inl h)).bind ?_
    rintro ⟨a, r⟩ ⟨hr, _⟩
    simp only at hr ⊢
    subst hr
    refine (safe_readTailUsize (by omega) (by omega)).bind ?_
    rintro ⟨v, r⟩ ⟨hr, hv, _⟩
    simp only at hr hv ⊢
    subst hr
    refine ⟨by simpa using hv, rfl, ?_⟩
    simp only; omega

theorem safe_readTnsFlags {buf : List Nat} (n : Nat) {T : Nat} (h : T + n ≤ 8 * buf.length) :
    Safe (readTnsFlags buf ⟨0, T⟩ n) (fun p => p.1.length = n ∧ (∀ o ∈ p.1, o ≤ 1) ∧ p.2 = ⟨0, T + n⟩) := by
  induction n generalizing T with
  | zero => exact ⟨rfl, by simp, rfl⟩
  | succ n ih =>
    unfold readTnsFlags
    refine (safe_readTailBool (.inl (by simp only; omega))).bind ?_
    rintro ⟨b, r⟩ ⟨hr, _⟩
    simp only at hr ⊢
    subst hr
    refine (ih (by omega)).bind ?_
    rintro ⟨l, r⟩ ⟨h1, h2, h3⟩
    simp only at h1 h2 h3 ⊢
    refine ⟨by simp [h1], ?_, ?_⟩
    · intro o ho
      rcases List.mem_cons.1 ho with rfl | ho
      · split <;> omega
      · exact h2 o ho
    · rw [h3]; simp only [Reader.mk.injEq, true_and]; omega

/-- no flag of the side information of an `len` byte frame is read from beyond its start; `nb`, `L`, `n` are the
widths of the bandwidth and length fields and the number of noise shaping flags -/
structure SideCond (nb L n len : Nat) : Prop where
  lsb : nb / 8 + bytesFor nb L ≤ len → nb + L < 8 * len
  flags : (nb + L + 1) / 8 + bytesFor (nb + L + 1) 8 ≤ len → nb + L + 9 + n < 8 * len
  msb : (nb + L + 10 + n + 5) / 8 + bytesFor (nb + L + 10 + n + 5) 5 ≤ len → nb + L + 10 + n + 10 < 8 * len
  sign1 : (nb + L + 10 + n + 11) / 8 + bytesFor (nb + L + 10 + n + 11) 1 ≤ len →
    nb + L + 10 + n + 12 < 8 * len
  sign2 : (nb + L + 10 + n + 11) / 8 + bytesFor (nb + L + 10 + n + 11) 2 ≤ len →
    nb + L + 10 + n + 13 < 8 * len
  ltpf1 : (nb + L + 10 + n + 13) / 8 + bytesFor (nb + L + 10 + n + 13) 25 ≤ len →
    nb + L + 10 + n + 38 < 8 * len
  ltpf2 : (nb + L + 10 + n + 14) / 8 + bytesFor (nb + L + 10 + n + 14) 24 ≤ len →
    nb + L + 10 + n + 38 < 8 * len

theorem safe_readBandwidth {buf : List Nat} {cfg : Lc3Config} (hfs : cfg.fsInd ≤ 4) :
    Safe (readBandwidth buf Reader.new cfg.fsInd)
      (fun p => p.1 ≤ cfg.fsInd ∧ p.2 = ⟨0, NBITS_BW_TABLE.getD cfg.fsInd 0⟩) := by
  unfold readBandwidth
  have hl : cfg.fsInd < NBITS_BW_TABLE.length := by simp [NBITS_BW_TABLE]; omega
  refine (safe_idx hl).bind ?_
  rintro _ rfl
  have hg : NBITS_BW_TABLE[cfg.fsInd] = NBITS_BW_TABLE.getD cfg.fsInd 0 := by
    rw [List.getD_eq_getElem _ _ hl]
  have h3 : NBITS_BW_TABLE[cfg.fsInd] ≤ 3 := by
    have : ∀ x ∈ NBITS_BW_TABLE, x ≤ 3 := by decide
    exact this _ (List.getElem_mem hl)
  rw [hg] at h3 ⊢
  apply Safe.ite
  · intro h0
    refine (safe_readTailUsize (by omega) (by omega)).bind ?_
    rintro ⟨v, r⟩ ⟨hr, _, _⟩
    simp only at hr ⊢
    subst hr
    apply Safe.ite
    · intro _; trivial
    · intro h; exact ⟨by simp only; omega, by simp [Reader.new]⟩
  · intro h0
    exact ⟨Nat.zero_le _, by unfold Reader.new; rw [show NBITS_BW_TABLE.getD cfg.fsInd 0 = 0 by omega]⟩

theorem safe_readSideInfo {buf : List Nat} {cfg : Lc3Config} {nb L : Nat} (hfs : cfg.fsInd ≤ 4)
    (hnb : NBITS_BW_TABLE.getD cfg.fsInd 0 = nb) (hL : clog2 (cfg.ne / 2) = L) (hL1 : 1 ≤ L) (hL2 : L ≤ 8)
    (h1 : SideCond nb L 1 buf.length) (h2 : 3 ≤ cfg.fsInd → SideCond nb L 2 buf.length) :
    Safe (readSideInfo buf Reader.new cfg.fsInd cfg.ne)
      (fun p => SideBounds cfg p.1 ∧ p.2.head = 0 ∧ 16 ≤ p.2.tail) := by
  unfold readSideInfo
  refine (safe_readBandwidth hfs).bind ?_
  rintro ⟨bw, r⟩ ⟨hbw, hr⟩
  rw [hnb] at hr
  simp only at hbw hr ⊢
  subst hr
  rw [hL]
  refine (safe_readTailUsize hL1 (by omega)).bind ?_
  rintro ⟨lz, r⟩ ⟨hr, _, hl⟩
  simp only [Nat.zero_add] at hr hl ⊢
  subst hr
  apply Safe.ite
  · intro _; trivial
  intro hlz
  have hlz' : (lz + 1) <<< 1 = 2 * (lz + 1) := by rw [Nat.shiftLeft_eq]; omega
  refine (safe_readTailBool (.inl (h1.lsb hl))).bind ?_
  rintro ⟨lsb, r⟩ ⟨hr, _⟩
  simp only at hr ⊢
  subst hr
  refine (safe_readTailUsize (by omega) (by omega)).bind ?_
  rintro ⟨gg, r⟩ ⟨hr, hgg, hl⟩
  simp only [Nat.zero_add] at hr hgg hl ⊢
  subst hr
  obtain ⟨n, hn⟩ : ∃ n, n = if bw < 3 then 1 else 2 := ⟨_, rfl⟩
  have hc : SideCond nb L n buf.length := by
    rw [hn]
    split
    · exact h1
    · exact h2 (by omega)
  have hn12 : n = 1 ∨ n = 2 := by rw [hn]; split <;> simp
  have hflags := hc.flags hl
  rw [← hn]
  refine (safe_readTnsFlags n (by omega)).bind ?_
  rintro ⟨fl, r⟩ ⟨hfl, hfl2, hr⟩
  simp only at hr hfl hfl2 ⊢
  subst hr
  refine (safe_readTailBool (.inl (by simp only; omega))).bind ?_
  rintro ⟨pp, r⟩ ⟨hr, _⟩
  simp only at hr ⊢
  subst hr
  have eT : nb + L + 1 + 8 + n + 1 = nb + L + 10 + n := by omega
  rw [eT]
  refine (safe_readSnsVq hc.msb hc.sign1 hc.sign2).bind ?_
  rintro ⟨sns, r⟩ ⟨hs, hr, hl⟩
  simp only at hr hs hl ⊢
  subst hr
  refine (safe_readLtpfInfo pp (hl.elim hc.ltpf1 hc.ltpf2)).bind ?_
  rintro ⟨lt, r⟩ ⟨hp, hr, ht⟩
  simp only at hp hr ht ⊢
  refine (safe_readTailUsize (by omega) (by omega)).bind ?_
  rintro ⟨nf, r'⟩ ⟨hr', hnf, _⟩
  simp only at hr' hnf ⊢
  rw [if_pos (show bw ≤ 4 by omega)]
  refine ⟨?_, ?_, ?_⟩
  · refine ⟨hbw, by simp only; omega, by simp only; omega, by simp only; omega, by simp only; omega, by simpa using hgg,
      hn, ?_, ?_, hs.lf, hs.hf, hs.sa, hs.sb, hs.lsb, hs.msb, hs.gain, hs.idxA, hs.idxB, hp, by simpa using hnf⟩
    · simp only [List.length_append, hfl, List.length_replicate]; omega
    · intro o ho
      simp only at ho
      rcases List.mem_append.1 ho with h | h
      · exact hfl2 o h
      · rw [List.eq_of_mem_replicate h]; omega
  · rw [hr']; exact hr
  · rw [hr']; simp only; omega

/-! ### arithmetic decoder -/

/-- state of the range decoder: positive, normalised range -/
structure DecOk (st : AcDec) : Prop where
  lo : 65536 ≤ st.range
  hi : st.range < 16777216

theorem safe_acFindSym {low tmp : Nat} {cum : List Nat} (h0 : cum[0]? = some 0) (v : Nat) (hv : v < cum.length) :
    Safe (acFindSym low tmp cum v) (fun k => k ≤ v ∧ ∀ c, cum[k]? = some c → tmp * c ≤ low) := by
  induction v with
  | zero =>
    unfold acFindSym
    rw [idx_ok_iff.2 h0]
    simp only [Res.bind_ok, Nat.mul_zero, Nat.not_lt_zero, if_false]
    refine ⟨le_refl _, ?_⟩
    intro c hc
    rw [h0] at hc
    cases hc; simp
  | succ v ih =>
    unfold acFindSym
    rw [idx_eq_ok hv]
    simp only [Res.bind_ok]
    apply Safe.ite
    · intro _; exact (ih (by omega)).mono (fun a h => ⟨by omega, h.2⟩)
    · intro h
      refine ⟨le_refl _, ?_⟩
      intro c hc
      rw [List.getElem?_eq_getElem hv, Option.some.injEq] at hc
      subst hc; omega

theorem safe_acDecRenorm {buf : List Nat} {r : Reader} {st : AcDec} (h1 : 64 ≤ st.range) (h2 : st.range < 16777216) :
    Safe (acDecRenorm buf 3 r st) (fun p => DecOk p.1 ∧ p.2.tail = r.tail ∧ r.head ≤ p.2.head) := by
  have byte : ∀ r : Reader, Safe (r.readHeadByte buf) (fun p => p.2 = ⟨r.head + 1, r.tail⟩) := by
    intro r
    unfold Reader.readHeadByte
    cases buf[r.head]? <;> simp [Safe]
  rw [acDecRenorm.eq_def]
  apply Safe.ite
  · intro h
    refine (byte r).bind ?_
    rintro ⟨b, r1⟩ hr1
    simp only at hr1 ⊢
    subst hr1
    rw [acDecRenorm.eq_def]
    simp only [Nat.shiftLeft_eq] at *
    apply Safe.ite
    · intro h'
      refine (byte _).bind ?_
      rintro ⟨b, r2⟩ hr2
      simp only at hr2 ⊢
      subst hr2
      rw [acDecRenorm.eq_def]
      simp only at *
      rw [if_neg (by omega)]
      exact ⟨⟨by simp only; omega, Nat.mul_lt_mul_of_pos_right (k := 2 ^ 8) h' (by norm_num)⟩, rfl, by simp only; omega⟩
    · intro h'
      exact ⟨⟨by simp only; omega, by simp only; omega⟩, rfl, by simp only; omega⟩
  · intro h; exact ⟨⟨by simp only; omega, h2⟩, rfl, le_refl _⟩

theorem safe_acDecode {buf : List Nat} {r : Reader} {st : AcDec} {cum freq : List Nat}
    (hm : ProperModel cum freq) (hst : DecOk st) :
    Safe (acDecode buf r st cum freq)
      (fun p => p.1 < freq.length ∧ DecOk p.2.1 ∧ p.2.2.tail = r.tail ∧ r.head ≤ p.2.2.head) := by
  unfold acDecode
  have hne : freq ≠ [] := by
    rintro rfl; have := hm.total; simp at this
  have hlen : 0 < freq.length := List.length_pos_iff.2 hne
  have hlc := hm.len
  have h0 : cum[0]? = some 0 := by have := hm.prefixSums 0 hlen; simpa using this
  apply Safe.ite
  · intro _; trivial
  intro hlim
  refine (safe_usub (by omega)).bind ?_
  rintro _ rfl
  refine (safe_acFindSym h0 _ (by omega)).bind ?_
  intro v hv
  have hvl : v < cum.length := by omega
  refine (safe_idx hvl).bind ?_
  rintro _ rfl
  refine (safe_idx (show v < freq.length by omega)).bind ?_
  rintro _ rfl
  refine (safe_usub (hv.2 _ (List.getElem?_eq_getElem hvl))).bind ?_
  rintro _ rfl
  have hpos := hm.pos _ (List.getElem_mem (show v < freq.length by omega))
  have hle : freq[v] ≤ 1024 := by
    have h1 := take_sum_succ freq (show v < freq.length by omega)
    have h2 := take_sum_le freq (v + 1)
    have := hm.total
    omega
  obtain ⟨hst1, hst2⟩ := hst
  have hr1 : 64 ≤ st.range >>> 10 := by rw [Nat.shiftRight_eq_div_pow]; omega
  have hr2 : st.range >>> 10 * 1024 ≤ st.range := by rw [Nat.shiftRight_eq_div_pow]; omega
  refine (safe_acDecRenorm (st := ⟨_, st.range >>> 10 * freq[v]⟩) ?_ ?_).bind ?_
  · show 64 ≤ st.range >>> 10 * freq[v]
    calc 64 = 64 * 1 := rfl
      _ ≤ _ := Nat.mul_le_mul hr1 hpos
  · show st.range >>> 10 * freq[v] < _
    have := Nat.mul_le_mul_left (st.range >>> 10) hle
    omega
  · rintro ⟨st', r'⟩ ⟨a, b, c⟩
    exact ⟨by simp only; omega, a, b, c⟩

/-- the reader is past the first three bytes -/
def Past (r : Reader) : Prop := 3 ≤ r.head

theorem Past.bool {buf : List Nat} {r : Reader} (h : Past r) :
    Safe (r.readTailBool buf) (fun p => p.2 = ⟨r.head, r.tail + 1⟩ ∧ r.tail < 8 * buf.length) := by
  apply safe_readTailBool
  unfold Past at h
  omega

/-- after `r` the reader has only moved forward -/
def After (r r' : Reader) : Prop := r.head ≤ r'.head ∧ r.tail ≤ r'.tail

theorem After.refl (r : Reader) : After r r := ⟨le_refl _, le_refl _⟩
theorem After.trans {a b c : Reader} (h : After a b) (h' : After b c) : After a c :=
  ⟨h.1.trans h'.1, h.2.trans h'.2⟩
theorem After.past {a b : Reader} (h : After a b) (h' : Past a) : Past b := le_trans h' h.1

theorem safe_acDecInit {buf : List Nat} {r : Reader} :
    Safe (acDecInit buf r) (fun p => DecOk p.1 ∧ After r p.2 ∧ Past p.2) := by
  unfold acDecInit Reader.readHeadU24
  by_cases h : r.head + 2 < buf.length
  · rw [if_pos h, idx_eq_ok (by omega), idx_eq_ok (by omega), idx_eq_ok h]
    refine ⟨⟨by norm_num, by norm_num⟩, ⟨?_, ?_⟩, ?_⟩
    · simp only; omega
    · exact le_refl _
    · unfold Past; simp only; omega
  · rw [if_neg h]; trivial

theorem safe_decodeTnsCoefs {buf : List Nat} (n : Nat) {k : Nat} (hk : k + n ≤ 8) {r : Reader} {st : AcDec}
    (hst : DecOk st) :
    Safe (decodeTnsCoefs buf r st k n)
      (fun p => p.1.length = n ∧ (∀ c ∈ p.1, c < 17) ∧ DecOk p.2.1 ∧ After r p.2.2) := by
  induction n generalizing k r st with
  | zero => exact ⟨rfl, by simp, hst, After.refl _⟩
  | succ n ih =>
    unfold decodeTnsCoefs
    have h1 : k < AC_TNS_COEF_CUMFREQ.length := by rw [tnsCoef_cum_len]; omega
    have h2 : k < AC_TNS_COEF_FREQ.length := by rw [tnsCoef_freq_len]; omega
    rw [idx_eq_ok h1, idx_eq_ok h2]
    simp only [Res.bind_ok]
    have hp := tnsCoef_proper h1 h2
    refine (safe_acDecode hp.1 hst).bind ?_
    rintro ⟨v, st', r'⟩ ⟨a1, a2, a3, a4⟩
    simp only at a1 a2 a3 a4 ⊢
    refine (ih (by omega) a2).bind ?_
    rintro ⟨l, st'', r''⟩ ⟨b1, b2, b3, b4⟩
    simp only at b1 b2 b3 b4 ⊢
    refine ⟨by simp [b1], ?_, b3, After.trans ⟨a4, le_of_eq a3.symm⟩ b4⟩
    intro c hc
    rcases List.mem_cons.1 hc with rfl | hc
    · omega
    · exact b2 c hc

theorem safe_decodeTnsFilters {buf : List Nat} {w : Nat} (hw : w < 2) (os : List Nat) {r : Reader} {st : AcDec}
    (hst : DecOk st) :
    Safe (decodeTnsFilters buf w r st os)
      (fun p => p.1.length = os.length ∧ (∀ f ∈ p.1, f.1 ≤ 8 ∧ f.2.length = 8 ∧ ∀ c ∈ f.2, c < 17) ∧
        DecOk p.2.1 ∧ After r p.2.2) := by
  induction os generalizing r st with
  | nil => exact ⟨rfl, by simp, hst, After.refl _⟩
  | cons o os ih =>
    unfold decodeTnsFilters
    have h1 : w < AC_TNS_ORDER_CUMFREQ.length := by rw [tnsOrder_cum_len]; omega
    have h2 : w < AC_TNS_ORDER_FREQ.length := by rw [tnsOrder_freq_len]; omega
    apply Safe.ite
    · intro _
      rw [idx_eq_ok h1, idx_eq_ok h2]
      simp only [Res.bind_ok]
      have hp := tnsOrder_proper h1 h2
      refine (safe_acDecode hp.1 hst).bind ?_
      rintro ⟨v, st', r'⟩ ⟨a1, a2, a3, a4⟩
      simp only at a1 a2 a3 a4 ⊢
      refine (safe_decodeTnsCoefs (v + 1) (by omega) a2).bind ?_
      rintro ⟨l, st'', r''⟩ ⟨b1, b2, b3, b4⟩
      simp only at b1 b2 b3 b4 ⊢
      refine (ih b3).bind ?_
      rintro ⟨fs, st3, r3⟩ ⟨c1, c2, c3, c4⟩
      simp only at c1 c2 c3 c4 ⊢
      refine ⟨by simp [c1], ?_, c3, (After.trans ⟨a4, le_of_eq a3.symm⟩ b4).trans c4⟩
      intro f hf
      rcases List.mem_cons.1 hf with rfl | hf
      · refine ⟨by simp only; omega, by simp only [List.length_append, b1, List.length_replicate]; omega, ?_⟩
        intro c hc
        rcases List.mem_append.1 hc with h | h
        · exact b2 c h
        · rw [List.eq_of_mem_replicate h]; omega
      · exact c2 f hf
    · intro _
      refine (ih hst).bind ?_
      rintro ⟨fs, st3, r3⟩ ⟨c1, c2, c3, c4⟩
      simp only at c1 c2 c3 c4 ⊢
      refine ⟨by simp [c1], ?_, c3, c4⟩
      intro f hf
      rcases List.mem_cons.1 hf with rfl | hf
      · exact ⟨by simp, by simp, by simp⟩
      · exact c2 f hf

theorem safe_decodeEscapes {buf : List Nat} {lsb : Bool} {t : Nat} (ht : t < 1024) (fuel : Nat) :
    ∀ {lev sym xk xk1 : Nat} {r : Reader} {st : AcDec}, DecOk st → Past r → sym ≤ 16 → lev + fuel = 14 →
    xk < 2 ^ lev → xk1 < 2 ^ lev →
    Safe (decodeEscapes buf lsb t fuel lev sym xk xk1 r st)
      (fun p => p.1.1 ≤ 16 ∧ (p.1.1 < 16 ∨ p.1.2.1 = 14) ∧ p.1.2.1 ≤ 14 ∧ p.1.2.2.1 < 2 ^ p.1.2.1 ∧
        p.1.2.2.2 < 2 ^ p.1.2.1 ∧ DecOk p.2.1 ∧ After r p.2.2) := by
  induction fuel with
  | zero =>
    intro lev sym xk xk1 r st hst hr hs hl h1 h2
    exact ⟨hs, by simp only; omega, by simp only; omega, h1, h2, hst, After.refl _⟩
  | succ fuel ih =>
    intro lev sym xk xk1 r st hst hr hs hl h1 h2
    unfold decodeEscapes
    rw [spec_lookup ht, Res.bind_ok, spec_cum_idx, Res.bind_ok, spec_freq_idx, Res.bind_ok]
    obtain ⟨hm, hm17⟩ := spec_model t lev
    refine (safe_acDecode hm hst).bind ?_
    rintro ⟨v, st', r'⟩ ⟨a1, a2, a3, a4⟩
    simp only at a1 a2 a3 a4 ⊢
    rw [hm17] at a1
    have hr' : Past r' := le_trans hr a4
    have hA : After r r' := ⟨a4, le_of_eq a3.symm⟩
    apply Safe.ite
    · intro h16
      exact ⟨by simp only; omega, by simp only; omega, by simp only; omega, h1, h2, a2, hA⟩
    intro h16
    have key : ∀ x : Nat, x < 2 ^ lev → ∀ b : Bool, x + b.toNat <<< lev < 2 ^ (lev + 1) := by
      intro x hx b
      rw [Nat.shiftLeft_eq, Nat.pow_succ]
      cases b <;> simp <;> omega
    apply Safe.ite
    · intro _
      refine hr'.bool.bind ?_
      rintro ⟨b0, r1⟩ ⟨hr1, _⟩
      simp only at hr1 ⊢
      subst hr1
      have hr1 : Past ⟨r'.head, r'.tail + 1⟩ := hr'
      refine hr1.bool.bind ?_
      rintro ⟨b1, r2⟩ ⟨hr2, _⟩
      simp only at hr2 ⊢
      subst hr2
      have hr2 : Past ⟨r'.head, r'.tail + 1 + 1⟩ := hr'
      refine (ih (sym := v) a2 hr2 (by omega) (by omega) (key _ h1 b0) (key _ h2 b1)).mono ?_
      rintro p ⟨b1, b2, b3, b4, b5, b6, b7⟩
      have hA2 : After r' ⟨r'.head, r'.tail + 1 + 1⟩ := ⟨le_refl _, by simp only; omega⟩
      exact ⟨b1, b2, b3, b4, b5, b6, hA.trans (hA2.trans b7)⟩
    · intro _
      refine (ih (sym := v) a2 hr' (by omega) (by omega) ?_ ?_).mono ?_
      · rw [Nat.pow_succ]; omega
      · rw [Nat.pow_succ]; omega
      rintro p ⟨b1, b2, b3, b4, b5, b6, b7⟩
      exact ⟨b1, b2, b3, b4, b5, b6, hA.trans b7⟩

theorem safe_decodeSign {buf : List Nat} {r : Reader} (h : Past r) (x : Nat) :
    Safe (decodeSign buf r x) (fun p => p.1.natAbs = x ∧ After r p.2) := by
  unfold decodeSign
  apply Safe.ite
  · intro _
    refine h.bool.bind ?_
    rintro ⟨b, r1⟩ ⟨hr1, _⟩
    simp only at hr1 ⊢
    subst hr1
    refine ⟨?_, le_refl _, by simp only; omega⟩
    cases b <;> simp
  · intro _; exact ⟨by simp, After.refl _⟩

theorem safe_decodePairs {buf : List Nat} {lsb : Bool} {rf ne : Nat} (hrf : rf ≤ 512) (n : Nat) :
    ∀ {k c : Nat} {r : Reader} {st : AcDec}, c < 256 → DecOk st → Past r →
    Safe (decodePairs buf lsb rf ne n k c r st)
      (fun p => p.1.length = n ∧ (∀ q ∈ p.1, q.1.natAbs < 131072 ∧ q.2.1.natAbs < 131072 ∧ q.2.2 ≤ 14) ∧
        DecOk p.2.1 ∧ After r p.2.2) := by
  induction n with
  | zero => intro k c r st hc hst hr; exact ⟨rfl, by simp, hst, After.refl _⟩
  | succ n ih =>
    intro k c r st hc hst hr
    unfold decodePairs
    have ht : c + rf + (if k * 2 > ne / 2 then 256 else 0) < 1024 := by split <;> omega
    refine (safe_decodeEscapes ht 14 hst hr (by omega) (by omega) (by norm_num) (by norm_num)).bind ?_
    rintro ⟨⟨sym, lev, xk, xk1⟩, st1, r1⟩ ⟨a1, a2, a3, a4, a5, a6, a7⟩
    simp only at a1 a2 a3 a4 a5 a6 a7 ⊢
    have hr1 := a7.past hr
    have hand : sym &&& 3 < 4 := Nat.lt_succ_of_le Nat.and_le_right
    have hsh : sym >>> 2 ≤ 4 := by rw [Nat.shiftRight_eq_div_pow]; omega
    have hpow : 2 ^ lev ≤ 2 ^ 14 := Nat.pow_le_pow_right (by norm_num) a3
    refine (safe_decodeSign hr1 _).bind ?_
    rintro ⟨x0, r2⟩ ⟨b1, b2⟩
    simp only at b1 b2 ⊢
    refine (safe_decodeSign (b2.past hr1) _).bind ?_
    rintro ⟨x1, r3⟩ ⟨c1, c2⟩
    simp only at c1 c2 ⊢
    have hc' : (c &&& 15) * 16 + ctxT (sym &&& 3) (sym >>> 2) lev < 256 := by
      have h15 : c &&& 15 ≤ 15 := Nat.and_le_right
      have : ctxT (sym &&& 3) (sym >>> 2) lev < 16 := by
        rcases a2 with h | h
        · exact ctxT_lt hand (by rw [Nat.shiftRight_eq_div_pow]; omega)
        · unfold ctxT; rw [h]; simp
      omega
    refine (ih (k := k + 1) hc' a6 (c2.past (b2.past hr1))).bind ?_
    rintro ⟨rest, st4, r4⟩ ⟨d1, d2, d3, d4⟩
    simp only at d1 d2 d3 d4 ⊢
    refine ⟨by simp [d1], ?_, d3, (a7.trans b2).trans (c2.trans d4)⟩
    intro q hq
    rcases List.mem_cons.1 hq with rfl | hq
    · simp only [b1, c1, Nat.shiftLeft_eq]
      have e1 := Nat.mul_le_mul (show sym &&& 3 ≤ 4 by omega) hpow
      have e2 := Nat.mul_le_mul hsh hpow
      refine ⟨?_, ?_, a3⟩
      · generalize (sym &&& 3) * 2 ^ lev = z at *
        omega
      · generalize (sym >>> 2) * 2 ^ lev = z at *
        omega
    · exact d2 q hq

theorem pairLines_length (ps : List (Int × Int × Nat)) : (pairLines ps).length = 2 * ps.length := by
  induction ps with
  | nil => rfl
  | cons p ps ih => obtain ⟨a, b, l⟩ := p; simp only [pairLines, List.length_cons, ih]; omega

theorem pairLines_mem {ps : List (Int × Int × Nat)} {x : Int} (h : x ∈ pairLines ps) :
    ∃ q ∈ ps, x = q.1 ∨ x = q.2.1 := by
  induction ps with
  | nil => simp [pairLines] at h
  | cons p ps ih =>
    obtain ⟨a, b, l⟩ := p
    simp only [pairLines, List.mem_cons] at h
    rcases h with rfl | rfl | h
    · exact ⟨_, List.mem_cons_self, .inl rfl⟩
    · exact ⟨_, List.mem_cons_self, .inr rfl⟩
    · obtain ⟨q, hq, e⟩ := ih h
      exact ⟨q, List.mem_cons_of_mem _ hq, e⟩

theorem safe_decodeSpectralData {buf : List Nat} {si : SideInfo} {nbits fsInd ne : Nat} (h4 : si.lastnz ≤ 400)
    (hev : si.lastnz % 2 = 0)
    {r : Reader} {st : AcDec} (hst : DecOk st) (hr : Past r) :
    Safe (decodeSpectralData buf r si nbits fsInd ne st)
      (fun p => p.1.1.length = 400 ∧ (∀ x ∈ p.1.1, x.natAbs < 131072) ∧
        (∀ k, si.lastnz ≤ k → p.1.1.getD k 0 = 0) ∧ p.1.2.length = 400 ∧ DecOk p.2.1 ∧
        After r p.2.2) := by
  unfold decodeSpectralData
  rw [if_neg (by omega)]
  have hrf : rateFlagOf nbits fsInd ≤ 512 := by unfold rateFlagOf; split <;> omega
  refine (safe_decodePairs hrf (si.lastnz / 2) (by omega) hst hr).bind ?_
  rintro ⟨ps, st1, r1⟩ ⟨a1, a2, a3, a4⟩
  simp only at a1 a2 a3 a4 ⊢
  refine ⟨?_, ?_, ?_, ?_, a3, a4⟩
  · simp only [List.length_append, pairLines_length, List.length_replicate]; omega
  · intro x hx
    rcases List.mem_append.1 hx with h | h
    · obtain ⟨q, hq, e⟩ := pairLines_mem h
      obtain ⟨u, v, _⟩ := a2 q hq
      rcases e with rfl | rfl <;> assumption
    · rw [List.eq_of_mem_replicate h]; decide
  · intro k hk
    simp only
    rw [List.getD_eq_getElem?_getD, List.getElem?_append_right (by rw [pairLines_length]; omega),
      List.getElem?_replicate]
    split <;> rfl
  · simp only [List.length_append, List.length_replicate]
    cases si.lsbMode
    · simp
    · simp only [if_true, List.length_map]; omega

theorem safe_calcNumResidualBits {r : Reader} {st : AcDec} {total : Nat} (hst : DecOk st) (hr : Past r)
    (ht : 8 ≤ r.tail) : Safe (calcNumResidualBits r st total) (fun _ => True) := by
  unfold calcNumResidualBits
  unfold Past at hr
  refine (safe_usub ht).bind ?_
  rintro _ rfl
  refine (safe_usub (by omega)).bind ?_
  rintro _ rfl
  have hlog : Nat.log2 st.range < 24 := by
    rw [Nat.log2_lt (by have := hst.lo; omega)]; exact hst.hi
  refine (safe_usub (by omega)).bind ?_
  rintro _ rfl
  apply Safe.ite <;> intro _ <;> trivial

theorem safe_decodeResidualNormal {buf : List Nat} (xs : List Int) : ∀ {n : Nat} {r : Reader}, Past r →
    Safe (decodeResidualNormal buf r xs n) (fun p => p.1.length ≤ xs.length ∧ p.1.length ≤ n ∧ After r p.2) := by
  induction xs with
  | nil => intro n r hr; exact ⟨by simp, by simp, After.refl _⟩
  | cons x xs ih =>
    intro n r hr
    unfold decodeResidualNormal
    apply Safe.ite
    · intro _
      cases n with
      | zero => exact ⟨by simp, by simp, After.refl _⟩
      | succ n =>
        refine hr.bool.bind ?_
        rintro ⟨b, r1⟩ ⟨hr1, _⟩
        simp only at hr1 ⊢
        subst hr1
        have hr1 : Past ⟨r.head, r.tail + 1⟩ := hr
        refine (ih (n := n) hr1).bind ?_
        rintro ⟨l, r2⟩ ⟨a1, a2, a3⟩
        simp only at a1 a2 a3 ⊢
        have hA2 : After r ⟨r.head, r.tail + 1⟩ := ⟨le_refl _, by simp only; omega⟩
        exact ⟨by simp; omega, by simp; omega, hA2.trans a3⟩
    · intro _
      refine (ih hr).mono ?_
      rintro p ⟨a1, a2, a3⟩
      exact ⟨by simp; omega, a2, a3⟩

theorem safe_readResBit {buf : List Nat} {r : Reader} (hr : Past r) (x : Int) (n : Nat) :
    Safe (readResBit buf r x n) (fun p => p.1.2.1.natAbs ≤ x.natAbs + 1 ∧ After r p.2) := by
  unfold readResBit
  cases n with
  | zero => exact ⟨by simp, After.refl _⟩
  | succ n =>
    refine hr.bool.bind ?_
    rintro ⟨b, r1⟩ ⟨hr1, _⟩
    simp only at hr1 ⊢
    subst hr1
    have hr1 : Past ⟨r.head, r.tail + 1⟩ := hr
    have hA : After r ⟨r.head, r.tail + 1⟩ := ⟨le_refl _, by simp only; omega⟩
    apply Safe.ite
    · intro _
      apply Safe.ite
      · intro _; exact ⟨by simp only; omega, hA⟩
      · intro _
        apply Safe.ite
        · intro _; exact ⟨by simp only; omega, hA⟩
        · intro _
          cases n with
          | zero => exact ⟨by simp, hA⟩
          | succ n =>
            refine hr1.bool.bind ?_
            rintro ⟨b, r2⟩ ⟨hr2, _⟩
            simp only at hr2 ⊢
            subst hr2
            refine ⟨?_, hA.trans ⟨le_refl _, by simp only; omega⟩⟩
            cases b <;> simp
    · intro _; exact ⟨by simp, hA⟩

theorem safe_decodeResidualLsb {buf : List Nat} {saveLev : List Nat} : ∀ (m : Nat) (xs : List Int) {k n : Nat}
    {r : Reader}, xs.length ≤ m → Past r → 2 * k + xs.length ≤ saveLev.length →
    Safe (decodeResidualLsb buf saveLev xs k n r)
      (fun p => p.1.length = xs.length ∧ After r p.2 ∧
        ∀ B, (∀ x ∈ xs, x.natAbs < B) → ∀ x ∈ p.1, x.natAbs < B + 1) := by
  intro m
  induction m with
  | zero =>
    intro xs k n r hm hr hl
    match xs with
    | [] => exact ⟨rfl, After.refl _, by simp⟩
    | _ :: _ => simp at hm
  | succ m ih =>
    intro xs k n r hm hr hl
    match xs with
    | [] => exact ⟨rfl, After.refl _, by simp⟩
    | [x] => exact ⟨rfl, After.refl _, fun B h y hy => Nat.lt_succ_of_lt (h y hy)⟩
    | a :: b :: xs =>
      simp only [List.length_cons] at hm hl
      unfold decodeResidualLsb
      refine (safe_idx (show 2 * k < saveLev.length by omega)).bind ?_
      rintro lev -
      apply Safe.ite
      · intro _
        refine (safe_readResBit hr a n).bind ?_
        rintro ⟨⟨c, a', n1⟩, r1⟩ ⟨ha, hA1⟩
        simp only at ha hA1 ⊢
        apply Safe.ite
        · intro _
          refine ⟨by simp, hA1, ?_⟩
          intro B h y hy
          rcases List.mem_cons.1 hy with rfl | hy
          · have := h a (by simp); omega
          · exact Nat.lt_succ_of_lt (h y (List.mem_cons_of_mem _ hy))
        intro _
        refine (safe_readResBit (hA1.past hr) b n1).bind ?_
        rintro ⟨⟨c2, b', n2⟩, r2⟩ ⟨hb, hA2⟩
        simp only at hb hA2 ⊢
        apply Safe.ite
        · intro _
          refine ⟨by simp, hA1.trans hA2, ?_⟩
          intro B h y hy
          rcases List.mem_cons.1 hy with rfl | hy
          · have := h a (by simp); omega
          rcases List.mem_cons.1 hy with rfl | hy
          · have := h b (by simp); omega
          · exact Nat.lt_succ_of_lt (h y (by simp [hy]))
        intro _
        refine (ih xs (by omega) ((hA1.trans hA2).past hr) (by omega)).bind ?_
        rintro ⟨l, r3⟩ ⟨h1, h2, h3⟩
        simp only at h1 h2 h3 ⊢
        refine ⟨by simp [h1], (hA1.trans hA2).trans h2, ?_⟩
        intro B h y hy
        rcases List.mem_cons.1 hy with rfl | hy
        · have := h a (by simp); omega
        rcases List.mem_cons.1 hy with rfl | hy
        · have := h b (by simp); omega
        · exact h3 B (fun x hx => h x (by simp [hx])) y hy
      · intro _
        refine (ih xs (by omega) hr (by omega)).bind ?_
        rintro ⟨l, r3⟩ ⟨h1, h2, h3⟩
        simp only at h1 h2 h3 ⊢
        refine ⟨by simp [h1], h2, ?_⟩
        intro B h y hy
        rcases List.mem_cons.1 hy with rfl | hy
        · have := h y (by simp); omega
        rcases List.mem_cons.1 hy with rfl | hy
        · have := h y (by simp); omega
        · exact h3 B (fun x hx => h x (by simp [hx])) y hy

/-- what the arithmetic decoder guarantees for the data it accepts -/
structure DataBounds (cfg : Lc3Config) (si : SideInfo) (nbits : Nat) (ad : ArithmeticData) (x : List Int) : Prop where
  orders : ad.rcOrder.length = 2 ∧ ∀ o ∈ ad.rcOrder, o ≤ 8
  idxs : ad.rcInts.length = 16 ∧ ∀ c ∈ ad.rcInts, c < 17
  bits : ad.residualBits.length ≤ cfg.ne
  seed : ad.noiseFillingSeed < 65536
  lines : x.length = 400
  values : ∀ v ∈ x, v.natAbs ≤ 131072
  zeros : ∀ k, si.lastnz ≤ k → x.getD k 0 = 0
  nbits : ad.frameNumBits = nbits

theorem safe_arithDecode {buf : List Nat} {cfg : Lc3Config} {si : SideInfo} (hne : cfg.ne ≤ 400)
    (hs : SideBounds cfg si) {r : Reader} (ht : 8 ≤ r.tail) :
    Safe (arithDecode false buf r cfg.fsInd cfg.ne si cfg.nMs)
      (fun p => DataBounds cfg si (buf.length * 8) p.1.1 p.1.2) := by
  unfold arithDecode
  refine safe_acDecInit.bind ?_
  rintro ⟨st, r1⟩ ⟨a1, a2, a3⟩
  simp only at a1 a2 a3 ⊢
  have hn : si.numTnsFilters = 1 ∨ si.numTnsFilters = 2 := by rw [hs.numTns]; split <;> simp
  have htns : Safe (decodeTnsData buf r1 si st (buf.length * 8) cfg.nMs)
      (fun p => p.1.1.length = 16 ∧ (∀ c ∈ p.1.1, c < 17) ∧ p.1.2.length = 2 ∧ (∀ o ∈ p.1.2, o ≤ 8) ∧
        DecOk p.2.1 ∧ After r1 p.2.2) := by
    unfold decodeTnsData
    have hw : tnsLpcWeightingIdx (buf.length * 8) cfg.nMs < 2 := by
      unfold tnsLpcWeightingIdx; cases cfg.nMs <;> simp only <;> split <;> omega
    refine (safe_decodeTnsFilters hw (si.rcOrderIn.take si.numTnsFilters) a1).bind ?_
    rintro ⟨fs, st2, r2⟩ ⟨b1, b2, b3, b4⟩
    simp only at b1 b2 b3 b4 ⊢
    have hfl : fs.length = si.numTnsFilters := by
      rw [b1, List.length_take, hs.rcLen]; omega
    have hflat : ∀ gs : List (Nat × List Nat), (∀ f ∈ gs, f.1 ≤ 8 ∧ f.2.length = 8 ∧ ∀ c ∈ f.2, c < 17) →
        ((gs.map (·.2)).flatten).length = 8 * gs.length := by
      intro gs
      induction gs with
      | nil => intro _; rfl
      | cons g gs ih =>
        intro h
        have h1 := (h g (by simp)).2.1
        have h2 := ih (fun f hf => h f (by simp [hf]))
        simp only [List.map_cons, List.flatten_cons, List.length_append, h1, h2, List.length_cons]
        omega
    refine ⟨?_, ?_, ?_, ?_, b3, b4⟩
    · simp only [List.length_append, hflat fs b2, List.length_replicate, hfl]; omega
    · intro c hc
      rcases List.mem_append.1 hc with h | h
      · simp only [List.mem_flatten, List.mem_map] at h
        obtain ⟨l, ⟨f, hf, rfl⟩, hcl⟩ := h
        exact (b2 f hf).2.2 c hcl
      · rw [List.eq_of_mem_replicate h]; omega
    · simp only [List.length_append, List.length_map, List.length_drop, hs.rcLen, hfl]; omega
    · intro o ho
      rcases List.mem_append.1 ho with h | h
      · obtain ⟨f, hf, rfl⟩ := List.mem_map.1 h
        exact (b2 f hf).1
      · have := hs.rcFlag o (List.mem_of_mem_drop h); omega
  refine htns.bind ?_
  rintro ⟨⟨ti, tor⟩, st2, r2⟩ ⟨b1, b2, b3, b4, b5, b6⟩
  simp only at b1 b2 b3 b4 b5 b6 ⊢
  have hlz := hs.lastnzHi
  refine (safe_decodeSpectralData (by omega) hs.lastnzEven b5 (b6.past a3)).bind ?_
  rintro ⟨⟨x, sl⟩, st3, r3⟩ ⟨c1, c2, c3, c4, c5, c6⟩
  simp only at c1 c2 c3 c4 c5 c6 ⊢
  have hr3 : Past r3 := c6.past (b6.past a3)
  have ht3 : 8 ≤ r3.tail := by
    have := a2.2; have := b6.2; have := c6.2; omega
  have hres : Safe (decodeResidualBits buf r3 si st3 (buf.length * 8) cfg.ne x sl)
      (fun p => p.1.1.length ≤ cfg.ne ∧ p.1.2.length = 400 ∧ (∀ v ∈ p.1.2, v.natAbs ≤ 131072) ∧
        ∀ k, si.lastnz ≤ k → p.1.2.getD k 0 = 0) := by
    unfold decodeResidualBits
    refine (safe_calcNumResidualBits c5 hr3 ht3).bind ?_
    rintro n -
    apply Safe.ite
    · intro _
      refine (safe_decodeResidualNormal _ hr3).bind ?_
      rintro ⟨bs, r4⟩ ⟨d1, d2, d3⟩
      simp only at d1 d2 d3 ⊢
      refine ⟨?_, c1, fun v hv => le_of_lt (c2 v hv), c3⟩
      rw [List.length_take] at d1
      exact le_trans d1 (min_le_left _ _)
    · intro _
      refine (safe_decodeResidualLsb _ (x.take si.lastnz) (le_refl _) hr3 ?_).bind ?_
      · rw [List.length_take]; omega
      rintro ⟨xl, r4⟩ ⟨d1, d2, d3⟩
      simp only at d1 d2 d3 ⊢
      have hlen : xl.length = si.lastnz := by rw [d1, List.length_take]; omega
      refine ⟨by simp, ?_, ?_, ?_⟩
      · simp only [List.length_append, hlen, List.length_drop]; omega
      · intro v hv
        rcases List.mem_append.1 hv with h | h
        · have := d3 131072 (fun y hy => c2 y (List.mem_of_mem_take hy)) v h; omega
        · exact le_of_lt (c2 v (List.mem_of_mem_drop h))
      · intro k hk
        simp only
        rw [List.getD_eq_getElem?_getD, List.getElem?_append_right (by omega), List.getElem?_drop, hlen,
          show si.lastnz + (k - si.lastnz) = k by omega]
        rw [← List.getD_eq_getElem?_getD]
        exact c3 k hk
  refine hres.bind ?_
  rintro ⟨⟨bits, x'⟩, r4⟩ ⟨d1, d2, d3, d4⟩
  simp only at d1 d2 d3 d4 ⊢
  unfold noiseFillingSeed
  simp only [Bool.false_and, Bool.false_eq_true, if_false, Res.bind_ok]
  refine (safe_idx (show 0 < x'.length by omega)).bind ?_
  rintro _ rfl
  refine (safe_idx (show 1 < x'.length by omega)).bind ?_
  rintro _ rfl
  exact ⟨⟨b3, b4⟩, ⟨b1, b2⟩, d1, Nat.mod_lt _ (by norm_num), d2, d3, d4, rfl⟩

end Lc3
