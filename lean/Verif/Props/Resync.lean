import Verif.Spec.Resync
import Verif.Lemmas.ShortFrames
import Verif.Lemmas.NoErr
import Verif.Props.PostFilter
/-! C60: the decoder resynchronises after damaged frames. -/

namespace Lc3
open Scalar Tables Spec
variable {α : Type} [Scalar α]

/-! ### One frame -/

/-- the old contents of the line buffer do not matter -/
theorem specFromFrame_indep {cfg : Lc3Config} {l1 l2 : List α} (h1 : l1.length = cfg.ne) (h2 : l2.length = cfg.ne)
    (si : SideInfo) (ad : ArithmeticData) (x : List Int) : specFromFrame cfg l1 si ad x = specFromFrame cfg l2 si ad x := by
  unfold specFromFrame dequantise
  by_cases hx : x.length < cfg.ne
  · rw [if_pos hx, if_pos hx]
  · rw [if_neg hx, if_neg hx, zipInto_eq (by simp; omega), zipInto_eq (by simp; omega), h1, h2]

/-- the new overlap memory depends on the lines only -/
theorem mdctDecRun_ola {cfg : Lc3Config} {m1 m2 lines o1 o2 f1 f2 : List α} (e1 : mdctDecRun cfg m1 lines = .ok (o1, f1))
    (e2 : mdctDecRun cfg m2 lines = .ok (o2, f2)) : o1 = o2 := by
  unfold mdctDecRun at e1 e2
  split at e1
  · cases e1
  rename_i hl
  rw [if_neg hl] at e2
  obtain ⟨w, hw, e1⟩ := bind_ok_inv e1
  rw [hw, Res.bind_ok] at e2
  obtain ⟨p, hp, e1⟩ := bind_ok_inv e1
  rw [hp, Res.bind_ok] at e2
  obtain ⟨t, ht, e1⟩ := bind_ok_inv e1
  rw [ht, Res.bind_ok] at e2
  obtain ⟨n, hn, e1⟩ := bind_ok_inv e1
  rw [hn, Res.bind_ok] at e2
  split at e1
  · cases e1
  split at e2
  · cases e2
  simp only [Res.ok.injEq, Prod.mk.injEq] at e1 e2
  rw [← e1.1, ← e2.1]

theorem decodeChannel_checks_ok {cfg : Lc3Config} {checks : Bool} {buf : List Nat} {p : SideInfo × ArithmeticData × List Int}
    (hr : readFrame checks cfg buf = .ok p) (ch : DecChannel α) (out : List Int) :
    readFrame false cfg buf = .ok p ∧ decodeChannel checks cfg ch 16 buf out = decodeChannel false cfg ch 16 buf out := by
  cases checks with
  | false => exact ⟨hr, rfl⟩
  | true =>
    have h : readFrame true cfg buf = readFrame false cfg buf := by
      rcases readFrame_checks cfg buf with hc | hc
      · rw [hc] at hr; cases hr
      · exact hc
    exact ⟨h ▸ hr, by unfold decodeChannel decodeSpectrum; rw [h]⟩

/-- A frame that the parser accepts: the lines depend on the frame only, the rest is the inverse transform and the post
filter. -/
theorem decodeChannel_parsed {f : SamplingFrequency} {d : FrameDuration} {checks : Bool} {buf : List Nat}
    {p : SideInfo × ArithmeticData × List Int} (hr : readFrame checks (Lc3Config.new f d) buf = .ok p) :
    p.1.ltpf.pitchIndex < 512 ∧ ∃ lines : List α, ∀ {ch : DecChannel α}, ChInv f d ch → ∀ out, ∃ ola fr s' o,
      mdctDecRun (Lc3Config.new f d) ch.memOla lines = .ok (ola, fr) ∧ fr.length = (Lc3Config.new f d).nf ∧
      ltpfRun (Lc3Config.new f d) ch.ltpf p.1.ltpf (buf.length * 8) fr = .ok (s', o) ∧
      decodeChannel checks (Lc3Config.new f d) ch 16 buf out =
        .ok (.ok, ⟨lines, o, ⟨lines, 0, one, ch.plc.seed, (Lc3Config.new f d).ne⟩, ola, s', ch.frameIndex + 1⟩, scaleAndRound o out) ∧
      ChInv f d (⟨lines, o, ⟨lines, 0, one, ch.plc.seed, (Lc3Config.new f d).ne⟩, ola, s', ch.frameIndex + 1⟩ : DecChannel α) := by
  obtain ⟨si, ad, x⟩ := p
  have hr0 : readFrame false (Lc3Config.new f d) buf = .ok (si, ad, x) := by
    cases checks with
    | false => exact hr
    | true =>
      rcases readFrame_checks (Lc3Config.new f d) buf with hc | hc
      · rw [hc] at hr; cases hr
      · exact hc ▸ hr
  have hb := readFrame_long hr0
  have hsafe := safe_readFrame f d buf hb
  rw [hr0] at hsafe
  obtain ⟨hs, hd⟩ := hsafe
  refine ⟨hs.pitch, ?_⟩
  have hl0 : (List.replicate (Lc3Config.new f d).ne (zero : α)).length = (Lc3Config.new f d).ne := List.length_replicate
  have hsp := safe_specFromFrame hs hd hl0
  cases e0 : specFromFrame (Lc3Config.new f d) (List.replicate (Lc3Config.new f d).ne (zero : α)) si ad x with
  | err => exact absurd e0 (noErr_specFromFrame _ _ _ _ _)
  | panic => rw [e0] at hsp; exact hsp.elim
  | ok lines =>
    have hll : lines.length = (Lc3Config.new f d).ne := hsp.of_ok e0
    refine ⟨lines, ?_⟩
    intro ch h out
    have hm := safe_mdctDecRun hll h.ola
    cases em : mdctDecRun (Lc3Config.new f d) ch.memOla lines with
    | err => exact absurd em (noErr_mdctDecRun _ _ _)
    | panic => rw [em] at hm; exact hm.elim
    | ok r =>
      obtain ⟨ola, fr⟩ := r
      obtain ⟨h6, h7⟩ := hm.of_ok em
      obtain ⟨s', o, e3, hi, hl3⟩ := ltpfRun_inv h.ltpf hs.pitch (buf.length * 8) h7
      refine ⟨ola, fr, s', o, rfl, h7, e3, ?_, ⟨hll, hl3, hll, rfl, h.plcSeed, h6, hi⟩⟩
      rw [(decodeChannel_checks_ok hr ch out).2]
      have hpl := h.plcLen
      have hpn := h.plcNe
      unfold decodeChannel decodeSpectrum
      rw [if_neg (by simp), hr0]
      simp only
      rw [specFromFrame_indep h.spec hl0, e0, Res.bind_ok]
      unfold Plc.save
      rw [if_neg (by omega)]
      simp only [Res.bind_ok]
      rw [if_neg (by simp [h.freq]), em]
      simp only [Res.bind_ok]
      rw [e3]
      simp only [Res.bind_ok]
      have ht : lines.take ch.plc.ne ++ ch.plc.lastGood.drop ch.plc.ne = lines := by
        rw [hpn, List.take_of_length_le (by omega), List.drop_eq_nil_of_le (by omega), List.append_nil]
      rw [ht, hpn]

/-! ### The post filter switched off -/

omit [Scalar α] in
theorem copyLoop_get (src : List α) (blk : Nat) : ∀ (count a : Nat) (y r : List α),
    forRange (fun n y => do
      let x ← idx src (blk + n)
      setIdx y (blk + n) x) a count y = .ok r →
    r.length = y.length ∧ ∀ i, r[i]? = if blk + a ≤ i ∧ i < blk + a + count then src[i]? else y[i]?
  | 0, a, y, r, e => by
    simp only [forRange, Res.ok.injEq] at e
    subst e
    refine ⟨rfl, fun i => ?_⟩
    rw [if_neg (by omega)]
  | n + 1, a, y, r, e => by
    rw [forRange] at e
    obtain ⟨y1, h1, e⟩ := bind_ok_inv e
    obtain ⟨v, hv, h1⟩ := bind_ok_inv h1
    unfold setIdx at h1
    split at h1
    · rename_i hlt
      simp only [Res.ok.injEq] at h1
      subst h1
      obtain ⟨g1, g2⟩ := copyLoop_get src blk n (a + 1) _ r e
      refine ⟨by rw [g1, List.length_set], fun i => ?_⟩
      rw [g2 i]
      by_cases hi : i = blk + a
      · subst hi
        rw [if_neg (by omega), if_pos (by omega), List.getElem?_set_self hlt, idx_ok_iff.1 hv]
      · rw [List.getElem?_set_ne (by omega)]
        by_cases hc : blk + (a + 1) ≤ i ∧ i < blk + (a + 1) + n
        · rw [if_pos hc, if_pos (by omega)]
        · rw [if_neg hc, if_neg (by omega)]
    · cases h1

omit [Scalar α] in
theorem splice_get {blk nf : Nat} {m fr : List α} (hl : blk + nf ≤ m.length) (hfr : fr.length = nf) (i : Nat) :
    (m.take blk ++ fr ++ m.drop (blk + nf))[i]? = if blk ≤ i ∧ i < blk + nf then fr[i - blk]? else m[i]? := by
  have h1 : (m.take blk).length = blk := by simp; omega
  by_cases hc : i < blk
  · rw [if_neg (by omega), List.append_assoc, List.getElem?_append_left (by omega), List.getElem?_take_of_lt hc]
  · by_cases hc2 : i < blk + nf
    · rw [if_pos ⟨by omega, hc2⟩, List.append_assoc, List.getElem?_append_right (by omega),
        List.getElem?_append_left (by omega), h1]
    · rw [if_neg (by omega), List.getElem?_append_right (by simp; omega), List.getElem?_drop]
      congr 1
      simp; omega

/-- the next position in the circular memories -/
def nextBlk (cfg : Lc3Config) (blk : Nat) : Nat :=
  if blk + cfg.nf > (numMemBlocks cfg.nMs - 1) * cfg.nf then 0 else blk + cfg.nf

/-- the state after a frame: what does not depend on the samples -/
theorem ltpfRun_state {cfg : Lc3Config} {s s' : Ltpf α} {info : LtpfInfo} {nbits : Nat} {fr o : List α}
    (e : ltpfRun cfg s info nbits fr = .ok (s', o)) :
    s'.activePrev = info.isActive ∧ s'.blockStart = nextBlk cfg s.blockStart ∧ s'.cNumMem = s.cNum ∧ s'.cDenMem = s.cDen ∧
    s'.xMem = s.xMem.take s.blockStart ++ fr ++ s.xMem.drop (s.blockStart + cfg.nf) ∧
    o = (s'.yMem.take (s.blockStart + cfg.nf)).drop s.blockStart ∧ fr.length = cfg.nf ∧
    (info.isActive = false → s'.cNum = List.replicate s.cNum.length zero ∧ s'.cDen = List.replicate s.cDen.length zero ∧
      s'.pIntMem = 0 ∧ s'.pFrMem = 0) ∧
    (info.isActive = false → s.activePrev = false → s'.yMem.length = s.yMem.length ∧ ∀ i, s'.yMem[i]? =
      if s.blockStart ≤ i ∧ i < s.blockStart + cfg.nf then s'.xMem[i]? else s.yMem[i]?) := by
  unfold ltpfRun at e
  obtain ⟨⟨pitch, pfr⟩, h1, e⟩ := bind_ok_inv e
  simp only at e
  obtain ⟨⟨cn, cd⟩, h2, e⟩ := bind_ok_inv e
  simp only at e
  split at e
  · cases e
  rename_i hl
  rw [not_or] at hl
  obtain ⟨y, h3, e⟩ := bind_ok_inv e
  split at e
  · cases e
  simp only [Res.ok.injEq, Prod.mk.injEq] at e
  obtain ⟨rfl, rfl⟩ := e
  refine ⟨rfl, rfl, rfl, rfl, rfl, rfl, by omega, ?_, ?_⟩
  · intro ha
    unfold ltpfParams at h1
    unfold ltpfCoeffs at h2
    rw [ha] at h1 h2
    simp only [Bool.not_false, if_true, Res.ok.injEq, Prod.mk.injEq] at h1 h2
    exact ⟨h2.1.symm, h2.2.symm, h1.1.symm, h1.2.symm⟩
  · intro ha hp
    unfold ltpfTransition at h3
    rw [ha, hp] at h3
    simp only [Bool.not_false, Bool.and_self, if_true] at h3
    obtain ⟨g1, g2⟩ := copyLoop_get _ _ _ _ _ _ h3
    refine ⟨g1, fun i => ?_⟩
    simpa using g2 i

/-- two post filters that are switched off agree on the blocks in `R` -/
structure Agree (s1 s2 : Ltpf α) (R : Nat → Prop) : Prop where
  off1 : s1.activePrev = false
  off2 : s2.activePrev = false
  blk : s1.blockStart = s2.blockStart
  cn : s1.cNum = s2.cNum
  cd : s1.cDen = s2.cDen
  pi : s1.pIntMem = s2.pIntMem
  pf : s1.pFrMem = s2.pFrMem
  x : ∀ i, R i → s1.xMem[i]? = s2.xMem[i]?
  y : ∀ i, R i → s1.yMem[i]? = s2.yMem[i]?

/-- the first frame without the filter -/
theorem agree_first {f : SamplingFrequency} {d : FrameDuration} {s1 s2 s1' s2' : Ltpf α} (h1 : LtpfInv f d s1) (h2 : LtpfInv f d s2)
    (hb : s1.blockStart = s2.blockStart) {info : LtpfInfo} (ha : info.isActive = false) {nbits : Nat} {fr1 fr2 o1 o2 : List α}
    (e1 : ltpfRun (Lc3Config.new f d) s1 info nbits fr1 = .ok (s1', o1))
    (e2 : ltpfRun (Lc3Config.new f d) s2 info nbits fr2 = .ok (s2', o2)) : Agree s1' s2' (fun _ => False) := by
  obtain ⟨a1, b1, -, -, -, -, -, c1, -⟩ := ltpfRun_state e1
  obtain ⟨a2, b2, -, -, -, -, -, c2, -⟩ := ltpfRun_state e2
  obtain ⟨p1, p2, p3, p4⟩ := c1 ha
  obtain ⟨q1, q2, q3, q4⟩ := c2 ha
  exact ⟨a1.trans ha, a2.trans ha, by rw [b1, b2, hb], by rw [p1, q1, h1.cn, h2.cn], by rw [p2, q2, h1.cd, h2.cd],
    by rw [p3, q3], by rw [p4, q4], fun _ h => h.elim, fun _ h => h.elim⟩

/-- the output without the filter is the input -/
theorem ltpf_off_out {f : SamplingFrequency} {d : FrameDuration} {s s' : Ltpf α} (h : LtpfInv f d s) {info : LtpfInfo}
    (ha : info.isActive = false) (hp : s.activePrev = false) {nbits : Nat} {fr o : List α}
    (e : ltpfRun (Lc3Config.new f d) s info nbits fr = .ok (s', o)) : o = fr := by
  obtain ⟨-, -, -, -, hx, ho, hfr, -, hy⟩ := ltpfRun_state e
  obtain ⟨hyl, hy⟩ := hy ha hp
  have hxl := h.xl
  have hyl0 := h.yl
  have hblk := h.blk
  rw [ho]
  apply List.ext_getElem?
  intro i
  rw [List.getElem?_drop]
  by_cases hi : i < (Lc3Config.new f d).nf
  · rw [List.getElem?_take_of_lt (by omega), hy, if_pos ⟨by omega, by omega⟩, hx, splice_get (by omega) hfr,
      if_pos ⟨by omega, by omega⟩]
    congr 1; omega
  · rw [List.getElem?_eq_none (by simp; omega), List.getElem?_eq_none (by omega)]

/-- a further frame without the filter -/
theorem agree_next {f : SamplingFrequency} {d : FrameDuration} {s1 s2 s1' s2' : Ltpf α} (h1 : LtpfInv f d s1) (h2 : LtpfInv f d s2)
    {R : Nat → Prop} (hA : Agree s1 s2 R) {info : LtpfInfo} (ha : info.isActive = false) {nbits : Nat} {fr o1 o2 : List α}
    (e1 : ltpfRun (Lc3Config.new f d) s1 info nbits fr = .ok (s1', o1))
    (e2 : ltpfRun (Lc3Config.new f d) s2 info nbits fr = .ok (s2', o2)) :
    Agree s1' s2' (fun i => R i ∨ (s1.blockStart ≤ i ∧ i < s1.blockStart + (Lc3Config.new f d).nf)) ∧
      s1'.blockStart = nextBlk (Lc3Config.new f d) s1.blockStart ∧ s1'.cNumMem = s2'.cNumMem ∧ s1'.cDenMem = s2'.cDenMem := by
  have hA0 := agree_first h1 h2 hA.blk ha e1 e2
  obtain ⟨-, b1, m1, n1, x1, -, hfr, -, y1⟩ := ltpfRun_state e1
  obtain ⟨-, -, m2, n2, x2, -, -, -, y2⟩ := ltpfRun_state e2
  obtain ⟨-, y1⟩ := y1 ha hA.off1
  obtain ⟨-, y2⟩ := y2 ha hA.off2
  have hx : ∀ i, R i ∨ (s1.blockStart ≤ i ∧ i < s1.blockStart + (Lc3Config.new f d).nf) → s1'.xMem[i]? = s2'.xMem[i]? := by
    intro i hi
    rw [x1, x2, splice_get (by rw [h1.xl]; exact h1.blk) hfr, splice_get (by rw [h2.xl]; exact h2.blk) hfr, ← hA.blk]
    by_cases hc : s1.blockStart ≤ i ∧ i < s1.blockStart + (Lc3Config.new f d).nf
    · rw [if_pos hc, if_pos hc]
    · rw [if_neg hc, if_neg hc]
      exact hA.x i (hi.resolve_right hc)
  refine ⟨⟨hA0.off1, hA0.off2, hA0.blk, hA0.cn, hA0.cd, hA0.pi, hA0.pf, hx, ?_⟩, b1, by rw [m1, m2, hA.cn], by rw [n1, n2, hA.cd]⟩
  intro i hi
  rw [y1, y2, ← hA.blk]
  by_cases hc : s1.blockStart ≤ i ∧ i < s1.blockStart + (Lc3Config.new f d).nf
  · rw [if_pos hc, if_pos hc]; exact hx i hi
  · rw [if_neg hc, if_neg hc]; exact hA.y i (hi.resolve_right hc)

/-! ### Positions in the circular memories -/

theorem nextBlk_eq (f : SamplingFrequency) (d : FrameDuration) {q : Nat} (hq : q < numMemBlocks (Lc3Config.new f d).nMs) :
    nextBlk (Lc3Config.new f d) ((Lc3Config.new f d).nf * q) =
      (Lc3Config.new f d).nf * ((q + 1) % numMemBlocks (Lc3Config.new f d).nMs) := by
  have hnf := nf_pos f d
  unfold nextBlk
  generalize (Lc3Config.new f d).nf = n at *
  generalize numMemBlocks (Lc3Config.new f d).nMs = N at *
  have e1 : n * q + n = n * (q + 1) := by ring
  rw [e1, Nat.mul_comm (N - 1)]
  by_cases h : q + 1 = N
  · rw [h, Nat.mod_self, Nat.mul_zero, if_pos]
    exact Nat.mul_lt_mul_of_pos_left (by omega) hnf
  · rw [Nat.mod_eq_of_lt (by omega), if_neg]
    have := Nat.mul_le_mul_left n (show q + 1 ≤ N - 1 by omega)
    omega

theorem nextBlk_iterate (f : SamplingFrequency) (d : FrameDuration) {q : Nat} (hq : q < numMemBlocks (Lc3Config.new f d).nMs) :
    ∀ t : Nat, (nextBlk (Lc3Config.new f d))^[t] ((Lc3Config.new f d).nf * q) =
      (Lc3Config.new f d).nf * ((q + t) % numMemBlocks (Lc3Config.new f d).nMs)
  | 0 => by rw [Function.iterate_zero, id, Nat.add_zero, Nat.mod_eq_of_lt hq]
  | t + 1 => by
    rw [Function.iterate_succ_apply', nextBlk_iterate f d hq t, nextBlk_eq f d (Nat.mod_lt _ (by omega)), Nat.mod_add_mod,
      Nat.add_assoc]

omit [Scalar α] in
theorem LtpfInv.block {f : SamplingFrequency} {d : FrameDuration} {s : Ltpf α} (h : LtpfInv f d s) :
    ∃ q < numMemBlocks (Lc3Config.new f d).nMs, s.blockStart = (Lc3Config.new f d).nf * q := by
  obtain ⟨q, hq⟩ := h.blkDvd
  refine ⟨q, ?_, hq⟩
  have hb := h.blk
  have hring : ringSize (Lc3Config.new f d) = (Lc3Config.new f d).nf * numMemBlocks (Lc3Config.new f d).nMs := rfl
  rw [hring, hq] at hb
  have e1 : (Lc3Config.new f d).nf * q + (Lc3Config.new f d).nf = (Lc3Config.new f d).nf * (q + 1) := by ring
  rw [e1] at hb
  have := Nat.le_of_mul_le_mul_left hb (nf_pos f d)
  omega

/-- a full round of the circular memory touches every position -/
theorem blocks_cover (f : SamplingFrequency) (d : FrameDuration) {q : Nat} (hq : q < numMemBlocks (Lc3Config.new f d).nMs) {i : Nat}
    (hi : i < ringSize (Lc3Config.new f d)) : ∃ t < numMemBlocks (Lc3Config.new f d).nMs,
      (nextBlk (Lc3Config.new f d))^[t] ((Lc3Config.new f d).nf * q) ≤ i ∧
      i < (nextBlk (Lc3Config.new f d))^[t] ((Lc3Config.new f d).nf * q) + (Lc3Config.new f d).nf := by
  have hnf := nf_pos f d
  have hring : ringSize (Lc3Config.new f d) = (Lc3Config.new f d).nf * numMemBlocks (Lc3Config.new f d).nMs := rfl
  rw [hring] at hi
  have hm : i / (Lc3Config.new f d).nf < numMemBlocks (Lc3Config.new f d).nMs := Nat.div_lt_of_lt_mul hi
  have h1 := Nat.div_mul_le_self i (Lc3Config.new f d).nf
  have h2 := Nat.lt_div_mul_add (a := i) hnf
  simp only [nextBlk_iterate f d hq]
  generalize i / (Lc3Config.new f d).nf = m at *
  generalize numMemBlocks (Lc3Config.new f d).nMs = N at *
  refine ⟨if q ≤ m then m - q else m + N - q, by split <;> omega, ?_⟩
  have e : (q + (if q ≤ m then m - q else m + N - q)) % N = m := by
    split
    · rw [show q + (m - q) = m by omega, Nat.mod_eq_of_lt hm]
    · rw [show q + (m + N - q) = m + N by omega, Nat.add_mod_right, Nat.mod_eq_of_lt hm]
  rw [e, Nat.mul_comm]
  exact ⟨h1, h2⟩

/-! ### Two channels -/

/-- two channels that have decoded the same plain frame, and then `j` more; `b0` is the position after the first one -/
structure Synced (f : SamplingFrequency) (d : FrameDuration) (b0 j : Nat) (a b : DecChannel α) : Prop where
  ia : ChInv f d a
  ib : ChInv f d b
  spec : a.specLines = b.specLines
  last : a.plc.lastGood = b.plc.lastGood
  lost : a.plc.numLost = b.plc.numLost
  alpha : a.plc.alpha = b.plc.alpha
  ola : a.memOla = b.memOla
  pos : a.ltpf.blockStart = (nextBlk (Lc3Config.new f d))^[j] b0
  agree : Agree a.ltpf b.ltpf (fun i => ∃ t < j, (nextBlk (Lc3Config.new f d))^[t] b0 ≤ i ∧
    i < (nextBlk (Lc3Config.new f d))^[t] b0 + (Lc3Config.new f d).nf)
  later : 0 < j → a.freqSamples = b.freqSamples ∧ a.ltpf.cNumMem = b.ltpf.cNumMem ∧ a.ltpf.cDenMem = b.ltpf.cDenMem

theorem synced_first {f : SamplingFrequency} {d : FrameDuration} {a b : DecChannel α} (ia : ChInv f d a) (ib : ChInv f d b)
    (hb : a.ltpf.blockStart = b.ltpf.blockStart) {checks : Bool} {buf : List Nat} (hp : Plain checks (Lc3Config.new f d) buf)
    (out : List Int) : ∃ a' b' oa ob, decodeChannel checks (Lc3Config.new f d) a 16 buf out = .ok (.ok, a', oa) ∧
      decodeChannel checks (Lc3Config.new f d) b 16 buf out = .ok (.ok, b', ob) ∧
      Synced f d (nextBlk (Lc3Config.new f d) a.ltpf.blockStart) 0 a' b' := by
  obtain ⟨p, hr, hoff⟩ := hp
  obtain ⟨-, lines, hl⟩ := decodeChannel_parsed (α := α) hr
  obtain ⟨ola1, fr1, s1, o1, m1, -, r1, e1, i1⟩ := hl ia out
  obtain ⟨ola2, fr2, s2, o2, m2, -, r2, e2, i2⟩ := hl ib out
  refine ⟨_, _, _, _, e1, e2, ⟨i1, i2, rfl, rfl, rfl, rfl, mdctDecRun_ola m1 m2, (ltpfRun_state r1).2.1, ?_, by simp⟩⟩
  have := agree_first ia.ltpf ib.ltpf hb hoff r1 r2
  exact ⟨this.off1, this.off2, this.blk, this.cn, this.cd, this.pi, this.pf, by simp, by simp⟩

theorem synced_next {f : SamplingFrequency} {d : FrameDuration} {b0 j : Nat} {a b : DecChannel α} (h : Synced f d b0 j a b)
    {checks : Bool} {buf : List Nat} (hp : Plain checks (Lc3Config.new f d) buf) (out : List Int) :
    ∃ a' b' o, decodeChannel checks (Lc3Config.new f d) a 16 buf out = .ok (.ok, a', o) ∧
      decodeChannel checks (Lc3Config.new f d) b 16 buf out = .ok (.ok, b', o) ∧ Synced f d b0 (j + 1) a' b' := by
  obtain ⟨p, hr, hoff⟩ := hp
  obtain ⟨-, lines, hl⟩ := decodeChannel_parsed (α := α) hr
  obtain ⟨ola1, fr1, s1, o1, m1, -, r1, e1, i1⟩ := hl h.ia out
  obtain ⟨ola2, fr2, s2, o2, m2, -, r2, e2, i2⟩ := hl h.ib out
  have hm : (ola1, fr1) = (ola2, fr2) := by
    rw [h.ola, m2] at m1
    simpa using m1.symm
  cases hm
  have ho1 := ltpf_off_out h.ia.ltpf hoff h.agree.off1 r1
  have ho2 := ltpf_off_out h.ib.ltpf hoff h.agree.off2 r2
  subst ho1 ho2
  obtain ⟨hA, hpos, hcn, hcd⟩ := agree_next h.ia.ltpf h.ib.ltpf h.agree hoff r1 r2
  refine ⟨_, _, _, e1, e2, ⟨i1, i2, rfl, rfl, rfl, rfl, rfl, ?_, ?_, fun _ => ⟨rfl, hcn, hcd⟩⟩⟩
  · rw [Function.iterate_succ_apply', ← h.pos]; exact hpos
  · have hiff : ∀ i, (∃ t < j + 1, (nextBlk (Lc3Config.new f d))^[t] b0 ≤ i ∧
        i < (nextBlk (Lc3Config.new f d))^[t] b0 + (Lc3Config.new f d).nf) →
        (∃ t < j, (nextBlk (Lc3Config.new f d))^[t] b0 ≤ i ∧ i < (nextBlk (Lc3Config.new f d))^[t] b0 + (Lc3Config.new f d).nf) ∨
        (a.ltpf.blockStart ≤ i ∧ i < a.ltpf.blockStart + (Lc3Config.new f d).nf) := by
      rintro i ⟨t, ht, h1, h2⟩
      by_cases hc : t < j
      · exact .inl ⟨t, hc, h1, h2⟩
      · have : t = j := by omega
        subst this
        rw [h.pos]
        exact .inr ⟨h1, h2⟩
    exact ⟨hA.off1, hA.off2, hA.blk, hA.cn, hA.cd, hA.pi, hA.pf, fun i hi => hA.x i (hiff i hi), fun i hi => hA.y i (hiff i hi)⟩

omit [Scalar α] in
theorem synced_full {f : SamplingFrequency} {d : FrameDuration} {q j : Nat} (hq : q < numMemBlocks (Lc3Config.new f d).nMs)
    {a b : DecChannel α} (h : Synced f d ((Lc3Config.new f d).nf * q) j a b) (hj : numMemBlocks (Lc3Config.new f d).nMs ≤ j) :
    SameSound a b := by
  obtain ⟨hf, hn, hdn⟩ := h.later (by omega)
  have hmem : ∀ {m1 m2 : List α}, m1.length = ringSize (Lc3Config.new f d) → m2.length = ringSize (Lc3Config.new f d) →
      (∀ i, (∃ t < j, (nextBlk (Lc3Config.new f d))^[t] ((Lc3Config.new f d).nf * q) ≤ i ∧
        i < (nextBlk (Lc3Config.new f d))^[t] ((Lc3Config.new f d).nf * q) + (Lc3Config.new f d).nf) → m1[i]? = m2[i]?) → m1 = m2 := by
    intro m1 m2 l1 l2 hh
    apply List.ext_getElem?
    intro i
    by_cases hi : i < ringSize (Lc3Config.new f d)
    · obtain ⟨t, ht, h1, h2⟩ := blocks_cover f d hq hi
      exact hh i ⟨t, by omega, h1, h2⟩
    · rw [List.getElem?_eq_none (by omega), List.getElem?_eq_none (by omega)]
  have hx := hmem h.ia.ltpf.xl h.ib.ltpf.xl h.agree.x
  have hy := hmem h.ia.ltpf.yl h.ib.ltpf.yl h.agree.y
  refine ⟨h.spec, hf, h.last, h.lost, h.alpha, h.ola, ?_⟩
  have hA := h.agree
  have e1 := hA.off1.trans hA.off2.symm
  have e2 := hA.blk
  have e3 := hA.cn
  have e4 := hA.cd
  have e5 := hA.pi
  have e6 := hA.pf
  revert hx hy e1 e2 e3 e4 e5 e6 hn hdn
  cases a.ltpf
  cases b.ltpf
  simp only
  rintro rfl rfl rfl rfl rfl rfl rfl rfl rfl rfl
  rfl

theorem sameSound_next {f : SamplingFrequency} {d : FrameDuration} {a b : DecChannel α} (ia : ChInv f d a) (ib : ChInv f d b)
    (h : SameSound a b) {checks : Bool} {buf : List Nat} (hp : Parsed checks (Lc3Config.new f d) buf) (out : List Int) :
    ∃ a' b' o, decodeChannel checks (Lc3Config.new f d) a 16 buf out = .ok (.ok, a', o) ∧
      decodeChannel checks (Lc3Config.new f d) b 16 buf out = .ok (.ok, b', o) ∧ ChInv f d a' ∧ ChInv f d b' ∧ SameSound a' b' := by
  obtain ⟨p, hr⟩ := hp
  obtain ⟨-, lines, hl⟩ := decodeChannel_parsed (α := α) hr
  obtain ⟨ola1, fr1, s1, o1, m1, -, r1, e1, i1⟩ := hl ia out
  obtain ⟨ola2, fr2, s2, o2, m2, -, r2, e2, i2⟩ := hl ib out
  have hm : (ola1, fr1) = (ola2, fr2) := by
    rw [h.memOla, m2] at m1
    simpa using m1.symm
  cases hm
  have hs : (s1, o1) = (s2, o2) := by
    rw [h.ltpf, r2] at r1
    simpa using r1.symm
  cases hs
  exact ⟨_, _, _, e1, e2, i1, i2, ⟨rfl, rfl, rfl, rfl, rfl, rfl, rfl⟩⟩

/-! ### Sequences of frames -/

theorem decodeRun_cons {checks : Bool} {cfg : Lc3Config} {ch ch1 ch2 : DecChannel α} {buf : List Nat} {out o : List Int}
    {fs : List (List Nat × List Int)} {os : List (List Int)} (e1 : decodeChannel checks cfg ch 16 buf out = .ok (.ok, ch1, o))
    (e2 : decodeRun checks cfg fs ch1 = .ok (os, ch2)) : decodeRun checks cfg ((buf, out) :: fs) ch = .ok (o :: os, ch2) := by
  rw [decodeRun, e1]
  simp only [Res.bind_ok]
  rw [e2]
  rfl

theorem decodeRun_parsed {f : SamplingFrequency} {d : FrameDuration} {checks : Bool} : ∀ (fs : List (List Nat × List Int))
    {a b : DecChannel α}, ChInv f d a → ChInv f d b → SameSound a b → (∀ x ∈ fs, Parsed checks (Lc3Config.new f d) x.1) →
    ∃ os a' b', decodeRun checks (Lc3Config.new f d) fs a = .ok (os, a') ∧ decodeRun checks (Lc3Config.new f d) fs b = .ok (os, b') ∧
      SameSound a' b'
  | [], a, b, _, _, h, _ => ⟨[], a, b, rfl, rfl, h⟩
  | (buf, out) :: fs, a, b, ia, ib, h, hp => by
    obtain ⟨a1, b1, o, e1, e2, ia1, ib1, h1⟩ := sameSound_next ia ib h (hp (buf, out) (by simp)) out
    obtain ⟨os, a', b', e3, e4, h2⟩ := decodeRun_parsed fs ia1 ib1 h1 (fun x hx => hp x (by simp [hx]))
    exact ⟨o :: os, a', b', decodeRun_cons e1 e3, decodeRun_cons e2 e4, h2⟩

theorem Plain.parsed {checks : Bool} {cfg : Lc3Config} {buf : List Nat} (h : Plain checks cfg buf) : Parsed checks cfg buf := by
  obtain ⟨p, h, -⟩ := h; exact ⟨p, h⟩

theorem decodeRun_plain {f : SamplingFrequency} {d : FrameDuration} {checks : Bool} {q : Nat}
    (hq : q < numMemBlocks (Lc3Config.new f d).nMs) {tail : List (List Nat × List Int)}
    (ht : ∀ x ∈ tail, Parsed checks (Lc3Config.new f d) x.1) : ∀ (fs : List (List Nat × List Int)) {j : Nat}
    {a b : DecChannel α}, Synced f d ((Lc3Config.new f d).nf * q) j a b → numMemBlocks (Lc3Config.new f d).nMs ≤ j + fs.length →
    (∀ x ∈ fs, Plain checks (Lc3Config.new f d) x.1) →
    ∃ os a' b', decodeRun checks (Lc3Config.new f d) (fs ++ tail) a = .ok (os, a') ∧
      decodeRun checks (Lc3Config.new f d) (fs ++ tail) b = .ok (os, b') ∧ SameSound a' b'
  | [], j, a, b, h, hj, _ => decodeRun_parsed tail h.ia h.ib (synced_full hq h (by simpa using hj)) ht
  | (buf, out) :: fs, j, a, b, h, hj, hp => by
    obtain ⟨a1, b1, o, e1, e2, h1⟩ := synced_next h (hp (buf, out) (by simp)) out
    obtain ⟨os, a', b', e3, e4, h2⟩ := decodeRun_plain hq ht fs h1 (by simp only [List.length_cons] at hj; omega)
      (fun x hx => hp x (by simp [hx]))
    exact ⟨o :: os, a', b', decodeRun_cons e1 e3, decodeRun_cons e2 e4, h2⟩

theorem fresh_inv {f : SamplingFrequency} {d : FrameDuration} {ch : DecChannel α} (h : Fresh f d ch) :
    ChInv f d ch ∧ ch.ltpf.blockStart = 0 := by
  obtain ⟨sb, cb, ⟨r1, r2⟩, e⟩ := h
  obtain ⟨h1, h2⟩ := decChannelNew_uses e
  obtain ⟨ch', e', hi⟩ := decChannelNew_ok (f := f) (d := d) (sb := sb) (cb := cb) (by omega) (by omega)
  rw [e] at e'
  simp only [Res.ok.injEq, Prod.mk.injEq] at e'
  refine ⟨e'.1 ▸ hi, ?_⟩
  unfold decChannelNew at e
  obtain ⟨_, e⟩ := bind_splitAt e
  obtain ⟨⟨p, sb1⟩, -, e⟩ := bind_ok_inv e
  obtain ⟨⟨m, sb2, cb1⟩, -, e⟩ := bind_ok_inv e
  obtain ⟨⟨l, sb3⟩, h3, e⟩ := bind_ok_inv e
  obtain ⟨_, e⟩ := bind_splitAt e
  simp only [Res.ok.injEq, Prod.mk.injEq] at e
  obtain ⟨rfl, -⟩ := e
  unfold Ltpf.new at h3
  obtain ⟨_, h3⟩ := bind_splitAt h3
  obtain ⟨_, h3⟩ := bind_splitAt h3
  obtain ⟨_, h3⟩ := bind_splitAt h3
  obtain ⟨_, h3⟩ := bind_splitAt h3
  obtain ⟨_, h3⟩ := bind_splitAt h3
  obtain ⟨_, h3⟩ := bind_splitAt h3
  obtain ⟨_, h3⟩ := bind_splitAt h3
  obtain ⟨_, h3⟩ := bind_splitAt h3
  simp only [Res.ok.injEq, Prod.mk.injEq] at h3
  obtain ⟨rfl, -⟩ := h3
  rfl

/-- every frame that was decoded, whatever it contained, moves the position in the circular memories by one -/
theorem decodeChannel_pos {cfg : Lc3Config} {checks : Bool} {ch ch' : DecChannel α} {buf : List Nat} {out o : List Int}
    {r : DecResult} (e : decodeChannel checks cfg ch 16 buf out = .ok (r, ch', o)) :
    ch'.ltpf.blockStart = nextBlk cfg ch.ltpf.blockStart := by
  unfold decodeChannel at e
  rw [if_neg (by simp)] at e
  obtain ⟨⟨lines, plc, info⟩, -, e⟩ := bind_ok_inv e
  simp only at e
  split at e
  · cases e
  obtain ⟨⟨ola, fr⟩, -, e⟩ := bind_ok_inv e
  obtain ⟨⟨s', o'⟩, h3, e⟩ := bind_ok_inv e
  simp only [Res.ok.injEq, Prod.mk.injEq] at e
  obtain ⟨-, rfl, -⟩ := e
  exact (ltpfRun_state h3).2.1

theorem decodeRun_inv {f : SamplingFrequency} {d : FrameDuration} {checks : Bool} : ∀ (fs : List (List Nat × List Int))
    {ch ch' : DecChannel α} {os : List (List Int)}, ChInv f d ch → decodeRun checks (Lc3Config.new f d) fs ch = .ok (os, ch') →
    ChInv f d ch' ∧ ch'.ltpf.blockStart = (nextBlk (Lc3Config.new f d))^[fs.length] ch.ltpf.blockStart
  | [], ch, ch', os, h, e => by
    simp only [decodeRun, Res.ok.injEq, Prod.mk.injEq] at e
    obtain ⟨-, rfl⟩ := e
    exact ⟨h, rfl⟩
  | (buf, out) :: fs, ch, ch', os, h, e => by
    rw [decodeRun] at e
    obtain ⟨⟨r, c1, o⟩, e1, e⟩ := bind_ok_inv e
    obtain ⟨⟨os', c2⟩, e2, e⟩ := bind_ok_inv e
    simp only [Res.ok.injEq, Prod.mk.injEq] at e
    obtain ⟨-, rfl⟩ := e
    obtain ⟨i1, i2⟩ := decodeRun_inv fs (decodeChannel_inv h e1).1 e2
    exact ⟨i1, by rw [i2, decodeChannel_pos e1, List.length_cons, Function.iterate_succ_apply]⟩

theorem resyncFrames_eq (f : SamplingFrequency) (d : FrameDuration) :
    resyncFrames d = numMemBlocks (Lc3Config.new f d).nMs + 1 := by
  cases f <;> cases d <;> rfl

/-- **C60.** Two channels made with any buffers decode any frames, damaged or not, until both have decoded numbers of
frames with the same remainder (for one decoder with a damaged and one with an undamaged stream the numbers are equal).
Then both get the same `first :: rest`, at least 3 frames of 10 ms or 4 of 7.5 ms, which are accepted by the parser and do
not use the post filter, and then the same frames `tail`, which are accepted. All calls return, all output samples after
those of `first` are equal, and the states at the end agree up to the frame counter and the random number of the
concealment. This holds for every arithmetic, hence also for the rounding of the actual floating point numbers. -/
theorem C60 {f : SamplingFrequency} {d : FrameDuration} {checks : Bool} {a0 b0 a b : DecChannel α} (ha : Fresh f d a0)
    (hb : Fresh f d b0) {preA preB : List (List Nat × List Int)} {oa ob : List (List Int)}
    (ea : decodeRun checks (Lc3Config.new f d) preA a0 = .ok (oa, a)) (eb : decodeRun checks (Lc3Config.new f d) preB b0 = .ok (ob, b))
    (hn : preA.length % (resyncFrames d - 1) = preB.length % (resyncFrames d - 1))
    {first : List Nat × List Int} {rest tail : List (List Nat × List Int)} (h1 : Plain checks (Lc3Config.new f d) first.1)
    (hr : ∀ x ∈ rest, Plain checks (Lc3Config.new f d) x.1) (hlen : resyncFrames d ≤ rest.length + 1)
    (ht : ∀ x ∈ tail, Parsed checks (Lc3Config.new f d) x.1) :
    ∃ o1 o2 os a' b', decodeRun checks (Lc3Config.new f d) (first :: (rest ++ tail)) a = .ok (o1 :: os, a') ∧
      decodeRun checks (Lc3Config.new f d) (first :: (rest ++ tail)) b = .ok (o2 :: os, b') ∧ SameSound a' b' := by
  obtain ⟨ia0, pa0⟩ := fresh_inv ha
  obtain ⟨ib0, pb0⟩ := fresh_inv hb
  obtain ⟨ia, pa⟩ := decodeRun_inv preA ia0 ea
  obtain ⟨ib, pb⟩ := decodeRun_inv preB ib0 eb
  have hN := resyncFrames_eq f d
  have hN0 : 0 < numMemBlocks (Lc3Config.new f d).nMs := by cases f <;> cases d <;> decide
  rw [hN, Nat.add_sub_cancel] at hn
  have hpos : a.ltpf.blockStart = b.ltpf.blockStart := by
    have z : (0 : Nat) = (Lc3Config.new f d).nf * 0 := by simp
    rw [pa, pb, pa0, pb0, z, nextBlk_iterate f d hN0, nextBlk_iterate f d hN0, Nat.zero_add, Nat.zero_add, hn]
  obtain ⟨a1, b1, o1, o2, e1, e2, hs⟩ := synced_first ia ib hpos h1 first.2
  obtain ⟨q, hq, hqe⟩ := hs.ia.ltpf.block
  rw [hs.pos, Function.iterate_zero, id] at hqe
  rw [hqe] at hs
  obtain ⟨os, a', b', e3, e4, h⟩ := decodeRun_plain hq ht rest hs (by omega) hr
  exact ⟨o1, o2, os, a', b', decodeRun_cons e1 e3, decodeRun_cons e2 e4, h⟩

/-- two channels that play the same plain frames -/
structure Tuned (f : SamplingFrequency) (d : FrameDuration) (a b : DecChannel α) : Prop where
  ia : ChInv f d a
  ib : ChInv f d b
  ola : a.memOla = b.memOla
  off1 : a.ltpf.activePrev = false
  off2 : b.ltpf.activePrev = false

theorem tuned_run {f : SamplingFrequency} {d : FrameDuration} {checks : Bool} : ∀ (fs : List (List Nat × List Int))
    {a b : DecChannel α}, Tuned f d a b → (∀ x ∈ fs, Plain checks (Lc3Config.new f d) x.1) →
    ∃ os a' b', decodeRun checks (Lc3Config.new f d) fs a = .ok (os, a') ∧ decodeRun checks (Lc3Config.new f d) fs b = .ok (os, b')
  | [], a, b, _, _ => ⟨[], a, b, rfl, rfl⟩
  | (buf, out) :: fs, a, b, h, hp => by
    obtain ⟨p, hr, hoff⟩ := hp (buf, out) (by simp)
    obtain ⟨-, lines, hl⟩ := decodeChannel_parsed (α := α) hr
    obtain ⟨ola1, fr1, s1, o1, m1, -, r1, e1, i1⟩ := hl h.ia out
    obtain ⟨ola2, fr2, s2, o2, m2, -, r2, e2, i2⟩ := hl h.ib out
    have hm : (ola1, fr1) = (ola2, fr2) := by
      rw [h.ola, m2] at m1
      simpa using m1.symm
    cases hm
    have ho1 := ltpf_off_out h.ia.ltpf hoff h.off1 r1
    have ho2 := ltpf_off_out h.ib.ltpf hoff h.off2 r2
    subst ho1 ho2
    obtain ⟨os, a', b', e3, e4⟩ := tuned_run fs ⟨i1, i2, rfl, (ltpfRun_state r1).1.trans hoff, (ltpfRun_state r2).1.trans hoff⟩
      (fun x hx => hp x (by simp [hx]))
    exact ⟨_, a', b', decodeRun_cons e1 e3, decodeRun_cons e2 e4⟩

/-- **C60, tuning in.** Two decoders with any histories (also of different lengths) that get the same frames without the
post filter play the same samples from the second of these frames on. -/
theorem C60_tune_in {f : SamplingFrequency} {d : FrameDuration} {checks : Bool} {a0 b0 a b : DecChannel α} (ha : Fresh f d a0)
    (hb : Fresh f d b0) {preA preB : List (List Nat × List Int)} {oa ob : List (List Int)}
    (ea : decodeRun checks (Lc3Config.new f d) preA a0 = .ok (oa, a)) (eb : decodeRun checks (Lc3Config.new f d) preB b0 = .ok (ob, b))
    {first : List Nat × List Int} {rest : List (List Nat × List Int)} (h1 : Plain checks (Lc3Config.new f d) first.1)
    (hr : ∀ x ∈ rest, Plain checks (Lc3Config.new f d) x.1) :
    ∃ o1 o2 os a' b', decodeRun checks (Lc3Config.new f d) (first :: rest) a = .ok (o1 :: os, a') ∧
      decodeRun checks (Lc3Config.new f d) (first :: rest) b = .ok (o2 :: os, b') := by
  obtain ⟨ia, -⟩ := decodeRun_inv preA (fresh_inv ha).1 ea
  obtain ⟨ib, -⟩ := decodeRun_inv preB (fresh_inv hb).1 eb
  obtain ⟨p, hrd, hoff⟩ := h1
  obtain ⟨-, lines, hl⟩ := decodeChannel_parsed (α := α) hrd
  obtain ⟨ola1, fr1, s1, o1, m1, -, r1, e1, i1⟩ := hl ia first.2
  obtain ⟨ola2, fr2, s2, o2, m2, -, r2, e2, i2⟩ := hl ib first.2
  obtain ⟨os, a', b', e3, e4⟩ := tuned_run rest ⟨i1, i2, mdctDecRun_ola m1 m2, (ltpfRun_state r1).1.trans hoff,
    (ltpfRun_state r2).1.trans hoff⟩ hr
  exact ⟨_, _, os, a', b', decodeRun_cons e1 e3, decodeRun_cons e2 e4⟩

theorem plain_of {checks : Bool} {cfg : Lc3Config} {buf : List Nat}
    (h : (match readFrame checks cfg buf with | .ok p => !p.1.ltpf.isActive | _ => false) = true) : Plain checks cfg buf := by
  cases e : readFrame checks cfg buf with
  | ok p => rw [e] at h; exact ⟨p, e, by simpa using h⟩
  | err => rw [e] at h; simp at h
  | panic => rw [e] at h; simp at h

theorem parsed_active_of {checks : Bool} {cfg : Lc3Config} {buf : List Nat}
    (h : (match readFrame checks cfg buf with | .ok p => p.1.ltpf.isActive | _ => false) = true) : Parsed checks cfg buf := by
  cases e : readFrame checks cfg buf with
  | ok p => exact ⟨p, e⟩
  | err => rw [e] at h; simp at h
  | panic => rw [e] at h; simp at h

/-- One decoder gets a frame that is refused (20 bytes 255), the other one a good frame; after three good frames with
nonzero lines both decode a frame that uses the post filter to the same samples. -/
example : ∃ (a0 b0 a b : DecChannel α) (oa ob : List (List Int)) (o1 o2 : List Int) (os : List (List Int)) (a' b' : DecChannel α),
    Fresh .hz16000 .tenMs a0 ∧ Fresh .hz16000 .tenMs b0 ∧
    readFrame true (Lc3Config.new .hz16000 .tenMs) (List.replicate 20 255) = .err ∧
    decodeRun true (Lc3Config.new .hz16000 .tenMs) [(List.replicate 20 255, [0, 0])] a0 = .ok (oa, a) ∧
    decodeRun true (Lc3Config.new .hz16000 .tenMs) [(List.replicate 20 9, [0, 0])] b0 = .ok (ob, b) ∧
    decodeRun true (Lc3Config.new .hz16000 .tenMs) [(List.replicate 20 9, [0, 0]), (List.replicate 20 10, [0, 0]),
      (List.replicate 20 11, [0, 0]), (List.replicate 20 7, [0, 0])] a = .ok (o1 :: os, a') ∧
    decodeRun true (Lc3Config.new .hz16000 .tenMs) [(List.replicate 20 9, [0, 0]), (List.replicate 20 10, [0, 0]),
      (List.replicate 20 11, [0, 0]), (List.replicate 20 7, [0, 0])] b = .ok (o2 :: os, b') ∧ SameSound a' b' := by
  obtain ⟨a0, ea, ia⟩ := decChannelNew_ok (f := .hz16000) (d := .tenMs)
    (sb := List.replicate (chanScalars (Lc3Config.new .hz16000 .tenMs)) (zero : α))
    (cb := List.replicate (chanComplex (Lc3Config.new .hz16000 .tenMs)) ⟨zero, zero⟩) (by rw [List.length_replicate])
    (by rw [List.length_replicate])
  have hbad : readFrame true (Lc3Config.new .hz16000 .tenMs) (List.replicate 20 255) = .err := by decide +kernel
  have h9 : Plain true (Lc3Config.new .hz16000 .tenMs) (List.replicate 20 9) := plain_of (by decide +kernel)
  have h10 : Plain true (Lc3Config.new .hz16000 .tenMs) (List.replicate 20 10) := plain_of (by decide +kernel)
  have h11 : Plain true (Lc3Config.new .hz16000 .tenMs) (List.replicate 20 11) := plain_of (by decide +kernel)
  have h7 : Parsed true (Lc3Config.new .hz16000 .tenMs) (List.replicate 20 7) := parsed_active_of (by decide +kernel)
  obtain ⟨a, oa, e1⟩ := decodeChannel_err ia hbad [0, 0]
  obtain ⟨b, b2, ob, ob2, e2, -, -⟩ := synced_first ia ia rfl h9 [0, 0]
  have hf : Fresh .hz16000 .tenMs a0 := ⟨_, _, _, ea⟩
  have e1' : decodeRun true (Lc3Config.new .hz16000 .tenMs) [(List.replicate 20 255, [0, 0])] a0 = .ok ([oa], a) :=
    decodeRun_cons e1 rfl
  have e2' : decodeRun true (Lc3Config.new .hz16000 .tenMs) [(List.replicate 20 9, [0, 0])] a0 = .ok ([ob], b) :=
    decodeRun_cons e2 rfl
  obtain ⟨o1, o2, os, a', b', g1, g2, g3⟩ := C60 hf hf e1' e2' rfl (first := (List.replicate 20 9, [0, 0]))
    (rest := [(List.replicate 20 10, [0, 0]), (List.replicate 20 11, [0, 0])]) (tail := [(List.replicate 20 7, [0, 0])]) h9
    (by intro x hx; simp only [List.mem_cons, List.not_mem_nil, or_false] at hx; rcases hx with rfl | rfl; exacts [h10, h11])
    (by decide) (by intro x hx; simp only [List.mem_cons, List.not_mem_nil, or_false] at hx; rw [hx]; exact h7)
  exact ⟨a0, a0, a, b, _, _, o1, o2, os, a', b', hf, hf, hbad, e1', e2', g1, g2, g3⟩

end Lc3
