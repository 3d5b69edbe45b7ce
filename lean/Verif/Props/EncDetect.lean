import Verif.Model.EncDetect
import Verif.Model.F32
import Verif.Spec.EncDetect
import Verif.Lemmas.Safe
import Verif.Lemmas.NoErr
import Verif.Lemmas.F32
import Verif.Props.Residual
import Verif.Props.DecoderSpectrum
/-! C34, C38, C39: bandwidth, attack detection and noise level of the encoder -/

namespace Lc3
open Scalar Spec

variable {α : Type} [Scalar α]

/-! ## Attack detector -/

theorem attackIsActive_iff (f : SamplingFrequency) (d : FrameDuration) (n : Nat) :
    attackIsActive (Lc3Config.new f d) n = true ↔ AttackRange f d n := by
  have h1 : (Lc3Config.new f d).fs = fsOf f := by cases f <;> cases d <;> rfl
  have h2 : (Lc3Config.new f d).nMs = d := by cases f <;> cases d <;> rfl
  unfold attackIsActive
  rw [h1, h2]
  cases f <;> cases d <;> simp [AttackRange, fsOf] <;> omega

/-- **C38** Outside its operating range the attack detector reports no attack and forgets everything except the two
remembered samples. -/
theorem C38 (f : SamplingFrequency) (d : FrameDuration) (s : AttackSt α) (x : List Int) (nbytes : Nat)
    (hx : x.length = (Lc3Config.new f d).nf) (hr : ¬ AttackRange f d nbytes) :
    attackRun (Lc3Config.new f d) s x nbytes = .ok (⟨zero, zero, -1, s.tminus1, s.tminus2⟩, false) := by
  have h : attackIsActive (Lc3Config.new f d) nbytes = false := by
    rw [← attackIsActive_iff] at hr
    simpa using hr
  unfold attackRun
  rw [if_neg (by simpa using hx), if_pos (by simp [h])]

/-- a sequence of frames, with the attack flags -/
def attackRunAll (cfg : Lc3Config) : AttackSt α → List (List Int × Nat) → Res (AttackSt α × List Bool)
  | s, [] => .ok (s, [])
  | s, (x, n) :: fs => do
    let (s, b) ← attackRun cfg s x n
    let (s, bs) ← attackRunAll cfg s fs
    .ok (s, b :: bs)

/-- **C38** (histories) After a frame outside the operating range all later decisions and states depend on what came before
that frame only through the two remembered samples. -/
theorem C38_history (f : SamplingFrequency) (d : FrameDuration) (s s' : AttackSt α) (x : List Int) (nbytes : Nat)
    (hx : x.length = (Lc3Config.new f d).nf) (hr : ¬ AttackRange f d nbytes)
    (h1 : s.tminus1 = s'.tminus1) (h2 : s.tminus2 = s'.tminus2) (frames : List (List Int × Nat)) :
    attackRunAll (Lc3Config.new f d) s ((x, nbytes) :: frames) =
      attackRunAll (Lc3Config.new f d) s' ((x, nbytes) :: frames) := by
  simp only [attackRunAll, C38 f d _ x nbytes hx hr, h1, h2]

theorem attackDownsample_ok {b : Nat} {x : List Int} (n : Nat) :
    ∀ i, b * (i + n) ≤ x.length → ∃ l, attackDownsample b x i n = .ok l ∧ l.length = n ∧
      ∀ j, j < n → l.getD j 0 = ((x.drop (b * (i + j))).take b).sum := by
  induction n with
  | zero => intro i _; exact ⟨[], rfl, rfl, by omega⟩
  | succ n ih =>
    intro i h
    have hle : b * i + b ≤ x.length := by
      calc b * i + b = b * (i + 1) := by ring
        _ ≤ b * (i + (n + 1)) := Nat.mul_le_mul_left b (by omega)
        _ ≤ x.length := h
    obtain ⟨l, hl, hlen, hv⟩ := ih (i + 1) (by rw [show i + 1 + n = i + (n + 1) by omega]; exact h)
    refine ⟨((x.drop (b * i)).take b).foldl (· + ·) 0 :: l, ?_, by simp [hlen], ?_⟩
    · simp only [attackDownsample, if_pos hle, hl, Res.bind_ok]
    · intro j hj
      cases j with
      | zero => simp [List.sum_eq_foldl]
      | succ j =>
        have := hv j (by omega)
        simp only [List.getD_cons_succ]
        rw [this, show i + 1 + j = i + (j + 1) by omega]

/-- **C38** (active frames) In its operating range the detector does not panic, and the two remembered samples are the sums
of the last two blocks of the frame. -/
theorem C38_active (f : SamplingFrequency) (d : FrameDuration) (s : AttackSt α) (x : List Int) (nbytes : Nat)
    (hx : x.length = (Lc3Config.new f d).nf) (hr : AttackRange f d nbytes) :
    ∃ s' b, attackRun (Lc3Config.new f d) s x nbytes = .ok (s', b) ∧
      s'.tminus1 = (x.drop (x.length - x.length / (attackDims d).1)).sum ∧
      s'.tminus2 = ((x.drop (x.length - 2 * (x.length / (attackDims d).1))).take (x.length / (attackDims d).1)).sum := by
  have h : attackIsActive (Lc3Config.new f d) nbytes = true := (attackIsActive_iff f d nbytes).2 hr
  have hd : (Lc3Config.new f d).nMs = d := by cases f <;> cases d <;> rfl
  obtain ⟨b, nd, hnd, hb, hbx, h2⟩ : ∃ b nd, nd = (attackDims d).1 ∧ b = (Lc3Config.new f d).nf / nd ∧
      (Lc3Config.new f d).nf = b * nd ∧ 2 ≤ nd := by
    refine ⟨_, _, rfl, rfl, ?_, ?_⟩
    · cases f <;> cases d <;> first | decide | (exact absurd hr (by simp [AttackRange]))
    · cases d <;> decide
  obtain ⟨ds, hds, hlen, hv⟩ := attackDownsample_ok (b := b) (x := x) nd 0 (by rw [hx, hbx]; simp)
  obtain ⟨blk, lim, hdim⟩ : ∃ blk lim, attackDims d = (nd, blk, lim) := ⟨(attackDims d).2.1, (attackDims d).2.2, by rw [hnd]⟩
  unfold attackRun
  rw [if_neg (by simpa using hx), if_neg (by simp [h]), hd, hdim]
  simp only [← hb, hds, Res.bind_ok]
  have u1 : usub ds.length 1 = .ok (nd - 1) := by unfold usub; rw [if_pos (by omega), hlen]
  have u2 : usub ds.length 2 = .ok (nd - 2) := by unfold usub; rw [if_pos (by omega), hlen]
  rw [u1, u2]
  simp only [Res.bind_ok]
  rw [idx_eq_ok (by omega), idx_eq_ok (by omega)]
  simp only [Res.bind_ok]
  refine ⟨_, _, rfl, ?_, ?_⟩
  · have := hv (nd - 1) (by omega)
    rw [List.getD_eq_getElem _ _ (by omega)] at this
    simp only
    rw [this, hx, hbx, Nat.mul_div_cancel _ (by omega)]
    have e : b * (0 + (nd - 1)) = b * nd - b := by rw [Nat.zero_add, Nat.mul_sub, Nat.mul_one]
    rw [e, List.take_of_length_le]
    rw [List.length_drop, hx, hbx]
    have : b ≤ b * nd := Nat.le_mul_of_pos_right _ (by omega)
    omega
  · have := hv (nd - 2) (by omega)
    rw [List.getD_eq_getElem _ _ (by omega)] at this
    simp only
    rw [this, hx, hbx, Nat.mul_div_cancel _ (by omega)]
    have e : b * (0 + (nd - 2)) = b * nd - 2 * b := by rw [Nat.zero_add, Nat.mul_sub, Nat.mul_comm b 2]
    rw [e]

/-- 16 kHz is outside, 48 kHz with 150 bytes per 10 ms is inside the range -/
example : ¬ AttackRange .hz16000 .tenMs 150 ∧ AttackRange .hz48000 .tenMs 150 := by
  constructor
  · simp [AttackRange]
  · simp [AttackRange]

/-! ## Bandwidth detector -/

theorem bwNew_zero (d : FrameDuration) : BwDet.new d 0 = .panic := by cases d <;> rfl

/-- the tables of a detector -/
structure BwOk (b : BwDet) (n : Nat) : Prop where
  fs : b.fsInd = n
  lstart : b.start.length = 4
  lstop : b.stop.length = 4
  ll : b.l.length = 4
  band : ∀ k, k < n → b.start.getD k 0 ≤ b.stop.getD k 0 ∧ b.stop.getD k 0 + 1 ≤ 64 ∧
    b.l.getD k 0 ≤ b.start.getD k 0 + 1 ∧ 2 * b.l.getD k 0 ≤ b.start.getD k 0 + 1

theorem bwNew_ok (d : FrameDuration) {n : Nat} (h1 : 1 ≤ n) (h4 : n ≤ 4) :
    ∃ b, BwDet.new d n = .ok b ∧ BwOk b n := by
  have hn : n = 1 ∨ n = 2 ∨ n = 3 ∨ n = 4 := by omega
  rcases hn with rfl | rfl | rfl | rfl <;> cases d <;>
    exact ⟨_, rfl, ⟨rfl, rfl, rfl, rfl, by decide⟩⟩

theorem bwQuiet_safe {b : BwDet} {n : Nat} (hb : BwOk b n) (hn : n ≤ 4) {eb : List α} (he : eb.length = 64) (k : Nat) :
    k ≤ n → Safe (bwQuiet b eb k) (fun i => i ≤ k) := by
  induction k with
  | zero => intro _; exact Nat.le_refl 0
  | succ k ih =>
    intro hk
    obtain ⟨b1, b2, -, -⟩ := hb.band k (by omega)
    have e1 := hb.lstart
    have e2 := hb.lstop
    rw [List.getD_eq_getElem _ _ (by omega : k < b.start.length)] at b1
    rw [List.getD_eq_getElem _ _ (by omega : k < b.stop.length)] at b1 b2
    unfold bwQuiet
    rw [idx_eq_ok (by omega : k < b.start.length), idx_eq_ok (by omega : k < b.stop.length)]
    simp only [Res.bind_ok]
    refine Safe.bind (safe_usub (by omega)) ?_
    rintro w -
    rw [if_pos (by omega)]
    refine Safe.bind (safe_idx (by simp [QUIET_THRESH]; omega)) ?_
    rintro th -
    refine Safe.ite (fun _ => Nat.le_refl _) (fun _ => ?_)
    exact (ih (by omega)).mono (fun a h => by omega)

theorem bwCutoff_safe {eb : List α} {l : Nat} (cnt : Nat) :
    ∀ n m, l ≤ n → n + cnt ≤ eb.length → Safe (bwCutoff eb l n cnt m) (fun _ => True) := by
  induction cnt with
  | zero => intros; trivial
  | succ cnt ih =>
    intro n m h1 h2
    unfold bwCutoff
    refine Safe.bind (safe_usub h1) ?_
    rintro j rfl
    refine Safe.bind (safe_idx (by omega)) ?_
    rintro _ -
    refine Safe.bind (safe_idx (by omega)) ?_
    rintro _ -
    exact ih _ _ (by omega) (by omega)

theorem bwRun_safe {b : BwDet} {n : Nat} (hb : BwOk b n) (h1 : 1 ≤ n) (hn : n ≤ 4) {eb : List α} (he : eb.length = 64) :
    Safe (bwRun b eb) (fun r => r.1 ≤ n ∧ NBITS_BW[n]? = some r.2) := by
  have hfs := hb.fs
  unfold bwRun
  rw [hfs, idx_eq_ok (by simp [NBITS_BW]; omega)]
  simp only [Res.bind_ok]
  rw [if_neg (by omega)]
  have hbits : NBITS_BW[n]? = some (NBITS_BW[n]'(by simp [NBITS_BW]; omega)) := List.getElem?_eq_getElem _
  refine Safe.bind (bwQuiet_safe hb hn he n (Nat.le_refl _)) ?_
  intro ind hind
  refine Safe.ite (fun _ => ⟨hind, hbits⟩) (fun hne => ?_)
  have e1 := hb.lstart
  have e2 := hb.lstop
  have e3 := hb.ll
  obtain ⟨-, b2, b3, b4⟩ := hb.band ind (by omega)
  obtain ⟨b0, -⟩ := hb.band ind (by omega)
  rw [List.getD_eq_getElem _ _ (by omega : ind < b.l.length), List.getD_eq_getElem _ _ (by omega : ind < b.start.length)]
    at b3 b4
  rw [List.getD_eq_getElem _ _ (by omega : ind < b.start.length), List.getD_eq_getElem _ _ (by omega : ind < b.stop.length)]
    at b0
  rw [List.getD_eq_getElem _ _ (by omega : ind < b.stop.length)] at b2
  rw [idx_eq_ok (by omega : ind < b.l.length), idx_eq_ok (by omega : ind < b.start.length)]
  simp only [Res.bind_ok]
  refine Safe.bind (safe_usub b3) ?_
  rintro frm rfl
  refine Safe.bind (bwCutoff_safe _ _ _ (by omega) (by omega)) ?_
  rintro m -
  refine Safe.bind (safe_idx (by simp [CUTOFF_THRESH]; omega)) ?_
  rintro th -
  exact Safe.ite (fun _ => ⟨hind, hbits⟩) (fun _ => ⟨Nat.le_refl _, hbits⟩)

theorem noErr_bwQuiet (b : BwDet) (eb : List α) : ∀ k, NoErr (bwQuiet b eb k)
  | 0 => noErr_ok _
  | k + 1 => by
    have ih := noErr_bwQuiet b eb k
    unfold bwQuiet
    no_err

theorem noErr_bwCutoff (eb : List α) (l : Nat) : ∀ cnt n m, NoErr (bwCutoff eb l n cnt m)
  | 0, _, _ => noErr_ok _
  | cnt + 1, n, m => by
    have ih := noErr_bwCutoff eb l cnt
    unfold bwCutoff
    refine (noErr_usub _ _).bind fun _ => (noErr_idx _ _).bind fun _ => (noErr_idx _ _).bind fun _ => ih _ _

theorem noErr_bwRun (b : BwDet) (eb : List α) : NoErr (bwRun b eb) := by
  have h1 := noErr_bwQuiet b eb
  have h2 := noErr_bwCutoff eb
  unfold bwRun
  refine (noErr_idx _ _).bind fun _ => noErr_ite (noErr_ok _) ((h1 _).bind fun _ => noErr_ite (noErr_ok _) ?_)
  refine (noErr_idx _ _).bind fun _ => (noErr_idx _ _).bind fun _ => (noErr_usub _ _).bind fun _ => (h2 _ _ _ _).bind fun _ =>
    (noErr_idx _ _).bind fun _ => noErr_ite (noErr_ok _) (noErr_ok _)

/-- **C34** For every sampling rate with a detector and every vector of 64 band energies, bandwidth detection succeeds, the index
is at most the index of the sampling rate, the decoder uses the same field width (`NBITS_BW_TABLE`), the index fits the field, and
it passes the decoder's range check (`readBandwidth` accepts exactly the indices up to the index of the sampling rate). -/
theorem C34 (d : FrameDuration) {fsInd : Nat} (h4 : fsInd ≤ 4) {b : BwDet} (hb : BwDet.new d fsInd = .ok b)
    {eb : List α} (he : eb.length = 64) :
    ∃ ind nbits, bwRun b eb = .ok (ind, nbits) ∧ ind ≤ fsInd ∧ NBITS_BW_TABLE[fsInd]? = some nbits ∧ ind < 2 ^ nbits := by
  have h1 : 1 ≤ fsInd := by
    rcases Nat.eq_zero_or_pos fsInd with rfl | h
    · rw [bwNew_zero] at hb; cases hb
    · exact h
  obtain ⟨b', hb', hok⟩ := bwNew_ok d h1 h4
  rw [hb] at hb'
  obtain rfl : b = b' := by simpa using hb'
  obtain ⟨r, hr, a, c⟩ := (bwRun_safe hok h1 h4 he).exists_ok (noErr_bwRun b eb)
  refine ⟨r.1, r.2, hr, a, ?_, ?_⟩
  · rw [← c]; rfl
  · have hn : fsInd = 1 ∨ fsInd = 2 ∨ fsInd = 3 ∨ fsInd = 4 := by omega
    rcases hn with rfl | rfl | rfl | rfl <;> (simp [NBITS_BW] at c; rw [← c]; omega)

/-- the range check of the decoder, for the field written by the encoder -/
theorem C34_accepted {fsInd ind : Nat} (h : ind ≤ fsInd) (hn : NBITS_BW_TABLE[fsInd]? = some nbits) (h0 : 0 < nbits)
    {buf : List Nat} {r r' : Reader} (hr : r.readTailUsize buf nbits = .ok (ind, r')) :
    readBandwidth buf r fsInd = .ok (ind, r') := by
  unfold readBandwidth
  rw [idx_ok_iff.2 hn]
  simp only [Res.bind_ok]
  rw [if_pos h0, hr]
  simp only [Res.bind_ok]
  rw [if_neg (by omega)]

/-- At 8 kHz there is no detector: its construction indexes the tables with `0 - 1`. -/
theorem C34_no_detector_8kHz (d : FrameDuration) : BwDet.new d (Lc3Config.new .hz8000 d).fsInd = .panic := by
  cases d <;> rfl

/-- all other rates have one -/
example : ∃ b, BwDet.new .tenMs 4 = .ok b := ⟨_, rfl⟩

/-! ## Noise level -/

theorem noiseDims_eq (d : FrameDuration) {bw : Nat} (hb : bw ≤ 4) :
    noiseDims d bw = .ok (bandLimit d bw, noiseStart d, noiseDist d) := by
  have hn : bw = 0 ∨ bw = 1 ∨ bw = 2 ∨ bw = 3 ∨ bw = 4 := by omega
  rcases hn with rfl | rfl | rfl | rfl | rfl <;> cases d <;> rfl

theorem all_zero_iff_empty {d : FrameDuration} {bw : Nat} {xq : List Int} {k : Nat} (h1 : noiseStart d ≤ k)
    (h2 : k < bandLimit d bw) (hl : bandLimit d bw ≤ xq.length) :
    ((xq.drop (k - noiseDist d)).take (min (bandLimit d bw) (k + noiseDist d + 1) - (k - noiseDist d))).all
      (fun v => v == 0) = true ↔ Empty d bw xq k := by
  have hw : noiseDist d ≤ k := by cases d <;> simp only [noiseStart, noiseDist] at * <;> omega
  rw [List.all_eq_true]
  constructor
  · intro h
    refine ⟨h1, h2, ?_⟩
    intro j j1 j2 j3
    rw [List.getD_eq_getElem _ _ (by omega)]
    have := h xq[j] (by
      rw [List.mem_iff_getElem]
      refine ⟨j - (k - noiseDist d), by simp; omega, ?_⟩
      rw [List.getElem_take, List.getElem_drop]
      congr 1; omega)
    simpa using this
  · rintro ⟨-, -, h⟩ v hv
    obtain ⟨i, hi, rfl⟩ := List.mem_iff_getElem.1 hv
    rw [List.length_take, List.length_drop] at hi
    rw [List.getElem_take, List.getElem_drop]
    have := h (k - noiseDist d + i) (by omega) (by omega) (by omega)
    rw [List.getD_eq_getElem _ _ (by omega)] at this
    simp [this]

open Classical in
theorem noiseSum_eq {d : FrameDuration} {bw : Nat} {xq : List Int} {xf : List α} {gg : α}
    (hl : bandLimit d bw ≤ xq.length) (n : Nat) : ∀ k s c, noiseStart d ≤ k → k + n ≤ bandLimit d bw → k + n ≤ xf.length →
    noiseSum (bandLimit d bw) (noiseDist d) xf xq gg k n (s, c) =
      .ok (((((xf.drop k).take n).zipIdx k).filter fun p => Empty d bw xq p.2).foldl
            (fun s p => s + absS p.1 / gg) s,
           c + ((((xf.drop k).take n).zipIdx k).filter fun p => Empty d bw xq p.2).length) := by
  induction n with
  | zero => intro k s c _ _ _; simp [noiseSum]
  | succ n ih =>
    intro k s c h1 h2 h3
    have hw : noiseDist d ≤ k := by cases d <;> simp only [noiseStart, noiseDist] at * <;> omega
    unfold noiseSum
    rw [idx_eq_ok (by omega)]
    simp only [Res.bind_ok]
    rw [show usub k (noiseDist d) = .ok (k - noiseDist d) by unfold usub; rw [if_pos hw]]
    simp only [Res.bind_ok]
    rw [if_pos (by omega)]
    have hcons : (xf.drop k).take (n + 1) = xf[k] :: (xf.drop (k + 1)).take n := by
      rw [List.drop_eq_getElem_cons (by omega), List.take_succ_cons]
    rw [hcons, List.zipIdx_cons, List.filter_cons]
    by_cases he : Empty d bw xq k
    · rw [if_pos ((all_zero_iff_empty h1 (by omega) hl).2 he), if_pos (by simpa using he), ih _ _ _ (by omega) (by omega) (by omega)]
      simp only [List.foldl_cons, List.length_cons]
      congr 2; omega
    · rw [if_neg (fun h => he ((all_zero_iff_empty h1 (by omega) hl).1 h)), if_neg (by simpa using he),
        ih _ _ _ (by omega) (by omega) (by omega)]

/-- **C39** (contributing lines) The noise factor is quantised from the mean magnitude of exactly those lines that are empty in
the sense of the decoder's noise filling (C13), for every scalar type. -/
theorem C39_lines (d : FrameDuration) {bw ne : Nat} (hb : bw ≤ 4) {xf : List α} {xq : List Int} (gg : α)
    (hl : bandLimit d bw ≤ xq.length) (hn : bandLimit d bw ≤ ne) (hf : bandLimit d bw ≤ xf.length) :
    noiseFactor d ne xf xq bw gg = .ok (noiseQuant (meanLevel gg (emptyLines d bw xq xf))) := by
  classical
  unfold noiseFactor
  rw [noiseDims_eq d hb]
  simp only [Res.bind_ok]
  have hs : noiseStart d ≤ bandLimit d bw := by cases d <;> simp only [noiseStart, bandLimit] <;> omega
  rw [show min xf.length (min ne (bandLimit d bw)) = bandLimit d bw by omega]
  rw [noiseSum_eq hl _ _ _ _ (Nat.le_refl _) (by omega) (by omega)]
  simp only [Res.bind_ok]
  have key : (((xf.drop (noiseStart d)).take (bandLimit d bw - noiseStart d)).zipIdx (noiseStart d)).filter
      (fun p => decide (Empty d bw xq p.2)) = xf.zipIdx.filter (fun p => decide (Empty d bw xq p.2)) := by
    have e : xf = xf.take (noiseStart d) ++ ((xf.drop (noiseStart d)).take (bandLimit d bw - noiseStart d) ++
        xf.drop (bandLimit d bw)) := by
      conv_lhs => rw [← List.take_append_drop (noiseStart d) xf,
        ← List.take_append_drop (bandLimit d bw - noiseStart d) (xf.drop (noiseStart d)), List.drop_drop]
      rw [show noiseStart d + (bandLimit d bw - noiseStart d) = bandLimit d bw by omega]
    conv_rhs => rw [e]
    rw [List.zipIdx_append, List.zipIdx_append, List.filter_append, List.filter_append]
    have f1 : (xf.take (noiseStart d)).zipIdx.filter (fun p => decide (Empty d bw xq p.2)) = [] := by
      rw [List.filter_eq_nil_iff]
      rintro ⟨x, i⟩ hp
      have := List.snd_lt_of_mem_zipIdx hp
      simp only [decide_eq_true_eq]
      rintro ⟨a, -⟩
      simp at this a; omega
    have f2 : ∀ m, bandLimit d bw ≤ m → ((xf.drop (bandLimit d bw)).zipIdx m).filter
        (fun p => decide (Empty d bw xq p.2)) = [] := by
      intro m hm
      rw [List.filter_eq_nil_iff]
      rintro ⟨x, i⟩ hp
      have := List.le_snd_of_mem_zipIdx hp
      simp only [decide_eq_true_eq]
      rintro ⟨-, a, -⟩
      simp at this a; omega
    rw [f1, f2 _ (by simp; omega), List.nil_append, List.append_nil]
    congr 2
    simp; omega
  rw [key]
  unfold meanLevel emptyLines
  rw [List.foldl_map]
  congr 2
  simp only [Nat.zero_add, List.length_map]
  cases h : xf.zipIdx.filter (fun p => decide (Empty d bw xq p.2)) with
  | nil => simp
  | cons a l => simp

theorem geS_pos {x : F32} (el : F32.Elem) (h : @geS F32 (F32.scalar el) x (F32.fin 0) = true) :
    x = F32.inf false ∨ ∃ q : ℚ, 0 ≤ q ∧ x = F32.fin q := by
  cases x with
  | nan => exact absurd h (by show ¬ ((false || false) = true); simp)
  | inf s =>
    cases s with
    | false => exact .inl rfl
    | true => exact absurd h (by show ¬ ((false || false) = true); simp)
  | fin q =>
    refine .inr ⟨q, ?_, rfl⟩
    change (decide (0 < q) || decide (q = 0)) = true at h
    rw [Bool.or_eq_true, decide_eq_true_eq, decide_eq_true_eq] at h
    rcases h with h | h
    · exact h.le
    · rw [h]

theorem toI32_nonneg {q : ℚ} (h : 0 ≤ q) : 0 ≤ F32.toI32 (F32.rnd q) := by
  have h1 := F32.rndQ_nonneg h
  unfold F32.rnd
  split
  · decide
  split
  · rename_i h2
    exfalso
    have : (0 : ℚ) < 2 ^ 128 := by norm_num
    linarith
  · show 0 ≤ max (-2147483648) (min 2147483647 (F32.truncQ (F32.rndQ q)))
    unfold F32.truncQ
    rw [if_pos h1]
    have : 0 ≤ ⌊F32.rndQ q⌋ := Int.floor_nonneg.2 h1
    omega

/-- **C39** In binary32 the noise factor fits its 3 bit field for every noise level: negative, infinite and NaN levels
included. -/
theorem C39_range (el : F32.Elem) (level : F32) : @noiseQuant F32 (F32.scalar el) level ≤ 7 := by
  have hz : (@zero F32 (F32.scalar el)) = F32.fin 0 := by
    show F32.rnd 0 = _
    rw [show (0 : ℚ) = ((0 : ℤ) : ℚ) by norm_num, F32.rnd_int (by norm_num)]
  obtain ⟨x, hx⟩ : ∃ x, x = F32.sub (F32.rnd 8) (F32.mul (F32.rnd 16) level) := ⟨_, rfl⟩
  change (if @geS F32 (F32.scalar el) (F32.sub (F32.rnd 8) (F32.mul (F32.rnd 16) level)) _ = true then
    i32AsUsize (min 7 (F32.toI32 (F32.add (F32.sub (F32.rnd 8) (F32.mul (F32.rnd 16) level)) (F32.rnd (1 / 2))))) else 0) ≤ 7
  rw [← hx]
  split
  · rename_i h
    rw [hz] at h
    have hh : F32.rnd (1 / 2) = F32.fin (1 / 2) := by
      have := F32.rnd_sixteenth (n := 8) (by norm_num)
      norm_num at this ⊢
      exact this
    have : 0 ≤ F32.toI32 (F32.add x (F32.rnd (1 / 2))) := by
      rw [hh]
      rcases geS_pos el h with rfl | ⟨q, hq, rfl⟩
      · simp [F32.add, F32.toI32]
      · exact toI32_nonneg (by linarith)
    unfold i32AsUsize
    omega
  · omega

/-- **C39** In binary32, for every spectrum, gain (zero, infinite and NaN included), bandwidth and duration: the noise factor
exists, is at most 7, and is computed from the empty lines only. -/
theorem C39 (el : F32.Elem) (d : FrameDuration) {bw ne : Nat} (hb : bw ≤ 4) {xf : List F32} {xq : List Int} (gg : F32)
    (hl : bandLimit d bw ≤ xq.length) (hn : bandLimit d bw ≤ ne) (hf : bandLimit d bw ≤ xf.length) :
    ∃ n, @noiseFactor F32 (F32.scalar el) d ne xf xq bw gg = .ok n ∧ n ≤ 7 ∧
      ∀ xf' : List F32, bandLimit d bw ≤ xf'.length → emptyLines d bw xq xf' = emptyLines d bw xq xf →
        @noiseFactor F32 (F32.scalar el) d ne xf' xq bw gg = .ok n := by
  refine ⟨_, @C39_lines F32 (F32.scalar el) d bw ne hb xf xq gg hl hn hf, C39_range el _, ?_⟩
  intro xf' hf' he
  rw [@C39_lines F32 (F32.scalar el) d bw ne hb xf' xq gg hl hn hf', he]

/-- the lengths of every configuration fit -/
example (f : SamplingFrequency) (d : FrameDuration) :
    bandLimit d (Lc3Config.new f d).fsInd ≤ (Lc3Config.new f d).ne := by
  cases f <;> cases d <;> decide

end Lc3
