import Verif.Lemmas.FrameRead
import Verif.Lemmas.FrameLsbError
import Verif.Props.RangeCoder
/-! # C03, C04, C05, C30, C31: whole frames

The encoder of a frame is `encodeFrame`; `encodeBody` is its part before the refinement bits. The hypothesis
`Fits N s t` says that the body ended in state `s` with `t` bits written from the end and that the encoder's
own estimate of the head bits still fits the frame of `N` bytes. -/

namespace Lc3
open Tables

/-- the body fits the frame by the encoder's own count -/
structure Fits (N : Nat) (s : EncSt) (t : Nat) : Prop where
  side : s.w.nbitsSideWritten (8 * N) = .ok t
  fits : t + nbitsAriForecast s ≤ 8 * N

/-- number of bits left for refinement by the encoder's own count -/
def encoderRoom (N : Nat) (s : EncSt) (t : Nat) : Nat := 8 * N - (t + nbitsAriForecast s)

theorem Fits.toBody {N t : Nat} {s : EncSt} (h : Fits N s t) : BodyFits N s := ⟨t, h.side, h.fits⟩

/-- the number of backward bits is the length of the bits of the body -/
theorem Fits.t_eq {f : SamplingFrequency} {d : FrameDuration} {p : FrameParams} {q : PulseIdx}
    {buf : List Nat} {stale s : EncSt} {lsbs : List Bool} {t : Nat}
    (h : BodyHyp (Lc3Config.new f d) buf.length p q) (hN : buf.length < 65536)
    (hb : encodeBody (Lc3Config.new f d).ne p stale buf = .ok (lsbs, s)) (hf : Fits buf.length s t) :
    t = (bodySt (Lc3Config.new f d).ne p).tl.length := by
  obtain ⟨_, hd, hp⟩ := body_post h hN hb hf.toBody
  have := hp.frame.nbitsSideWritten
  rw [hp.frame.len, Nat.mul_comm, hf.side, Res.ok.injEq] at this
  exact this

/-- **C03** The side information of every frame that fits is read back, whatever else the frame holds. -/
theorem C03 {f : SamplingFrequency} {d : FrameDuration} {p : FrameParams} {q : PulseIdx} {buf : List Nat}
    {stale s : EncSt} {lsbs : List Bool} {t : Nat} (hs : SideOk (Lc3Config.new f d) p q)
    (hd : DataOk (Lc3Config.new f d) buf.length p) (hN : buf.length < 65536)
    (hb : encodeBody (Lc3Config.new f d).ne p stale buf = .ok (lsbs, s)) (hfit : Fits buf.length s t) :
    ∃ s' r, encodeFrame (Lc3Config.new f d).ne p stale buf = .ok s' ∧ s'.buf.length = buf.length ∧
      readSideInfo s'.buf Reader.new (Lc3Config.new f d).fsInd (Lc3Config.new f d).ne =
        .ok (expectedSide p q, r) := by
  have h := bodyHyp_of_ok hs hd hb
  obtain ⟨s', σ, K, hσ, e1, _, hroom, hpost, hfore, hfits⟩ := frame_post h hN hb hfit.toBody
  have hl : s'.buf.length = buf.length := hpost.len
  have htl : ∃ rest, σ.tl = sideBits (Lc3Config.new f d).ne p ++ rest := by
    rw [hσ, bodySt_eq]
    have key : ∀ (es : List Ev) (σ : ASt), ∃ r, (σ.run es).tl = σ.tl ++ r := by
      intro es
      induction es with
      | nil => intro σ; exact ⟨[], by simp [ASt.run]⟩
      | cons e es ih =>
        intro σ
        obtain ⟨r, hr⟩ := ih (σ.step e)
        cases e with
        | sym c g => exact ⟨r, hr⟩
        | bit b => exact ⟨b :: r, by simp only [ASt.run, hr]; simp [ASt.step]⟩
    obtain ⟨r1, h1⟩ := key (tnsEvs p.lpcWeighting p.rcOrder p.rcI 0 p.numTns) (sideSt (Lc3Config.new f d).ne p)
    obtain ⟨r2, h2⟩ := key (pairsEv p.lsbMode p.rateFlag (Lc3Config.new f d).ne (p.xq.take p.lastnz) 0 0)
      (tnsSt (Lc3Config.new f d).ne p)
    refine ⟨r1 ++ r2, ?_⟩
    rw [h2]
    show ((sideSt (Lc3Config.new f d).ne p).run _).tl ++ r2 = _
    rw [h1]; simp [sideSt]
  obtain ⟨rest, htl⟩ := htl
  have hlen : (sideBits (Lc3Config.new f d).ne p).length ≤ σ.tl.length := by rw [htl]; simp
  have hK : 2 ≤ nbitsAriForecast s := by unfold nbitsAriForecast; omega
  refine ⟨s', _, e1, hl, readSideInfo_spec hs hpost.bytes (by omega) ?_⟩
  intro i hi
  rw [Nat.zero_add, hpost.tail i (by rw [List.length_append]; omega)]
  have hi2 : i < σ.tl.length := by omega
  rw [List.getElem_append_left hi2]
  have : σ.tl[i]? = (sideBits (Lc3Config.new f d).ne p)[i]? := by
    rw [htl, List.getElem?_append_left hi]
  rw [List.getElem?_eq_getElem hi2, List.getElem?_eq_getElem hi, Option.some.injEq] at this
  exact this

/-- Full statement of C04 (normal mode): every frame that fits is decoded to the parameters, the quantised
spectrum and the refinement bits that were written. -/
def C04_statement : Prop :=
  ∀ (f : SamplingFrequency) (d : FrameDuration) (p : FrameParams) (q : PulseIdx) (buf : List Nat)
    (stale s : EncSt) (lsbs : List Bool) (t : Nat) (checks : Bool),
    SideOk (Lc3Config.new f d) p q → DataOk (Lc3Config.new f d) buf.length p → buf.length < 65536 →
    p.lsbMode = false → encodeBody (Lc3Config.new f d).ne p stale buf = .ok (lsbs, s) →
    Fits buf.length s t → (checks = false ∨ weightedSum (p.xq.take p.lastnz) < 2 ^ 31) →
    ∃ s' bits, encodeFrame (Lc3Config.new f d).ne p stale buf = .ok s' ∧
      readFrame checks (Lc3Config.new f d) s'.buf = .ok (expectedSide p q,
        ⟨expectedOrders p, expectedTnsIdx p, bits, expectedSeed p, expectedZero p, 8 * buf.length⟩,
        expectedX p) ∧
      (∀ i, i < encoderRoom buf.length s t → i < p.residual.length → i < nonZeroLines p →
        bits[i]? = p.residual[i]?)

/-- **C04**, with the exception forced by the missing mask in `ac_enc_finish`: the final value of the range
coder does not wrap, or 22 bits of the frame stay unused. The decoder reports `min m nz` refinement bits
where `nz` is the number of non-zero lines and `m` the number of free bits of the encoder, plus 8 if the
range coder never emitted a byte (see `C30`). What is missing is only the excluded case, which is false
(`C04_fails`). -/
theorem C04_partial {f : SamplingFrequency} {d : FrameDuration} {p : FrameParams} {q : PulseIdx}
    {buf : List Nat} {stale s : EncSt} {lsbs : List Bool} {t : Nat} (checks : Bool)
    (hs : SideOk (Lc3Config.new f d) p q) (hd : DataOk (Lc3Config.new f d) buf.length p)
    (hN : buf.length < 65536) (hmode : p.lsbMode = false)
    (hb : encodeBody (Lc3Config.new f d).ne p stale buf = .ok (lsbs, s)) (hfit : Fits buf.length s t)
    (hwrap : ¬ finalValueWraps s.ac ∨ t + nbitsAriForecast s + p.residual.length + 22 ≤ 8 * buf.length)
    (hseed : checks = false ∨ weightedSum (p.xq.take p.lastnz) < 2 ^ 31) :
    ∃ s' bits, encodeFrame (Lc3Config.new f d).ne p stale buf = .ok s' ∧ s'.buf.length = buf.length ∧
      readFrame checks (Lc3Config.new f d) s'.buf = .ok (expectedSide p q,
        ⟨expectedOrders p, expectedTnsIdx p, bits, expectedSeed p, expectedZero p, 8 * buf.length⟩,
        expectedX p) ∧
      bits.length = min (encoderRoom buf.length s t + if s.ac.cache < 0 then 8 else 0) (nonZeroLines p) ∧
      (∀ i, i < encoderRoom buf.length s t → i < p.residual.length → i < nonZeroLines p →
        bits[i]? = p.residual[i]?) := by
  have h := bodyHyp_of_ok hs hd hb
  have ht := hfit.t_eq h hN hb
  obtain ⟨_, hd', hp⟩ := body_post h hN hb hfit.toBody
  have hok := bodySt_ok h (Lc3Config.new f d).ne
  obtain ⟨hl1, hl2⟩ := log2_le hok.1 hok.2
  have hfore := hp.fore
  have hfits := hp.fits
  have hroom : encRoom buf.length (bodySt (Lc3Config.new f d).ne p) s = encoderRoom buf.length s t := by
    unfold encRoom encoderRoom; rw [ht]
  have hext : extraBits p (encoderRoom buf.length s t) = p.residual.take (encoderRoom buf.length s t) := by
    unfold extraBits; rw [hmode]; rfl
  obtain ⟨s', e1, hl, hg⟩ := frame_good h hN hb hfit.toBody (by
    rw [hroom, hext]
    rcases hwrap with hw | hw
    · exact .inl ((finalValueWraps_iff _).1 hw)
    · right
      rw [List.length_take]
      by_cases hc : s.ac.cache < 0
      · simp only [hc, if_true] at hfore; omega
      · simp only [hc, if_false] at hfore; omega)
  rw [hroom, hext] at hg
  rw [← hl] at h
  obtain ⟨bits, r1, r2, r3⟩ := readFrame_normal checks h hmode hg (by rw [hl]; omega) hseed
  refine ⟨s', bits, e1, hl, by rw [← hl]; exact r1, ?_, ?_⟩
  · rw [r2, hl]
    congr 1
    unfold decRoom encoderRoom
    rw [ht]
    by_cases hc : s.ac.cache < 0
    · simp only [hc, if_true] at hfore ⊢; omega
    · simp only [hc, if_false] at hfore ⊢; omega
  · intro i h1 h2 h3
    have hi : i < bits.length := by
      rw [r2, hl]
      unfold decRoom
      unfold encoderRoom at h1
      rw [ht] at h1
      omega
    rw [r3 i (by rw [List.length_take]; omega) hi, List.getElem?_take_of_lt h1]

/-- **C05** (LSB mode) for spectra in which at most the first pair of lines is escaped, with the exception
about the final value of the range coder as in C04. The decoder stores the number of escapes of pair `k` at
position `k` but reads it at position `2 k`, hence the restriction; `C05_fails` shows that it is needed. -/
theorem C05_partial {f : SamplingFrequency} {d : FrameDuration} {p : FrameParams} {q : PulseIdx}
    {buf : List Nat} {stale s : EncSt} {lsbs : List Bool} {t : Nat} (checks : Bool)
    (hs : SideOk (Lc3Config.new f d) p q) (hd : DataOk (Lc3Config.new f d) buf.length p)
    (hN : buf.length < 65536) (hmode : p.lsbMode = true)
    (hb : encodeBody (Lc3Config.new f d).ne p stale buf = .ok (lsbs, s)) (hfit : Fits buf.length s t)
    (hall : lsbs.length ≤ encoderRoom buf.length s t)
    (hesc : ∀ k, 0 < k → ¬ Escaped p k)
    (hwrap : ¬ finalValueWraps s.ac ∨ t + nbitsAriForecast s + lsbs.length + 22 ≤ 8 * buf.length)
    (hseed : checks = false ∨ weightedSum (p.xq.take p.lastnz) < 2 ^ 31) :
    ∃ s', encodeFrame (Lc3Config.new f d).ne p stale buf = .ok s' ∧ s'.buf.length = buf.length ∧
      readFrame checks (Lc3Config.new f d) s'.buf = .ok (expectedSide p q,
        ⟨expectedOrders p, expectedTnsIdx p, [], expectedSeed p, expectedZero p, 8 * buf.length⟩,
        expectedX p) := by
  have h := bodyHyp_of_ok hs hd hb
  have ht := hfit.t_eq h hN hb
  obtain ⟨hlsb, hd', hp⟩ := body_post h hN hb hfit.toBody
  have hok := bodySt_ok h (Lc3Config.new f d).ne
  obtain ⟨hl1, hl2⟩ := log2_le hok.1 hok.2
  have hfore := hp.fore
  have hfits := hp.fits
  rw [hmode] at hlsb
  have hroom : encRoom buf.length (bodySt (Lc3Config.new f d).ne p) s = encoderRoom buf.length s t := by
    unfold encRoom encoderRoom; rw [ht]
  have hext : extraBits p (encoderRoom buf.length s t) = lsbs := by
    unfold extraBits; rw [hmode, hlsb]
    simp only [if_true]
    rw [List.take_of_length_le (by rw [← hlsb]; exact hall)]
  obtain ⟨s', e1, hl, hg⟩ := frame_good h hN hb hfit.toBody (by
    rw [hroom, hext]
    rcases hwrap with hw | hw
    · exact .inl ((finalValueWraps_iff _).1 hw)
    · right
      by_cases hc : s.ac.cache < 0
      · simp only [hc, if_true] at hfore; omega
      · simp only [hc, if_false] at hfore; omega)
  rw [hroom, hext] at hg
  rw [← hl] at h
  unfold encoderRoom at hall
  have r1 := readFrame_lsb checks h hmode hg hlsb (by rw [hl]; omega)
    (fun k hk => by
      by_cases h0 : k = 0
      · rw [h0]
      · exact ⟨fun hh => absurd hh (hesc _ (by omega)), fun hh => absurd hh (hesc _ (by omega))⟩) hseed
  exact ⟨s', e1, hl, by rw [← hl]; exact r1⟩

/-- **C05**, what holds for every frame in LSB mode, whichever pairs are escaped and even if the postponed bits do not all fit
(exception about the final value of the range coder as in C04): the decoder returns, all parameters but the lines are exact,
no line is more than one off, except that a line `1` or `-1` may change its sign, and the lines of a pair `k` are exact
if neither pair `k` nor pair `2 k` is escaped. -/
theorem C05_error {f : SamplingFrequency} {d : FrameDuration} {p : FrameParams} {q : PulseIdx}
    {buf : List Nat} {stale s : EncSt} {lsbs : List Bool} {t : Nat} (checks : Bool)
    (hs : SideOk (Lc3Config.new f d) p q) (hd : DataOk (Lc3Config.new f d) buf.length p)
    (hN : buf.length < 65536) (hmode : p.lsbMode = true)
    (hb : encodeBody (Lc3Config.new f d).ne p stale buf = .ok (lsbs, s)) (hfit : Fits buf.length s t)
    (hwrap : ¬ finalValueWraps s.ac ∨
      t + nbitsAriForecast s + min lsbs.length (encoderRoom buf.length s t) + 22 ≤ 8 * buf.length)
    (hseed : checks = false ∨ weightedSum (p.xq.take p.lastnz) + 400000 < 2 ^ 31) :
    ∃ s' ys, encodeFrame (Lc3Config.new f d).ne p stale buf = .ok s' ∧ s'.buf.length = buf.length ∧
      ys.length = p.lastnz ∧
      readFrame checks (Lc3Config.new f d) s'.buf = .ok (expectedSide p q,
        ⟨expectedOrders p, expectedTnsIdx p, [], weightedSum ys % 65536,
          decide (p.lastnz = 2 ∧ p.ggInd = 0 ∧ ∀ y ∈ ys, y = 0), 8 * buf.length⟩,
        ys ++ List.replicate (400 - p.lastnz) 0) ∧
      ∀ i < p.lastnz,
        ((ys.getD i 0 - p.xq.getD i 0).natAbs ≤ 1 ∨ ((p.xq.getD i 0).natAbs = 1 ∧ ys.getD i 0 = -p.xq.getD i 0)) ∧
        (¬ Escaped p (i / 2) → ¬ Escaped p (2 * (i / 2)) → ys.getD i 0 = p.xq.getD i 0) := by
  have h := bodyHyp_of_ok hs hd hb
  have ht := hfit.t_eq h hN hb
  obtain ⟨hlsb, hd', hp⟩ := body_post h hN hb hfit.toBody
  have hok := bodySt_ok h (Lc3Config.new f d).ne
  obtain ⟨hl1, hl2⟩ := log2_le hok.1 hok.2
  have hfore := hp.fore
  have hfits := hp.fits
  rw [hmode] at hlsb
  have hroom : encRoom buf.length (bodySt (Lc3Config.new f d).ne p) s = encoderRoom buf.length s t := by
    unfold encRoom encoderRoom; rw [ht]
  have hextl : (extraBits p (encoderRoom buf.length s t)).length = min lsbs.length (encoderRoom buf.length s t) := by
    unfold extraBits; rw [hmode, hlsb]
    simp only [if_true, List.length_take]
    omega
  obtain ⟨s', e1, hl, hg⟩ := frame_good h hN hb hfit.toBody (by
    rw [hroom]
    rcases hwrap with hw | hw
    · exact .inl ((finalValueWraps_iff _).1 hw)
    · right
      by_cases hc : s.ac.cache < 0
      · simp only [hc, if_true] at hfore; omega
      · simp only [hc, if_false] at hfore; omega)
  rw [hroom] at hg
  rw [← hl] at h
  obtain ⟨ys, hy, herr, hex, r1⟩ := readFrame_lsb_any checks h hmode hg (by rw [hl]; omega) hseed
  have hget : ∀ i < p.lastnz, (p.xq.take p.lastnz).getD i 0 = p.xq.getD i 0 := by
    intro i hi
    have := hd.lines
    rw [List.getD_eq_getElem _ _ (by rw [List.length_take]; omega), List.getD_eq_getElem _ _ (by omega), List.getElem_take]
  refine ⟨s', ys, e1, hl, hy, by rw [← hl]; exact r1, ?_⟩
  intro i hi
  have a1 := herr i
  have a2 := hex i
  rw [hget i hi] at a1 a2
  exact ⟨a1, a2⟩

/-- **C30** On every frame that fits, the decoder derives from its read positions the number of refinement
bits the encoder reserved, except that it counts 8 more if the range coder has not emitted a byte yet
(`nbits_side_forcast` tests `carry >= 0` where `cache >= 0` is meant). In the exceptional case the
encoder still has the 8 bits free, hence no other data is read. Missing: equality in the exceptional case, which is false (`C30_fails`). -/
theorem C30_partial {f : SamplingFrequency} {d : FrameDuration} {p : FrameParams} {q : PulseIdx}
    {buf : List Nat} {stale s : EncSt} {lsbs : List Bool} {t : Nat}
    (hs : SideOk (Lc3Config.new f d) p q) (hd : DataOk (Lc3Config.new f d) buf.length p)
    (hN : buf.length < 65536)
    (hb : encodeBody (Lc3Config.new f d).ne p stale buf = .ok (lsbs, s)) (hfit : Fits buf.length s t)
    (hwrap : ¬ finalValueWraps s.ac) :
    ∃ s' r ac r1 ac1 r2 ac2 r3 tns xs,
      encodeFrame (Lc3Config.new f d).ne p stale buf = .ok s' ∧
      readSideInfo s'.buf Reader.new (Lc3Config.new f d).fsInd (Lc3Config.new f d).ne =
        .ok (expectedSide p q, r) ∧
      acDecInit s'.buf r = .ok (ac, r1) ∧
      decodeTnsData s'.buf r1 (expectedSide p q) ac (8 * buf.length) (Lc3Config.new f d).nMs = .ok (tns, ac1, r2) ∧
      decodeSpectralData s'.buf r2 (expectedSide p q) (8 * buf.length) (Lc3Config.new f d).fsInd
        (Lc3Config.new f d).ne ac1 = .ok (xs, ac2, r3) ∧
      calcNumResidualBits r3 ac2 (8 * buf.length) =
        .ok (encoderRoom buf.length s t + if s.ac.cache < 0 then 8 else 0) := by
  have h := bodyHyp_of_ok hs hd hb
  have ht := hfit.t_eq h hN hb
  obtain ⟨_, hd', hp⟩ := body_post h hN hb hfit.toBody
  have hok := bodySt_ok h (Lc3Config.new f d).ne
  obtain ⟨hl1, hl2⟩ := log2_le hok.1 hok.2
  have hfore := hp.fore
  have hfits := hp.fits
  have hmin := bodySt_tl_min h.side
  obtain ⟨s', e1, hl, hg⟩ := frame_good h hN hb hfit.toBody (.inl ((finalValueWraps_iff _).1 hwrap))
  rw [← hl] at h
  obtain ⟨hg1, _⟩ := hg.dropTail
  have hfp := front_post h hg1 (by rw [hl]; omega)
  have hnum := calcNumResidualBits_spec (B := s'.buf) hok (by omega) (by rw [hl]; omega)
  obtain ⟨q1, q2, q3, q4⟩ := hfp
  rw [hl, Nat.mul_comm] at q3 q4 hnum
  refine ⟨s', _, _, _, _, _, _, _, _, _, e1, q1, q2, q3, q4, ?_⟩
  rw [hnum]
  congr 1
  unfold decRoom encoderRoom
  rw [ht]
  by_cases hc : s.ac.cache < 0
  · simp only [hc, if_true] at hfore ⊢; omega
  · simp only [hc, if_false] at hfore ⊢; omega

/-- **C31** The frame (bytes, writer and coder state) is a function of the parameters and the length: the
state left by an earlier frame and the old contents of the buffer have no influence. -/
theorem C31 (ne : Nat) (p : FrameParams) (stale stale' : EncSt) (buf buf' : List Nat)
    (h : buf.length = buf'.length) : encodeFrame ne p stale buf = encodeFrame ne p stale' buf' := by
  unfold encodeFrame
  rw [encodeBody_stale ne p stale stale' h]

/-! ### Examples and counterexamples -/

/-- parameters of a 16 kHz, 10 ms frame of 20 bytes -/
def exampleParams (lsb : Bool) (order : Nat) (xq : List Int) (res : List Bool) : FrameParams where
  bandwidthInd := 1
  nbitsBandwidth := 1
  lastnz := xq.length
  lsbMode := lsb
  ggInd := 100
  numTns := 1
  rcOrder := [order, 0]
  rcI := [8, 3, 0, 0, 0, 0, 0, 0, 0, 0, 0, 0, 0, 0, 0, 0]
  lpcWeighting := 1
  pitchPresent := false
  ltpfActive := false
  pitchIndex := 0
  indLf := 3
  indHf := 7
  shapeJ := 2
  gind := 1
  lsInda := 0
  indexJoint := 12345
  noiseFactor := 3
  rateFlag := 0
  nbitsLsb := 20
  xq := xq
  residual := res

def staleSt : EncSt := ⟨⟨7, 3, 1⟩, [1], ⟨5, 0, 9, 1, 2⟩⟩

theorem example_side (lsb : Bool) (order : Nat) (xq : List Int) (res : List Bool) (h1 : xq.length % 2 = 0)
    (h2 : 2 ≤ xq.length) (h3 : xq.length ≤ 160) :
    SideOk (Lc3Config.new .hz16000 .tenMs) (exampleParams lsb order xq res) ⟨12345, 0, 0⟩ :=
  { bwBits := rfl, bw := (by decide : 1 ≤ 1), lastnzEven := h1, lastnzLo := h2, lastnzHi := h3,
    gg := (by decide : 100 < 256), numTns := rfl, rcOrderLen := rfl, pitch := (by decide : 0 < 512),
    lf := (by decide : 3 < 32), hf := (by decide : 7 < 32), shape := (by decide : 2 < 4),
    gain := (by decide : 1 < 4), sign := (by decide : 0 ≤ 1),
    joint := (by decide : 12345 = jointIndex 2 1 12345 0 0), idxa := (by decide : 12345 < 15158272),
    idxb := fun h => absurd h (by decide : ¬ 2 = 0), noise := (by decide : 3 < 8) }

theorem example_data (lsb : Bool) (order : Nat) (xq : List Int) (res : List Bool) (ho : order ≤ 8)
    (h : ∀ x ∈ xq, x.natAbs < 32768) :
    DataOk (Lc3Config.new .hz16000 .tenMs) 20 (exampleParams lsb order xq res) := by
  refine ⟨rfl, ?_, (by decide : ∀ c ∈ [8, 3, 0, 0, 0, 0, 0, 0, 0, 0, 0, 0, 0, 0, 0, 0], c < 17), rfl, rfl,
    le_refl _, ?_⟩
  · intro o h
    simp only [exampleParams, List.mem_cons, List.not_mem_nil, or_false] at h
    omega
  · intro x hx; exact h x (List.mem_of_mem_take hx)

/-- spectrum and refinement bits of the first example -/
def exampleNormal : FrameParams :=
  exampleParams false 2 [3, -1, 0, 17, 0, 0, -2, 1] [true, false, true, true, false]

def exampleNormalSt : EncSt :=
  ⟨⟨4, 11, 128⟩, [7, 177, 66, 180, 0, 0, 0, 0, 0, 0, 0, 32, 166, 0, 96, 114, 103, 26, 200, 7],
    ⟨6192128, 4543488, 4, 0, 0⟩⟩

/-- the hypotheses of C03, C04 and C30 hold for it -/
example : SideOk (Lc3Config.new .hz16000 .tenMs) exampleNormal ⟨12345, 0, 0⟩ ∧
    DataOk (Lc3Config.new .hz16000 .tenMs) 20 exampleNormal ∧
    encodeBody 160 exampleNormal staleSt (List.replicate 20 77) = .ok ([], exampleNormalSt) ∧
    Fits 20 exampleNormalSt 71 ∧ ¬ finalValueWraps exampleNormalSt.ac :=
  ⟨example_side _ _ _ _ (by decide) (by decide) (by decide), example_data _ _ _ _ (by decide) (by decide),
    by decide +kernel, ⟨by decide +kernel, by decide +kernel⟩, by unfold finalValueWraps; decide +kernel⟩

/-- C31 on it: different stale states and buffers -/
example : encodeFrame 160 exampleNormal staleSt (List.replicate 20 77) =
    encodeFrame 160 exampleNormal exampleNormalSt (List.replicate 20 0) := C31 _ _ _ _ _ _ rfl

/-- a frame in LSB mode whose first pair is escaped -/
def exampleLsb : FrameParams := exampleParams true 0 [13, 1, 0, 1, -1, 0] []

def exampleLsbSt : EncSt :=
  ⟨⟨1, 11, 2⟩, [196, 0, 0, 0, 0, 0, 0, 0, 0, 0, 0, 1, 6, 0, 96, 114, 103, 24, 201, 5],
    ⟨2737152, 10091520, 132, 0, 0⟩⟩

/-- the hypotheses of C05 hold for it -/
example : SideOk (Lc3Config.new .hz16000 .tenMs) exampleLsb ⟨12345, 0, 0⟩ ∧
    DataOk (Lc3Config.new .hz16000 .tenMs) 20 exampleLsb ∧
    encodeBody 160 exampleLsb staleSt (List.replicate 20 0) = .ok ([true, true, false], exampleLsbSt) ∧
    Fits 20 exampleLsbSt 65 ∧ ([true, true, false] : List Bool).length ≤ encoderRoom 20 exampleLsbSt 65 ∧
    (∀ k, 0 < k → ¬ Escaped exampleLsb k) ∧ Escaped exampleLsb 0 ∧ ¬ finalValueWraps exampleLsbSt.ac := by
  refine ⟨example_side _ _ _ _ (by decide) (by decide) (by decide), example_data _ _ _ _ (by decide) (by decide),
    by decide +kernel, ⟨by decide +kernel, by decide +kernel⟩, by decide +kernel, ?_,
    .inl (by decide), by unfold finalValueWraps; decide +kernel⟩
  intro k hk
  have h1 : k = 1 ∨ k = 2 ∨ 3 ≤ k := by omega
  rcases h1 with rfl | rfl | h
  · unfold Escaped; decide
  · unfold Escaped; decide
  · unfold Escaped
    rw [List.getD_eq_default _ _ (by simp [exampleLsb, exampleParams]; omega),
      List.getD_eq_default _ _ (by simp [exampleLsb, exampleParams]; omega)]
    decide

/-- spectrum of a frame of 20 bytes whose final value wraps -/
def wrapParams : FrameParams :=
  exampleParams false 0 [-1, 1, -1, -2, -2, 2, -2, 2, 0, -1, -2, 0, 0, -1, 2, 2, -1, -1, -2, -1, 2, 0, 2, 0, -1, -1]
    (List.replicate 21 true)

/-- **C04 fails as stated**: in this frame of 20 bytes line 24 is decoded as -2 instead of -1. -/
theorem C04_fails : ¬ C04_statement := by
  intro h
  obtain ⟨s', bits, e, hr, _⟩ := h .hz16000 .tenMs wrapParams ⟨12345, 0, 0⟩ (List.replicate 20 0) staleSt
    ⟨⟨6, 9, 2⟩, [26, 20, 15, 44, 9, 107, 0, 0, 0, 1, 158, 117, 214, 0, 96, 114, 103, 24, 200, 25],
      ⟨9084672, 11136000, 163, 0, 0⟩⟩ [] 81 true
    (example_side _ _ _ _ (by decide) (by decide) (by decide)) (example_data _ _ _ _ (by decide) (by decide))
    (by decide) rfl (by decide +kernel) ⟨by decide +kernel, by decide +kernel⟩ (.inr (by decide +kernel))
  have e' : encodeFrame (Lc3Config.new .hz16000 .tenMs).ne wrapParams staleSt (List.replicate 20 0) =
      .ok ⟨⟨7, 7, 64⟩, [26, 20, 15, 44, 9, 107, 164, 63, 255, 255, 158, 117, 214, 0, 96, 114, 103, 24, 200, 25],
        ⟨0, 11136000, 0, 0, 0⟩⟩ := by decide +kernel
  rw [e'] at e
  cases e
  have hd : (readFrame true (Lc3Config.new .hz16000 .tenMs)
      [26, 20, 15, 44, 9, 107, 164, 63, 255, 255, 158, 117, 214, 0, 96, 114, 103, 24, 200, 25] >>=
      fun r => idx r.2.2 24) = .ok (-2) := by decide +kernel
  rw [hr] at hd
  have hx : idx (expectedX wrapParams) 24 = .ok (-2) := hd
  exact absurd hx (by decide +kernel)

/-- Full statement of C30: the decoder's count of the refinement bits equals the encoder's. -/
def C30_statement : Prop :=
  ∀ (f : SamplingFrequency) (d : FrameDuration) (p : FrameParams) (q : PulseIdx) (buf : List Nat)
    (stale s : EncSt) (lsbs : List Bool) (t : Nat),
    SideOk (Lc3Config.new f d) p q → DataOk (Lc3Config.new f d) buf.length p → buf.length < 65536 →
    encodeBody (Lc3Config.new f d).ne p stale buf = .ok (lsbs, s) → Fits buf.length s t → ¬ finalValueWraps s.ac →
    ∃ s' r ac r1 ac1 r2 ac2 r3 tns xs,
      encodeFrame (Lc3Config.new f d).ne p stale buf = .ok s' ∧
      readSideInfo s'.buf Reader.new (Lc3Config.new f d).fsInd (Lc3Config.new f d).ne =
        .ok (expectedSide p q, r) ∧
      acDecInit s'.buf r = .ok (ac, r1) ∧
      decodeTnsData s'.buf r1 (expectedSide p q) ac (8 * buf.length) (Lc3Config.new f d).nMs = .ok (tns, ac1, r2) ∧
      decodeSpectralData s'.buf r2 (expectedSide p q) (8 * buf.length) (Lc3Config.new f d).fsInd
        (Lc3Config.new f d).ne ac1 = .ok (xs, ac2, r3) ∧
      calcNumResidualBits r3 ac2 (8 * buf.length) = .ok (encoderRoom buf.length s t)

/-- **C30 fails as stated**: in a frame of 20 bytes with two lines that are zero the encoder counts 85 bits of room, the decoder 93. -/
theorem C30_fails : ¬ C30_statement := by
  intro h
  have hs := example_side false 0 [0, 0] [] (by decide) (by decide) (by decide)
  have hd := example_data false 0 [0, 0] [] (by decide) (by decide)
  have hb : encodeBody (Lc3Config.new .hz16000 .tenMs).ne (exampleParams false 0 [0, 0] []) staleSt (List.replicate 20 0) =
      .ok ([], ⟨⟨0, 12, 16⟩, [0, 0, 0, 0, 0, 0, 0, 0, 0, 0, 0, 0, 6, 0, 96, 114, 103, 24, 200, 1], ⟨0, 294894, -1, 0, 0⟩⟩) := by
    decide +kernel
  have hf : Fits (List.replicate 20 0).length
      ⟨⟨0, 12, 16⟩, [0, 0, 0, 0, 0, 0, 0, 0, 0, 0, 0, 0, 6, 0, 96, 114, 103, 24, 200, 1], ⟨0, 294894, -1, 0, 0⟩⟩ 60 :=
    ⟨by decide +kernel, by decide +kernel⟩
  have hw : ¬ finalValueWraps ⟨0, 294894, -1, 0, 0⟩ := by unfold finalValueWraps; decide +kernel
  obtain ⟨s', r, ac, r1, ac1, r2, ac2, r3, tns, xs, e1, e2, e3, e4, e5, e6⟩ := h _ _ _ _ (List.replicate 20 0) _ _ _ _ hs hd
    (by decide) hb hf hw
  obtain ⟨s'', r', ac', r1', ac1', r2', ac2', r3', tns', xs', g1, g2, g3, g4, g5, g6⟩ := C30_partial (buf := List.replicate 20 0) hs hd
    (by decide) hb hf hw
  rw [e1] at g1
  obtain rfl : s' = s'' := by simpa using g1
  rw [e2] at g2
  obtain rfl : r = r' := by simpa using g2
  rw [e3] at g3
  obtain ⟨rfl, rfl⟩ : ac = ac' ∧ r1 = r1' := by simpa using g3
  rw [e4] at g4
  obtain ⟨-, rfl, rfl⟩ : tns = tns' ∧ ac1 = ac1' ∧ r2 = r2' := by simpa using g4
  rw [e5] at g5
  obtain ⟨-, rfl, rfl⟩ : xs = xs' ∧ ac2 = ac2' ∧ r3 = r3' := by simpa using g5
  rw [e6] at g6
  have := Res.ok.inj g6
  revert this
  decide +kernel

/-- Full statement of C05. -/
def C05_statement : Prop :=
  ∀ (f : SamplingFrequency) (d : FrameDuration) (p : FrameParams) (q : PulseIdx) (buf : List Nat)
    (stale s : EncSt) (lsbs : List Bool) (t : Nat) (checks : Bool),
    SideOk (Lc3Config.new f d) p q → DataOk (Lc3Config.new f d) buf.length p → buf.length < 65536 →
    p.lsbMode = true → encodeBody (Lc3Config.new f d).ne p stale buf = .ok (lsbs, s) →
    Fits buf.length s t → lsbs.length ≤ encoderRoom buf.length s t →
    (checks = false ∨ weightedSum (p.xq.take p.lastnz) < 2 ^ 31) →
    ∃ s', encodeFrame (Lc3Config.new f d).ne p stale buf = .ok s' ∧
      readFrame checks (Lc3Config.new f d) s'.buf = .ok (expectedSide p q,
        ⟨expectedOrders p, expectedTnsIdx p, [], expectedSeed p, expectedZero p, 8 * buf.length⟩,
        expectedX p)

/-- a spectrum whose second pair is escaped -/
def lsbParams : FrameParams := exampleParams true 0 [0, 0, 5, 0] []

/-- The hypotheses of `C05_error` hold for it, although a pair behind the first one is escaped. -/
example : SideOk (Lc3Config.new .hz16000 .tenMs) lsbParams ⟨12345, 0, 0⟩ ∧
    DataOk (Lc3Config.new .hz16000 .tenMs) 20 lsbParams ∧ lsbParams.lsbMode = true ∧
    encodeBody 160 lsbParams staleSt (List.replicate 20 0) = .ok ([true, false],
      ⟨⟨0, 12, 32⟩, [0, 0, 0, 0, 0, 0, 0, 0, 0, 0, 0, 0, 6, 0, 96, 114, 103, 24, 201, 3], ⟨12774144, 4142592, 1, 0, 0⟩⟩) ∧
    Fits 20 ⟨⟨0, 12, 32⟩, [0, 0, 0, 0, 0, 0, 0, 0, 0, 0, 0, 0, 6, 0, 96, 114, 103, 24, 201, 3],
      ⟨12774144, 4142592, 1, 0, 0⟩⟩ 61 ∧
    ¬ finalValueWraps ⟨12774144, 4142592, 1, 0, 0⟩ ∧ Escaped lsbParams 1 ∧
    weightedSum (lsbParams.xq.take lsbParams.lastnz) + 400000 < 2 ^ 31 :=
  ⟨example_side _ _ _ _ (by decide) (by decide) (by decide), example_data _ _ _ _ (by decide) (by decide), rfl,
    by decide +kernel, ⟨by decide +kernel, by decide +kernel⟩, by unfold finalValueWraps; decide +kernel, .inl (by decide),
    by decide +kernel⟩

/-- **C05 fails as stated**: the second pair is escaped, line 2 is decoded as 4 instead of 5 although the
frame has plenty of room. -/
theorem C05_fails : ¬ C05_statement := by
  intro h
  obtain ⟨s', e, hr⟩ := h .hz16000 .tenMs lsbParams ⟨12345, 0, 0⟩ (List.replicate 20 0) staleSt
    ⟨⟨0, 12, 32⟩, [0, 0, 0, 0, 0, 0, 0, 0, 0, 0, 0, 0, 6, 0, 96, 114, 103, 24, 201, 3],
      ⟨12774144, 4142592, 1, 0, 0⟩⟩ [true, false] 61 true
    (example_side _ _ _ _ (by decide) (by decide) (by decide)) (example_data _ _ _ _ (by decide) (by decide))
    (by decide) rfl (by decide +kernel) ⟨by decide +kernel, by decide +kernel⟩ (by decide +kernel)
    (.inr (by decide +kernel))
  have e' : encodeFrame (Lc3Config.new .hz16000 .tenMs).ne lsbParams staleSt (List.replicate 20 0) =
      .ok ⟨⟨1, 12, 128⟩, [1, 224, 0, 0, 0, 0, 0, 0, 0, 0, 0, 0, 38, 0, 96, 114, 103, 24, 201, 3],
        ⟨0, 4142592, 224, 0, 0⟩⟩ := by decide +kernel
  rw [e'] at e
  cases e
  have hd : (readFrame true (Lc3Config.new .hz16000 .tenMs)
      [1, 224, 0, 0, 0, 0, 0, 0, 0, 0, 0, 0, 38, 0, 96, 114, 103, 24, 201, 3] >>=
      fun r => idx r.2.2 2) = .ok 4 := by decide +kernel
  rw [hr] at hd
  revert hd
  decide +kernel

end Lc3
