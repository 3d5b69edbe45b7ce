import Verif.Lemmas.Silence32Frame
import Verif.Props.Silence
import Verif.Props.CodecError32
/-!
# C100: digital silence in binary32

`C56` for the arithmetic the code uses.
-/

namespace Lc3
open Scalar Tables Spec
namespace F32

variable {el : Elem}

/-- what the decoder's parser returns for a coded frame, with the number of refinement bits -/
theorem CodedFrame32.readAll {checks : Bool} {f : SamplingFrequency} {d : FrameDuration} {ch : EncChannel F32} {x : List Int}
    {buf : List Nat} {a : EncAnalysis F32} {s : EncSt} {t : Nat} (h : CodedFrame32 checks el f d ch x buf a s t) {q : PulseIdx}
    (h1 : SideOk (Lc3Config.new f d) a.p q) (h2 : DataOk (Lc3Config.new f d) buf.length a.p) :
    ∃ ch' bytes bits, @encodeChannel F32 (scalar el) (Lc3Config.new f d) ch x buf = .ok (ch', bytes) ∧ ch'.Inv (Lc3Config.new f d) ∧
      bytes.length = buf.length ∧
      readFrame checks (Lc3Config.new f d) bytes = .ok (expectedSide a.p q,
        ⟨expectedOrders a.p, expectedTnsIdx a.p, bits, expectedSeed a.p, expectedZero a.p, 8 * buf.length⟩, expectedX a.p) ∧
      bits.length = min (encoderRoom buf.length s t + if s.ac.cache < 0 then 8 else 0) (nonZeroLines a.p) ∧
      (∀ i, i < encoderRoom buf.length s t → i < a.p.residual.length → i < nonZeroLines a.p → bits[i]? = a.p.residual[i]?) := by
  letI := scalar el
  obtain ⟨lsbs, hb⟩ := h.body
  obtain ⟨s', bits, e1, e2, e3, e4, e5⟩ := C04_partial checks h1 h2 (by have := h.len; omega) h.mode hb h.fits h.wrap h.seed
  have he : ∃ ch', encodeChannel (Lc3Config.new f d) ch x buf = .ok (ch', s'.buf) := by
    unfold encodeChannel
    rw [h.analysed, Res.bind_ok, e1]
    exact ⟨_, rfl⟩
  obtain ⟨ch', he⟩ := he
  exact ⟨ch', s'.buf, bits, he, encodeChannel_keeps h.inv he, e2, e3, e4, e5⟩

/-- one frame of silence through one channel of the encoder and of the decoder -/
theorem silence_step32 (he : EncFunctions el) (hlg : LogFunctions el) {checks : Bool} {f : SamplingFrequency} {d : FrameDuration} {ch : EncChannel F32} {dch : DecChannel F32}
    (hi : ch.Inv (Lc3Config.new f d)) (h0 : AllZero ch.freq) (hd : ChInv f d dch) (hs : Silent dch) {c : Transfer} {n : Nat}
    (hc : SilentTransfer checks (Lc3Config.new f d) n c) :
    ∃ ch' bytes dch', @encodeChannel F32 (scalar el) (Lc3Config.new f d) ch c.samples c.frame = .ok (ch', bytes) ∧ ch'.Inv (Lc3Config.new f d) ∧ AllZero ch'.freq ∧
      @decodeChannel F32 (scalar el) checks (Lc3Config.new f d) dch 16 (c.damaged.getD bytes) c.out = .ok (.ok, dch', List.replicate (Lc3Config.new f d).nf 0) ∧
      ChInv f d dch' ∧ Silent dch' := by
  letI := scalar el
  have hx : c.samples.length = (Lc3Config.new f d).nf := by rw [hc.samples, List.length_replicate]
  have hx0 : AllZero c.samples := by rw [hc.samples]; exact AllZero.replicate _
  obtain ⟨a, s, t, hcf, z1, z2, z3, hp⟩ := silence_coded32 he hlg checks hi h0 hx hx0 hc.low hc.high
  have hcf' : CodedFrame32 false el f d ch c.samples c.frame a s t := { hcf with seed := Or.inl rfl }
  obtain ⟨q, h1, h2, -⟩ := C96_params el hcf.inv hcf.len hcf.analysed hcf.gain hcf.inside
  obtain ⟨ch', bytes, bits, e1, e2, e3, e4, e5, -⟩ := hcf.readAll h1 h2
  obtain ⟨ch'', bytes', bits', g1, -, -, g4, g5, -⟩ := hcf'.readAll h1 h2
  rw [e1] at g1
  simp only [Res.ok.injEq, Prod.mk.injEq] at g1
  obtain ⟨rfl, rfl⟩ := g1
  have hne2 : 2 ≤ (Lc3Config.new f d).ne := by cases f <;> cases d <;> decide
  have hx2 : a.p.xq.take a.p.lastnz = [0, 0] := by
    rw [hp.xq, hp.last]
    obtain ⟨n, hn⟩ : ∃ n, (Lc3Config.new f d).ne = n + 2 := ⟨(Lc3Config.new f d).ne - 2, by omega⟩
    rw [hn]
    rfl
  have hnz : nonZeroLines a.p = 0 := by unfold nonZeroLines; rw [hx2]; rfl
  have hfreq : AllZero ch'.freq := by
    unfold encodeChannel at e1
    rw [hcf.analysed, Res.bind_ok] at e1
    obtain ⟨_, -, e1⟩ := bind_ok_inv e1
    simp only [Res.ok.injEq, Prod.mk.injEq] at e1
    obtain ⟨rfl, -⟩ := e1
    exact z1
  have hread : readFrame checks (Lc3Config.new f d) bytes = readFrame false (Lc3Config.new f d) bytes := by
    rw [hnz, Nat.min_zero] at e5 g5
    rw [e4, g4, List.length_eq_zero_iff.1 e5, List.length_eq_zero_iff.1 g5]
  have hquiet : ∀ si ad x, readFrame checks (Lc3Config.new f d) bytes = .ok (si, ad, x) →
      AllZero x ∧ ad.isZeroFrame = true ∧ ∀ o ∈ ad.rcOrder, o = 0 := by
    intro si ad x hr
    rw [e4] at hr
    simp only [Res.ok.injEq, Prod.mk.injEq] at hr
    obtain ⟨-, rfl, rfl⟩ := hr
    refine ⟨?_, ?_, ?_⟩
    · unfold expectedX
      rw [hx2]
      exact AllZero.append (AllZero.replicate 2) (AllZero.replicate _)
    · unfold expectedZero
      rw [hx2]
      simp [hp.last, hp.gain]
    · intro o ho
      unfold expectedOrders at ho
      rcases List.mem_append.1 ho with ho | ho
      · have := List.mem_of_mem_take ho
        rw [hp.orders] at this
        simpa using this
      · exact List.eq_of_mem_replicate ho
  have hdec : ∃ r, decodeChannel checks (Lc3Config.new f d) dch 16 (c.damaged.getD bytes) c.out = .ok r := by
    cases hdm : c.damaged with
    | some b => exact decodeChannel_lost32 hd _ (hc.damaged b hdm)
    | none =>
      have hb : bytes.length ∉ shortLens f d := by
        have h7 : ∀ n ∈ shortLens f d, n < 20 := by cases f <;> cases d <;> decide
        intro hb
        have := h7 _ hb
        have := hc.low
        omega
      have hsafe := safe_decodeChannel hd (bits := 16) (out := c.out) hb
      have hno := noErr_decodeChannel false (Lc3Config.new f d) dch 16 bytes c.out
      have : decodeChannel checks (Lc3Config.new f d) dch 16 bytes c.out = decodeChannel false (Lc3Config.new f d) dch 16 bytes c.out := by
        unfold decodeChannel decodeSpectrum
        rw [hread]
      rw [Option.getD_none, this]
      cases e : decodeChannel false (Lc3Config.new f d) dch 16 bytes c.out with
      | ok r => exact ⟨r, rfl⟩
      | err => exact absurd e hno
      | panic => rw [e] at hsafe; exact hsafe.elim
  obtain ⟨⟨r, dch', out'⟩, hdec⟩ := hdec
  obtain ⟨rfl, hs', rfl⟩ := decodeChannel_zn hd hs hc.out (by
    intro si ad x hr
    cases hdm : c.damaged with
    | some b => rw [hdm, Option.getD_some, hc.damaged b hdm] at hr; cases hr
    | none => rw [hdm] at hr; exact hquiet si ad x hr) hdec
  exact ⟨ch', bytes, dch', e1, e2, hfreq, hdec, (decodeChannel_inv hd hdec).1, hs'⟩

theorem silence_run32 (he : EncFunctions el) (hlg : LogFunctions el) {checks : Bool} {f : SamplingFrequency} {d : FrameDuration} : ∀ (calls : List Transfer) (E : Encoder F32) (D : Decoder F32),
    E.config = Lc3Config.new f d → D.config = Lc3Config.new f d → (∀ ch ∈ E.channels, ch.Inv (Lc3Config.new f d) ∧ AllZero ch.freq) →
    (∀ ch ∈ D.channels, ChInv f d ch ∧ Silent ch) → E.channels.length = D.channels.length →
    (∀ c ∈ calls, SilentTransfer checks (Lc3Config.new f d) D.channels.length c) →
    @transfer F32 (scalar el) checks calls E D = .ok (calls.map fun _ => List.replicate (Lc3Config.new f d).nf 0) := by
  letI := scalar el
  intro calls
  induction calls with
  | nil => intro _ _ _ _ _ _ _ _; rfl
  | cons c cs ih =>
    intro E D hE hD hce hcd hl hcs
    have hc := hcs c (by simp)
    obtain ⟨ch, hch⟩ : ∃ ch, E.channels[c.channel]? = some ch := ⟨_, List.getElem?_eq_getElem (by have := hc.channel; omega)⟩
    obtain ⟨dch, hdch⟩ : ∃ ch, D.channels[c.channel]? = some ch := ⟨_, List.getElem?_eq_getElem hc.channel⟩
    obtain ⟨i1, i2⟩ := hce ch (List.mem_of_getElem? hch)
    obtain ⟨i3, i4⟩ := hcd dch (List.mem_of_getElem? hdch)
    obtain ⟨ch', bytes, dch', e1, e2, e3, e4, e5, e6⟩ := silence_step32 he hlg i1 i2 i3 i4 hc
    rw [transfer]
    unfold encodeFrameOn decodeFrame
    rw [hch]
    simp only
    rw [hE, e1]
    simp only [Res.bind_ok]
    rw [hdch]
    simp only
    rw [hD, e4]
    simp only [Res.bind_ok]
    rw [ih _ _ rfl rfl ?_ ?_ (by simp [hl]) (by simpa using fun c hc => hcs c (by simp [hc]))]
    · rfl
    · intro v hv
      rcases List.mem_or_eq_of_mem_set hv with hv | rfl
      · exact hce v hv
      · exact ⟨e2, e3⟩
    · intro v hv
      rcases List.mem_or_eq_of_mem_set hv with hv | rfl
      · exact hcd v hv
      · exact ⟨e5, e6⟩

theorem encChannelNew_silent32 {cfg : Lc3Config} {ib ib' : List Int} {sb sb' : List F32} {cb cb' : List (Cx F32)} {ch : EncChannel F32} (h : AllZero ib)
    (e : @encChannelNew F32 (scalar el) cfg ib sb cb = .ok (ch, ib', sb', cb')) : AllZero ch.freq ∧ AllZero ib' := by
  letI := scalar el
  unfold encChannelNew at e
  obtain ⟨⟨fr, i1, c1⟩, e1, e⟩ := bind_ok_inv e
  obtain ⟨bw, -, e⟩ := bind_ok_inv e
  obtain ⟨⟨lt, s2, i2⟩, e2, e⟩ := bind_ok_inv e
  obtain ⟨⟨o, s3⟩, -, e⟩ := bind_ok_inv e
  obtain ⟨⟨eb, s4⟩, -, e⟩ := bind_ok_inv e
  obtain ⟨⟨xq, i3⟩, e3, e⟩ := bind_ok_inv e
  simp only [Res.ok.injEq, Prod.mk.injEq] at e
  obtain ⟨rfl, rfl, rfl, rfl⟩ := e
  have z1 : AllZero fr ∧ AllZero i1 := by
    unfold mdctEncNew at e1
    obtain ⟨⟨_, _⟩, g1, e1⟩ := bind_ok_inv e1
    obtain ⟨_, -, e1⟩ := bind_ok_inv e1
    obtain ⟨_, -, e1⟩ := bind_ok_inv e1
    obtain ⟨_, -, e1⟩ := bind_ok_inv e1
    simp only [Res.ok.injEq, Prod.mk.injEq] at e1
    obtain ⟨rfl, rfl, -⟩ := e1
    exact splitAt_zero h g1
  have z2 : AllZero i2 := by
    unfold EncLtpf.new at e2
    obtain ⟨⟨_, _⟩, g1, e2⟩ := bind_ok_inv e2
    obtain ⟨⟨_, _⟩, -, e2⟩ := bind_ok_inv e2
    obtain ⟨⟨_, _⟩, -, e2⟩ := bind_ok_inv e2
    simp only [Res.ok.injEq, Prod.mk.injEq] at e2
    obtain ⟨-, -, rfl⟩ := e2
    exact (splitAt_zero z1.2 g1).2
  exact ⟨z1.1, (splitAt_zero z2 e3).2⟩

theorem encChannelsNew_silent32 {cfg : Lc3Config} : ∀ (n : Nat) {ib ib' : List Int} {sb sb' : List F32} {cb cb' : List (Cx F32)} {chs : List (EncChannel F32)},
    AllZero ib → @encChannelsNew F32 (scalar el) cfg n ib sb cb = .ok (chs, ib', sb', cb') → ∀ ch ∈ chs, AllZero ch.freq := by
  letI := scalar el
  intro n
  induction n with
  | zero =>
    intro ib ib' sb sb' cb cb' chs _ e
    rw [encChannelsNew] at e
    cases e
    intro ch hch
    cases hch
  | succ n ih =>
    intro ib ib' sb sb' cb cb' chs h e
    rw [encChannelsNew] at e
    obtain ⟨⟨c, i1, s1, c1⟩, e1, e⟩ := bind_ok_inv e
    obtain ⟨⟨cs, i2, s2, c2⟩, e2, e⟩ := bind_ok_inv e
    simp only [Res.ok.injEq, Prod.mk.injEq] at e
    obtain ⟨rfl, rfl, rfl, rfl⟩ := e
    obtain ⟨z1, z2⟩ := encChannelNew_silent32 h e1
    intro ch hch
    rcases List.mem_cons.1 hch with rfl | hch
    · exact z1
    · exact ih z2 e2 ch hch

/-- **C100** Digital silence stays silence, in the arithmetic the code uses: an encoder and a decoder that were constructed in zeroed
buffers pass any number of frames of zeros, in any order of the channels and with any frame sizes of 20 to 4095 bytes, without a panic,
and every decoded sample is zero. This holds for every configuration for which an encoder can be constructed (not at 8 kHz), in builds
with and without overflow checks, also when frames are damaged on the way and concealed, for all elementary functions of the accuracy
`EncFunctions` and `LogFunctions`. -/
theorem C100 {el : Elem} (he : EncFunctions el) (hlg : LogFunctions el) {checks : Bool} {f : SamplingFrequency} {d : FrameDuration} {n : Nat} {ib ib' : List Int} {sb sb' : List F32} {cb cb' : List (Cx F32)}
    {db db' : List F32} {dcb dcb' : List (Cx F32)} {E : Encoder F32} {D : Decoder F32} (hf : f ≠ .hz8000)
    (hE : @Encoder.new F32 (scalar el) n d f ib sb cb = .ok (E, ib', sb', cb')) (hD : @Decoder.new F32 (scalar el) n d f db dcb = .ok (D, db', dcb'))
    (hib : ∀ v ∈ ib, v = 0) (hdb : ∀ v ∈ db, v = fin 0) {calls : List Transfer}
    (hc : ∀ c ∈ calls, SilentTransfer checks (Lc3Config.new f d) n c) :
    @transfer F32 (scalar el) checks calls E D = .ok (calls.map fun _ => List.replicate (Lc3Config.new f d).nf 0) := by
  letI := scalar el
  have hDi := reachable_inv (Reachable.new hD)
  unfold Encoder.new at hE
  obtain ⟨⟨chs, i1, s1, c1⟩, e1, hE⟩ := bind_ok_inv hE
  simp only [Res.ok.injEq, Prod.mk.injEq] at hE
  obtain ⟨rfl, rfl, rfl, rfl⟩ := hE
  unfold Decoder.new at hD
  obtain ⟨⟨dchs, s2, c2⟩, e2, hD⟩ := bind_ok_inv hD
  simp only [Res.ok.injEq, Prod.mk.injEq] at hD
  obtain ⟨rfl, rfl, rfl⟩ := hD
  obtain ⟨b1, b2, b3⟩ := encChannelsNew_uses _ _ _ _ _ _ _ _ e1
  obtain ⟨chs', e1', l1, hinv⟩ := encChannelsNew_ok (d := d) hf n ib sb cb (by omega) (by omega) (by omega)
  rw [e1] at e1'
  simp only [Res.ok.injEq, Prod.mk.injEq] at e1'
  obtain ⟨rfl, -, -, -⟩ := e1'
  obtain ⟨a1, a2, a3⟩ := decChannelsNew_uses e2
  obtain ⟨dchs', e2', l2, -⟩ := decChannelsNew_ok (f := f) (d := d) (n := n) (sb := db) (cb := dcb) (by omega) (by omega)
  rw [e2] at e2'
  simp only [Res.ok.injEq, Prod.mk.injEq] at e2'
  obtain ⟨rfl, -, -⟩ := e2'
  exact silence_run32 he hlg calls _ _ rfl rfl (fun ch hch => ⟨hinv ch hch, encChannelsNew_silent32 n hib e1 ch hch⟩)
    (fun ch hch => ⟨hDi.2 ch hch, decChannelsNew_silent32 n (fun v hv => Or.inl (hdb v hv)) e2 ch hch⟩) (by rw [l1, l2]) (by rw [l2]; exact hc)

/-! ### Concrete cases -/

/-- elementary functions with the assumed accuracy exist: correctly rounded ones -/
theorem exists_logFunctions : ∃ el, EncFunctions el ∧ LogFunctions el := by
  have near : ∀ q : ℚ, ∃ c : ℚ, |(c : ℝ) - Real.logb 2 q| ≤ 1 / 2 ^ 110 := by
    intro q
    obtain ⟨c, h1, h2⟩ := exists_rat_btwn (show Real.logb 2 q - 1 / 2 ^ 110 < Real.logb 2 q + 1 / 2 ^ 110 by
      have : (0 : ℝ) < 1 / 2 ^ 110 := by positivity
      linarith)
    exact ⟨c, abs_le.2 ⟨by linarith, by linarith⟩⟩
  choose c hc using near
  obtain ⟨el, he, hl, hp⟩ := exists_encFunctions (fun a => match a with | fin q => fin (rndQ (c q)) | _ => nan)
    (fun a n => match a with | fin q => rnd (q ^ n) | _ => nan)
  refine ⟨el, he, ⟨?_, ?_⟩⟩
  · intro q _
    refine ⟨rndQ (c q), by rw [hl], ?_⟩
    have h1 : |((rndQ (c q) : ℚ) : ℝ) - (c q : ℝ)| ≤ |(c q : ℝ)| / 2 ^ 24 + 1 / 2 ^ 150 := by
      have := rndQ_err (c q)
      have : ((|rndQ (c q) - c q| : ℚ) : ℝ) ≤ ((|c q| / 2 ^ 24 + 1 / 2 ^ 150 : ℚ) : ℝ) := by exact_mod_cast this
      push_cast at this
      exact this
    have h2 := hc q
    have h3 : |(c q : ℝ)| ≤ |Real.logb 2 q| + 1 / 2 ^ 110 := by
      have := abs_sub_abs_le_abs_sub (c q : ℝ) (Real.logb 2 q)
      linarith
    have h4 := abs_sub_le ((rndQ (c q) : ℚ) : ℝ) (c q : ℝ) (Real.logb 2 q)
    have h5 := abs_nonneg (Real.logb 2 q)
    generalize |Real.logb 2 q| = L at *
    generalize |(c q : ℝ)| = C at *
    norm_num at *
    linarith
  · rw [hp]
    show rnd ((2 : ℚ) ^ (-32 : ℤ)) = _
    rw [show ((2 : ℚ) ^ (-32 : ℤ)) = 1 / 4294967296 by norm_num, ← rndK_eq]
    decide +kernel

/-- a new channel at 48 kHz in zeroed buffers -/
theorem newChannel32_48 (el : Elem) (d : FrameDuration) : ∃ ch : EncChannel F32, ch.Inv (Lc3Config.new .hz48000 d) ∧ AllZero ch.freq := by
  letI := scalar el
  obtain ⟨ch, e, hi⟩ := encChannelNew_ok (α := F32) (f := .hz48000) (d := d) (by decide)
    (ib := List.replicate (encChanInts (Lc3Config.new .hz48000 d)) 0) (sb := List.replicate (encChanScalars (Lc3Config.new .hz48000 d)) (fin 0))
    (cb := List.replicate (encChanComplex (Lc3Config.new .hz48000 d)) ⟨fin 0, fin 0⟩) (by simp) (by simp) (by simp)
  exact ⟨ch, hi, (encChannelNew_silent32 (AllZero.replicate _) e).1⟩

/-- C98 applies to a frame of 480 zeros and 100 bytes, with elementary functions of the assumed accuracy. -/
example : ∃ (el : Elem) (ch : EncChannel F32), EncFunctions el ∧ LogFunctions el ∧ ch.Inv (Lc3Config.new .hz48000 .tenMs) ∧
    (∀ v ∈ ch.freq, IsSample v) ∧ Encodable el (Lc3Config.new .hz48000 .tenMs) ch (List.replicate 480 0) 100 := by
  obtain ⟨el, he, hlg⟩ := exists_logFunctions
  obtain ⟨ch, hi, h0⟩ := newChannel32_48 el .tenMs
  exact ⟨el, ch, he, hlg, hi, isSample_zero h0, encodable_silence he hlg hi h0 (AllZero.replicate _) 100⟩

/-- C96 and C99 apply to the same frame: it is a coded frame, in builds with and without overflow checks, and its lines are small. -/
example (checks : Bool) : ∃ (el : Elem) (ch : EncChannel F32) (a : EncAnalysis F32) (s : EncSt) (t : Nat), GainFunctions el ∧
    CodedFrame32 checks el .hz48000 .tenMs ch (List.replicate 480 0) (List.replicate 100 0) a s t ∧
    ∀ y ∈ a.lines, IsFin y ∧ |val y| ≤ (32767 + 1 / 2) * val a.gg := by
  obtain ⟨el, he, hlg⟩ := exists_logFunctions
  obtain ⟨ch, hi, h0⟩ := newChannel32_48 el .tenMs
  obtain ⟨a, s, t, h, -, hz, -⟩ := silence_coded32 he hlg checks hi h0 (x := List.replicate 480 0) List.length_replicate (AllZero.replicate _)
    (buf := List.replicate 100 0) (by simp) (by simp)
  refine ⟨el, ch, a, s, t, he.gain, h, fun y hy => ?_⟩
  obtain ⟨q, -, -, h3⟩ := C96_params el h.inv h.len h.analysed h.gain h.inside
  obtain ⟨g, e1, e2, -⟩ := gain_f32 he.gain (nbits := 8 * (List.replicate 100 0).length) (fsInd := (Lc3Config.new .hz48000 .tenMs).fsInd) (gg := a.p.ggInd)
    (by simp) (by decide) h.gain
  rw [e1] at h3
  rw [hz y hy, h3]
  refine ⟨⟨0, rfl⟩, ?_⟩
  show |((0 : ℚ) : ℝ)| ≤ (32767 + 1 / 2) * (g : ℝ)
  have : (0 : ℝ) < g := by exact_mod_cast e2
  simp only [Rat.cast_zero, abs_zero]
  positivity

/-- C100 applies to two channels at 48 kHz, 10 ms, a frame of 100 bytes for the one, a damaged frame and a frame of 20 bytes for the
other channel. -/
example (checks : Bool) : ∃ (el : Elem), EncFunctions el ∧ LogFunctions el ∧ ∃ (E : Encoder F32) (D : Decoder F32) (r1 : List Int) (r2 : List F32) (r3 : List (Cx F32)) (r4 : List F32) (r5 : List (Cx F32)),
    @Encoder.new F32 (scalar el) 2 .tenMs .hz48000 (List.replicate 3800 0) (List.replicate 2212 (fin 0)) (List.replicate 1920 ⟨fin 0, fin 0⟩) = .ok (E, r1, r2, r3) ∧
    @Decoder.new F32 (scalar el) 2 .tenMs .hz48000 (List.replicate (decoderLens 2 .tenMs .hz48000).1 (fin 0))
      (List.replicate (decoderLens 2 .tenMs .hz48000).2 ⟨fin 0, fin 0⟩) = .ok (D, r4, r5) ∧
    @transfer F32 (scalar el) checks [⟨0, List.replicate 480 0, List.replicate 100 0, none, List.replicate 480 7⟩,
      ⟨1, List.replicate 480 0, List.replicate 40 0, some (List.replicate 40 255), List.replicate 480 7⟩,
      ⟨1, List.replicate 480 0, List.replicate 20 0, none, List.replicate 480 7⟩] E D
      = .ok [List.replicate 480 0, List.replicate 480 0, List.replicate 480 0] := by
  obtain ⟨el, he, hlg⟩ := exists_logFunctions
  letI := scalar el
  refine ⟨el, he, hlg, ?_⟩
  obtain ⟨E, hE, -⟩ := (C12_partial (α := F32) 2 .tenMs .hz48000 (by decide) (List.replicate 3800 0) (List.replicate 2212 (fin 0))
    (List.replicate 1920 ⟨fin 0, fin 0⟩)).1 (by
      rw [show encoderLens 2 .tenMs .hz48000 = (3800, 2212, 1920) by decide +kernel, List.length_replicate, List.length_replicate,
        List.length_replicate]
      exact ⟨le_refl _, le_refl _, le_refl _⟩)
  obtain ⟨chs, hD, -⟩ := decChannelsNew_ok (α := F32) (f := .hz48000) (d := .tenMs) (n := 2)
    (sb := List.replicate (decoderLens 2 .tenMs .hz48000).1 (fin 0)) (cb := List.replicate (decoderLens 2 .tenMs .hz48000).2 ⟨fin 0, fin 0⟩)
    (by rw [List.length_replicate]; exact le_refl _) (by rw [List.length_replicate]; exact le_refl _)
  obtain ⟨r4, r5, hD'⟩ : ∃ r4 r5, Decoder.new 2 .tenMs .hz48000 (List.replicate (decoderLens 2 .tenMs .hz48000).1 (fin 0))
      (List.replicate (decoderLens 2 .tenMs .hz48000).2 ⟨fin 0, fin 0⟩) = .ok (⟨Lc3Config.new .hz48000 .tenMs, chs⟩, r4, r5) := by
    unfold Decoder.new
    simp only
    rw [hD]
    exact ⟨_, _, rfl⟩
  refine ⟨E, _, _, _, _, _, _, hE, hD', ?_⟩
  have := C100 he hlg (checks := checks) (by decide) hE hD' (fun v hv => List.eq_of_mem_replicate hv) (fun v hv => List.eq_of_mem_replicate hv)
    (calls := [⟨0, List.replicate 480 0, List.replicate 100 0, none, List.replicate 480 7⟩,
      ⟨1, List.replicate 480 0, List.replicate 40 0, some (List.replicate 40 255), List.replicate 480 7⟩,
      ⟨1, List.replicate 480 0, List.replicate 20 0, none, List.replicate 480 7⟩]) (by
    intro c hc
    simp only [List.mem_cons, List.not_mem_nil, or_false] at hc
    rcases hc with rfl | rfl | rfl
    · exact ⟨by decide, rfl, by simp, by simp, by simp, List.length_replicate⟩
    · refine ⟨by decide, rfl, by simp, by simp, ?_, List.length_replicate⟩
      intro b hb
      cases hb
      exact noise_rejected checks
    · exact ⟨by decide, rfl, by simp, by simp, by simp, List.length_replicate⟩)
  exact this

end F32
end Lc3
