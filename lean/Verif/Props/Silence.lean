import Verif.Lemmas.SilenceFrame
import Verif.Lemmas.SilenceDec
import Verif.Lemmas.ShortFrames
import Verif.Props.DecoderSafety
import Verif.Spec.Silence
/-! # C55, C56: the analysis returns; silence stays silence -/

namespace Lc3
open Scalar Tables Spec

/-- **C55** In exact arithmetic the whole analysis of a frame returns: for every channel of a constructed encoder, every frame of the
right number of samples and every frame size of 32 to 4095 bytes the parameters of the frame are computed without a panic, if the
signal is regular. That is: the residual of the first stage of the noise shaping quantiser does not vanish where the pulses are searched
and no reflection coefficient of the temporal noise shaping reaches one in absolute value (both are divisions by zero or
indices out of range in the code), and the lines stay within the range of the quantiser. -/
theorem C55 {f : SamplingFrequency} {d : FrameDuration} {ch : EncChannel ℝ} (hi : ch.Inv (Lc3Config.new f d)) {x : List Int}
    (hx : x.length = (Lc3Config.new f d).nf) {nbytes : Nat} (h32 : 32 ≤ nbytes) (hN : nbytes < 4096)
    (hr : Regular (Lc3Config.new f d) ch x nbytes) : ∃ a, encAnalyse (Lc3Config.new f d) ch x nbytes = .ok a :=
  encAnalyse_returns hi hx hN hr (by intro _ _ _ _ _ _ _ _ _ _ _ _ _ _ _ _; omega)

/-- one frame of silence through one channel of the encoder and of the decoder -/
theorem silence_step {checks : Bool} {f : SamplingFrequency} {d : FrameDuration} {ch : EncChannel ℝ} {dch : DecChannel ℝ}
    (hi : ch.Inv (Lc3Config.new f d)) (h0 : AllZero ch.freq) (hd : ChInv f d dch) (hs : dch.Silent) {c : Transfer} {n : Nat}
    (hc : SilentTransfer checks (Lc3Config.new f d) n c) :
    ∃ ch' bytes dch', encodeChannel (Lc3Config.new f d) ch c.samples c.frame = .ok (ch', bytes) ∧ ch'.Inv (Lc3Config.new f d) ∧ AllZero ch'.freq ∧
      decodeChannel checks (Lc3Config.new f d) dch 16 (c.damaged.getD bytes) c.out = .ok (.ok, dch', List.replicate (Lc3Config.new f d).nf 0) ∧
      ChInv f d dch' ∧ dch'.Silent := by
  have hx : c.samples.length = (Lc3Config.new f d).nf := by rw [hc.samples, List.length_replicate]
  have hx0 : AllZero c.samples := by rw [hc.samples]; exact AllZero.replicate _
  obtain ⟨a, s, t, hcf, z1, z2, z3, hp⟩ := silence_coded checks hi h0 hx hx0 hc.low hc.high
  have hcf' : CodedFrame false f d ch c.samples c.frame a s t := { hcf with seed := Or.inl rfl }
  obtain ⟨q, h1, h2, -⟩ := C46 hcf.inv hcf.len hcf.analysed hcf.range hcf.inside
  obtain ⟨ch', bytes, bits, e1, e2, e3, e4, e5, -⟩ := hcf.read h1 h2
  obtain ⟨ch'', bytes', bits', g1, -, -, g4, g5, -⟩ := hcf'.read h1 h2
  rw [e1] at g1
  simp only [Res.ok.injEq, Prod.mk.injEq] at g1
  obtain ⟨rfl, rfl⟩ := g1
  have hne2 : 2 ≤ (Lc3Config.new f d).ne := by cases f <;> cases d <;> decide
  have hx2 : a.p.xq.take a.p.lastnz = [0, 0] := by
    rw [hp.xq, hp.last]
    obtain ⟨n, hn⟩ : ∃ n, (Lc3Config.new f d).ne = n + 2 := ⟨(Lc3Config.new f d).ne - 2, by omega⟩
    rw [hn]
    rfl
  have hnz : nonZeroLines a.p = 0 := by unfold nonZeroLines; rw [hx2]; rfl
  have hfreq : AllZero ch'.freq := by
    unfold encodeChannel at e1
    rw [hcf.analysed, Res.bind_ok] at e1
    obtain ⟨_, -, e1⟩ := bind_ok_inv e1
    simp only [Res.ok.injEq, Prod.mk.injEq] at e1
    obtain ⟨rfl, -⟩ := e1
    exact z1
  have hread : readFrame checks (Lc3Config.new f d) bytes = readFrame false (Lc3Config.new f d) bytes := by
    rw [hnz, Nat.min_zero] at e5 g5
    rw [e4, g4, List.length_eq_zero_iff.1 e5, List.length_eq_zero_iff.1 g5]
  have hquiet : ∀ si ad x, readFrame checks (Lc3Config.new f d) bytes = .ok (si, ad, x) →
      AllZero x ∧ ad.isZeroFrame = true ∧ ∀ o ∈ ad.rcOrder, o = 0 := by
    intro si ad x hr
    rw [e4] at hr
    simp only [Res.ok.injEq, Prod.mk.injEq] at hr
    obtain ⟨-, rfl, rfl⟩ := hr
    refine ⟨?_, ?_, ?_⟩
    · unfold expectedX
      rw [hx2]
      exact AllZero.append (AllZero.replicate 2) (AllZero.replicate _)
    · unfold expectedZero
      rw [hx2]
      simp [hp.last, hp.gain]
    · intro o ho
      unfold expectedOrders at ho
      rcases List.mem_append.1 ho with ho | ho
      · have := List.mem_of_mem_take ho
        rw [hp.orders] at this
        simpa using this
      · exact List.eq_of_mem_replicate ho
  have hdec : ∃ r, decodeChannel checks (Lc3Config.new f d) dch 16 (c.damaged.getD bytes) c.out = .ok r := by
    cases hdm : c.damaged with
    | some b => exact decodeChannel_lost hd _ (hc.damaged b hdm)
    | none =>
      have hb : bytes.length ∉ shortLens f d := by
        have h7 : ∀ n ∈ shortLens f d, n < 20 := by cases f <;> cases d <;> decide
        intro hb
        have := h7 _ hb
        have := hc.low
        omega
      have hsafe := safe_decodeChannel hd (bits := 16) (out := c.out) hb
      have hno := noErr_decodeChannel false (Lc3Config.new f d) dch 16 bytes c.out
      have : decodeChannel checks (Lc3Config.new f d) dch 16 bytes c.out = decodeChannel false (Lc3Config.new f d) dch 16 bytes c.out := by
        unfold decodeChannel decodeSpectrum
        rw [hread]
      rw [Option.getD_none, this]
      cases e : decodeChannel false (Lc3Config.new f d) dch 16 bytes c.out with
      | ok r => exact ⟨r, rfl⟩
      | err => exact absurd e hno
      | panic => rw [e] at hsafe; exact hsafe.elim
  obtain ⟨⟨r, dch', out'⟩, hdec⟩ := hdec
  obtain ⟨rfl, hs', rfl⟩ := decodeChannel_zero hd hs hc.out (by
    intro si ad x hr
    cases hdm : c.damaged with
    | some b => rw [hdm, Option.getD_some, hc.damaged b hdm] at hr; cases hr
    | none => rw [hdm] at hr; exact hquiet si ad x hr) hdec
  exact ⟨ch', bytes, dch', e1, e2, hfreq, hdec, (decodeChannel_inv hd hdec).1, hs'⟩

theorem silence_run {checks : Bool} {f : SamplingFrequency} {d : FrameDuration} : ∀ (calls : List Transfer) (E : Encoder ℝ) (D : Decoder ℝ),
    E.config = Lc3Config.new f d → D.config = Lc3Config.new f d → (∀ ch ∈ E.channels, ch.Inv (Lc3Config.new f d) ∧ AllZero ch.freq) →
    (∀ ch ∈ D.channels, ChInv f d ch ∧ ch.Silent) → E.channels.length = D.channels.length →
    (∀ c ∈ calls, SilentTransfer checks (Lc3Config.new f d) D.channels.length c) →
    transfer checks calls E D = .ok (calls.map fun _ => List.replicate (Lc3Config.new f d).nf 0) := by
  intro calls
  induction calls with
  | nil => intro _ _ _ _ _ _ _ _; rfl
  | cons c cs ih =>
    intro E D hE hD hce hcd hl hcs
    have hc := hcs c (by simp)
    obtain ⟨ch, hch⟩ : ∃ ch, E.channels[c.channel]? = some ch := ⟨_, List.getElem?_eq_getElem (by have := hc.channel; omega)⟩
    obtain ⟨dch, hdch⟩ : ∃ ch, D.channels[c.channel]? = some ch := ⟨_, List.getElem?_eq_getElem hc.channel⟩
    obtain ⟨i1, i2⟩ := hce ch (List.mem_of_getElem? hch)
    obtain ⟨i3, i4⟩ := hcd dch (List.mem_of_getElem? hdch)
    obtain ⟨ch', bytes, dch', e1, e2, e3, e4, e5, e6⟩ := silence_step i1 i2 i3 i4 hc
    rw [transfer]
    unfold encodeFrameOn decodeFrame
    rw [hch]
    simp only
    rw [hE, e1]
    simp only [Res.bind_ok]
    rw [hdch]
    simp only
    rw [hD, e4]
    simp only [Res.bind_ok]
    rw [ih _ _ rfl rfl ?_ ?_ (by simp [hl]) (by simpa using fun c hc => hcs c (by simp [hc]))]
    · rfl
    · intro v hv
      rcases List.mem_or_eq_of_mem_set hv with hv | rfl
      · exact hce v hv
      · exact ⟨e2, e3⟩
    · intro v hv
      rcases List.mem_or_eq_of_mem_set hv with hv | rfl
      · exact hcd v hv
      · exact ⟨e5, e6⟩

theorem encChannelNew_silent {cfg : Lc3Config} {ib ib' : List Int} {sb sb' : List ℝ} {cb cb' : List (Cx ℝ)} {ch : EncChannel ℝ} (h : AllZero ib)
    (e : encChannelNew cfg ib sb cb = .ok (ch, ib', sb', cb')) : AllZero ch.freq ∧ AllZero ib' := by
  unfold encChannelNew at e
  obtain ⟨⟨fr, i1, c1⟩, e1, e⟩ := bind_ok_inv e
  obtain ⟨bw, -, e⟩ := bind_ok_inv e
  obtain ⟨⟨lt, s2, i2⟩, e2, e⟩ := bind_ok_inv e
  obtain ⟨⟨o, s3⟩, -, e⟩ := bind_ok_inv e
  obtain ⟨⟨eb, s4⟩, -, e⟩ := bind_ok_inv e
  obtain ⟨⟨xq, i3⟩, e3, e⟩ := bind_ok_inv e
  simp only [Res.ok.injEq, Prod.mk.injEq] at e
  obtain ⟨rfl, rfl, rfl, rfl⟩ := e
  have z1 : AllZero fr ∧ AllZero i1 := by
    unfold mdctEncNew at e1
    obtain ⟨⟨_, _⟩, g1, e1⟩ := bind_ok_inv e1
    obtain ⟨_, -, e1⟩ := bind_ok_inv e1
    obtain ⟨_, -, e1⟩ := bind_ok_inv e1
    obtain ⟨_, -, e1⟩ := bind_ok_inv e1
    simp only [Res.ok.injEq, Prod.mk.injEq] at e1
    obtain ⟨rfl, rfl, -⟩ := e1
    exact splitAt_zero h g1
  have z2 : AllZero i2 := by
    unfold EncLtpf.new at e2
    obtain ⟨⟨_, _⟩, g1, e2⟩ := bind_ok_inv e2
    obtain ⟨⟨_, _⟩, -, e2⟩ := bind_ok_inv e2
    obtain ⟨⟨_, _⟩, -, e2⟩ := bind_ok_inv e2
    simp only [Res.ok.injEq, Prod.mk.injEq] at e2
    obtain ⟨-, -, rfl⟩ := e2
    exact (splitAt_zero z1.2 g1).2
  exact ⟨z1.1, (splitAt_zero z2 e3).2⟩

theorem encChannelsNew_silent {cfg : Lc3Config} : ∀ (n : Nat) {ib ib' : List Int} {sb sb' : List ℝ} {cb cb' : List (Cx ℝ)} {chs : List (EncChannel ℝ)},
    AllZero ib → encChannelsNew cfg n ib sb cb = .ok (chs, ib', sb', cb') → ∀ ch ∈ chs, AllZero ch.freq := by
  intro n
  induction n with
  | zero =>
    intro ib ib' sb sb' cb cb' chs _ e
    rw [encChannelsNew] at e
    cases e
    intro ch hch
    cases hch
  | succ n ih =>
    intro ib ib' sb sb' cb cb' chs h e
    rw [encChannelsNew] at e
    obtain ⟨⟨c, i1, s1, c1⟩, e1, e⟩ := bind_ok_inv e
    obtain ⟨⟨cs, i2, s2, c2⟩, e2, e⟩ := bind_ok_inv e
    simp only [Res.ok.injEq, Prod.mk.injEq] at e
    obtain ⟨rfl, rfl, rfl, rfl⟩ := e
    obtain ⟨z1, z2⟩ := encChannelNew_silent h e1
    intro ch hch
    rcases List.mem_cons.1 hch with rfl | hch
    · exact z1
    · exact ih z2 e2 ch hch

/-- **C56** Digital silence stays silence, in exact arithmetic: an encoder and a decoder that were constructed in zeroed buffers pass
any number of frames of zeros, in any order of the channels and with any frame sizes of 20 to 4095 bytes, without a panic, and every
decoded sample is exactly zero. This holds for every configuration for which an encoder can be constructed (not at 8 kHz), in builds
with and without overflow checks, also when frames are damaged on the way and concealed. -/
theorem C56 {checks : Bool} {f : SamplingFrequency} {d : FrameDuration} {n : Nat} {ib ib' : List Int} {sb sb' : List ℝ} {cb cb' : List (Cx ℝ)}
    {db db' : List ℝ} {dcb dcb' : List (Cx ℝ)} {E : Encoder ℝ} {D : Decoder ℝ} (hf : f ≠ .hz8000)
    (hE : Encoder.new n d f ib sb cb = .ok (E, ib', sb', cb')) (hD : Decoder.new n d f db dcb = .ok (D, db', dcb'))
    (hib : ∀ v ∈ ib, v = 0) (hdb : ∀ v ∈ db, v = 0) {calls : List Transfer}
    (hc : ∀ c ∈ calls, SilentTransfer checks (Lc3Config.new f d) n c) :
    transfer checks calls E D = .ok (calls.map fun _ => List.replicate (Lc3Config.new f d).nf 0) := by
  have hDi := reachable_inv (Reachable.new hD)
  unfold Encoder.new at hE
  obtain ⟨⟨chs, i1, s1, c1⟩, e1, hE⟩ := bind_ok_inv hE
  simp only [Res.ok.injEq, Prod.mk.injEq] at hE
  obtain ⟨rfl, rfl, rfl, rfl⟩ := hE
  unfold Decoder.new at hD
  obtain ⟨⟨dchs, s2, c2⟩, e2, hD⟩ := bind_ok_inv hD
  simp only [Res.ok.injEq, Prod.mk.injEq] at hD
  obtain ⟨rfl, rfl, rfl⟩ := hD
  obtain ⟨b1, b2, b3⟩ := encChannelsNew_uses _ _ _ _ _ _ _ _ e1
  obtain ⟨chs', e1', l1, hinv⟩ := encChannelsNew_ok (d := d) hf n ib sb cb (by omega) (by omega) (by omega)
  rw [e1] at e1'
  simp only [Res.ok.injEq, Prod.mk.injEq] at e1'
  obtain ⟨rfl, -, -, -⟩ := e1'
  obtain ⟨a1, a2, a3⟩ := decChannelsNew_uses e2
  obtain ⟨dchs', e2', l2, -⟩ := decChannelsNew_ok (f := f) (d := d) (n := n) (sb := db) (cb := dcb) (by omega) (by omega)
  rw [e2] at e2'
  simp only [Res.ok.injEq, Prod.mk.injEq] at e2'
  obtain ⟨rfl, -, -⟩ := e2'
  exact silence_run calls _ _ rfl rfl (fun ch hch => ⟨hinv ch hch, encChannelsNew_silent n hib e1 ch hch⟩)
    (fun ch hch => ⟨hDi.2 ch hch, decChannelsNew_silent n hdb e2 ch hch⟩) (by rw [l1, l2]) (by rw [l2]; exact hc)

/-! ### Concrete cases -/

/-- a new channel at 48 kHz in zeroed buffers -/
theorem newChannel_48 (d : FrameDuration) : ∃ ch : EncChannel ℝ, ch.Inv (Lc3Config.new .hz48000 d) ∧ AllZero ch.freq := by
  obtain ⟨ch, e, hi⟩ := encChannelNew_ok (α := ℝ) (f := .hz48000) (d := d) (by decide)
    (ib := List.replicate (encChanInts (Lc3Config.new .hz48000 d)) 0) (sb := List.replicate (encChanScalars (Lc3Config.new .hz48000 d)) 0)
    (cb := List.replicate (encChanComplex (Lc3Config.new .hz48000 d)) ⟨0, 0⟩) (by simp) (by simp) (by simp)
  exact ⟨ch, hi, (encChannelNew_silent (AllZero.replicate _) e).1⟩

/-- C55 applies to a frame of 480 zeros and 100 bytes. -/
example : ∃ ch : EncChannel ℝ, ch.Inv (Lc3Config.new .hz48000 .tenMs) ∧
    (List.replicate 480 (0 : Int)).length = (Lc3Config.new .hz48000 .tenMs).nf ∧
    Regular (Lc3Config.new .hz48000 .tenMs) ch (List.replicate 480 0) 100 := by
  obtain ⟨ch, hi, h0⟩ := newChannel_48 .tenMs
  exact ⟨ch, hi, List.length_replicate, regular_silence hi h0 (AllZero.replicate _) 100⟩

/-- C46, C47 and C48 apply to the same frame: it is a coded frame, in builds with and without overflow checks. -/
example (checks : Bool) : ∃ (ch : EncChannel ℝ) (a : EncAnalysis ℝ) (s : EncSt) (t : Nat),
    CodedFrame checks .hz48000 .tenMs ch (List.replicate 480 0) (List.replicate 100 0) a s t := by
  obtain ⟨ch, hi, h0⟩ := newChannel_48 .tenMs
  obtain ⟨a, s, t, h, -⟩ := silence_coded checks hi h0 (x := List.replicate 480 0) List.length_replicate (AllZero.replicate _)
    (buf := List.replicate 100 0) (by simp) (by simp)
  exact ⟨ch, a, s, t, h⟩

/-- C49 applies to a frame of 360 zeros in 7.5 ms. -/
example (checks : Bool) : ∃ (ch : EncChannel ℝ) (a : EncAnalysis ℝ) (s : EncSt) (t : Nat),
    CodedFrame checks .hz48000 .sevenPointFiveMs ch (List.replicate 360 0) (List.replicate 75 0) a s t ∧
    ¬ (FrameDuration.sevenPointFiveMs = .tenMs ∧ a.p.bandwidthInd = 2) ∧ TnsNoZero a.p.rcOrder a.p.rcI := by
  obtain ⟨ch, hi, h0⟩ := newChannel_48 .sevenPointFiveMs
  obtain ⟨a, s, t, h, -, -, -, hp⟩ := silence_coded checks hi h0 (x := List.replicate 360 0) List.length_replicate (AllZero.replicate _)
    (buf := List.replicate 75 0) (by simp) (by simp)
  refine ⟨ch, a, s, t, h, by simp, ?_⟩
  rw [hp.orders]
  unfold TnsNoZero
  intro f o k hf hk
  rcases f with - | - | f <;> simp at hf <;> omega

/-- the bytes that arrive instead of a damaged frame -/
theorem noise_rejected (checks : Bool) : readFrame checks (Lc3Config.new .hz48000 .tenMs) (List.replicate 40 255) = .err := by
  cases checks <;> decide +kernel

/-- C56 applies to two channels at 48 kHz, 10 ms, a frame of 100 bytes for the one, a damaged frame and a frame of 20 bytes for the
other channel. -/
example (checks : Bool) : ∃ (E : Encoder ℝ) (D : Decoder ℝ) (r1 : List Int) (r2 : List ℝ) (r3 : List (Cx ℝ)) (r4 : List ℝ) (r5 : List (Cx ℝ)),
    Encoder.new 2 .tenMs .hz48000 (List.replicate 3800 0) (List.replicate 2212 0) (List.replicate 1920 ⟨0, 0⟩) = .ok (E, r1, r2, r3) ∧
    Decoder.new 2 .tenMs .hz48000 (List.replicate (decoderLens 2 .tenMs .hz48000).1 0)
      (List.replicate (decoderLens 2 .tenMs .hz48000).2 ⟨0, 0⟩) = .ok (D, r4, r5) ∧
    transfer checks [⟨0, List.replicate 480 0, List.replicate 100 0, none, List.replicate 480 7⟩,
      ⟨1, List.replicate 480 0, List.replicate 40 0, some (List.replicate 40 255), List.replicate 480 7⟩,
      ⟨1, List.replicate 480 0, List.replicate 20 0, none, List.replicate 480 7⟩] E D
      = .ok [List.replicate 480 0, List.replicate 480 0, List.replicate 480 0] := by
  obtain ⟨E, hE, -⟩ := (C12_partial (α := ℝ) 2 .tenMs .hz48000 (by decide) (List.replicate 3800 0) (List.replicate 2212 0)
    (List.replicate 1920 ⟨0, 0⟩)).1 (by
      rw [show encoderLens 2 .tenMs .hz48000 = (3800, 2212, 1920) by decide +kernel, List.length_replicate, List.length_replicate,
        List.length_replicate]
      exact ⟨le_refl _, le_refl _, le_refl _⟩)
  obtain ⟨chs, hD, -⟩ := decChannelsNew_ok (α := ℝ) (f := .hz48000) (d := .tenMs) (n := 2)
    (sb := List.replicate (decoderLens 2 .tenMs .hz48000).1 0) (cb := List.replicate (decoderLens 2 .tenMs .hz48000).2 ⟨0, 0⟩)
    (by rw [List.length_replicate]; exact le_refl _) (by rw [List.length_replicate]; exact le_refl _)
  obtain ⟨r4, r5, hD'⟩ : ∃ r4 r5, Decoder.new 2 .tenMs .hz48000 (List.replicate (decoderLens 2 .tenMs .hz48000).1 (0 : ℝ))
      (List.replicate (decoderLens 2 .tenMs .hz48000).2 ⟨0, 0⟩) = .ok (⟨Lc3Config.new .hz48000 .tenMs, chs⟩, r4, r5) := by
    unfold Decoder.new
    simp only
    rw [hD]
    exact ⟨_, _, rfl⟩
  refine ⟨E, _, _, _, _, _, _, hE, hD', ?_⟩
  have := C56 (checks := checks) (by decide) hE hD' (fun v hv => List.eq_of_mem_replicate hv) (fun v hv => List.eq_of_mem_replicate hv)
    (calls := [⟨0, List.replicate 480 0, List.replicate 100 0, none, List.replicate 480 7⟩,
      ⟨1, List.replicate 480 0, List.replicate 40 0, some (List.replicate 40 255), List.replicate 480 7⟩,
      ⟨1, List.replicate 480 0, List.replicate 20 0, none, List.replicate 480 7⟩]) (by
    intro c hc
    simp only [List.mem_cons, List.not_mem_nil, or_false] at hc
    rcases hc with rfl | rfl | rfl
    · exact ⟨by decide, rfl, by simp, by simp, by simp, List.length_replicate⟩
    · refine ⟨by decide, rfl, by simp, by simp, ?_, List.length_replicate⟩
      intro b hb
      cases hb
      exact noise_rejected checks
    · exact ⟨by decide, rfl, by simp, by simp, by simp, List.length_replicate⟩)
  exact this

end Lc3
