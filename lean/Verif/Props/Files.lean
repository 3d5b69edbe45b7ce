import Verif.Lemmas.FilesDec
import Verif.Props.Wav
/-!
# C84, C85, C86, C87: the file programs

`encodeFile` is `encode_wav_to_lc3` (examples/encode.rs), `decodeFile` is `decode_lc3_to_wav` (examples/decode.rs). C85 (all frames
of a file are decoded) and C86 (the header describes the data) are false: `C85_fails`, `C86_fails`.
-/

namespace Lc3
open Scalar Spec

variable {α : Type} [Scalar α]

/-- the data of a WAV file as the program takes it: everything behind the header -/
def wavData (wav : List Nat) : List Nat := wav.drop (if bytesAt wav 36 4 = ascii "data" then 44 else 48)

/-- the encoder that the program makes -/
def newEncoder (α : Type) [Scalar α] (f : SamplingFrequency) (d : FrameDuration) (nch : Nat) : Res (Encoder α) := do
  let (E, _) ← Encoder.new (α := α) nch d f (List.replicate (encoderLens nch d f).1 0) (List.replicate (encoderLens nch d f).2.1 zero)
    (List.replicate (encoderLens nch d f).2.2 ⟨zero, zero⟩)
  .ok E

theorem encodeFile_valid {f : SamplingFrequency} {d : FrameDuration} {nch nbytes : Nat} {wav : List Nat} (hw : ValidWav wav) (hn : 0 < nch) :
    encodeFile α f d 16 nch nbytes wav = (do
      let E ← newEncoder α f d nch
      encFileFrames (Lc3Config.new f d).nf nch (2 * ((Lc3Config.new f d).nf * nch)) wav.length (wavData wav)
        (List.replicate ((Lc3Config.new f d).nf * nch) 0) E (List.replicate nbytes 0)) := by
  obtain ⟨r, h1, h2, h3⟩ := C40_read wav
  obtain ⟨h, rfl⟩ := h2.2 hw
  have hs := (h3 h rfl).2.2.2.2.2.2.2
  unfold encodeFile
  rw [h1, Res.bind_ok]
  have hb : (Lc3Config.new f d).nf * nch * 16 / 8 = 2 * ((Lc3Config.new f d).nf * nch) := by
    have : (Lc3Config.new f d).nf * nch * 16 = 2 * ((Lc3Config.new f d).nf * nch) * 8 := by ring
    rw [this, Nat.mul_div_cancel _ (by omega)]
  have hp : 0 < (Lc3Config.new f d).nf * nch := Nat.mul_pos (nf_pos f d) hn
  simp only [hb]
  unfold newEncoder wavData
  rw [hs]
  obtain ⟨il, sl, cl⟩ := encoderLens nch d f
  simp only
  cases Encoder.new (α := α) nch d f (List.replicate il 0) (List.replicate sl zero) (List.replicate cl ⟨zero, zero⟩) with
  | ok p =>
    obtain ⟨E, a, b, c⟩ := p
    simp only [Res.bind_ok]
    rw [if_neg (by omega)]
  | err => rfl
  | panic => rfl

/-- **C84** For every valid WAV file with a whole number of 16 bit samples, every number of channels from 1 on and every frame size: the
program calls the encoder, frame by frame and in a frame channel by channel, with the samples of the file in their order, the last frame
filled up with zeros, and the new file consists of the frames in this order. -/
theorem C84 {f : SamplingFrequency} {d : FrameDuration} {nch nbytes : Nat} {wav : List Nat} (hw : ValidWav wav) (hb : Bytes wav) (hn : 0 < nch)
    (he : (wavData wav).length % 2 = 0) :
    encodeFile α f d 16 nch nbytes wav = (do
      let E ← newEncoder α f d nch
      let (l, _) ← runEncCalls (encCallsFor nbytes (pcmFrames (Lc3Config.new f d).nf nch (wavData wav))) E
      .ok l.flatten) := by
  rw [encodeFile_valid hw hn]
  cases newEncoder α f d nch with
  | ok E =>
    rw [Res.bind_ok, Res.bind_ok]
    exact encFileFrames_eq (Nat.mul_pos (nf_pos f d) hn) _ _ _ _ _ ((wavData wav).length / 2)
      (fun x hx => hb x (List.mem_of_mem_drop hx)) (by omega) (by unfold wavData; rw [List.length_drop]; omega) (by simp) (by simp)
  | err => rfl
  | panic => rfl

theorem frameCount_sum {nf nch : Nat} (data : List Nat) (n : Nat) :
    (encCallsFor n (pcmFrames nf nch data)).length = frameCount nf nch data.length * nch := by
  simp [encCallsFor, pcmFrames, List.length_flatMap]

theorem length_flatten_const {n : Nat} : ∀ (l : List (List Nat)), (∀ b ∈ l, b.length = n) → l.flatten.length = l.length * n
  | [], _ => by simp
  | b :: l, h => by
    rw [List.flatten_cons, List.length_append, h b (by simp), length_flatten_const l (fun b hb => h b (by simp [hb])), List.length_cons]
    ring

/-- **C84, size** The new file has `nbytes` bytes for each channel of each begun frame. A file with an odd number of data bytes is
never encoded (the program panics). A file without a valid header is refused. -/
theorem C84_size {f : SamplingFrequency} {d : FrameDuration} {nch nbytes : Nat} {wav out : List Nat} (hb : Bytes wav) (hn : 0 < nch)
    (h : encodeFile α f d 16 nch nbytes wav = .ok out) :
    ValidWav wav ∧ (wavData wav).length % 2 = 0 ∧
      out.length = frameCount (Lc3Config.new f d).nf nch (wavData wav).length * nch * nbytes := by
  have hw : ValidWav wav := by
    obtain ⟨r, h1, h2, -⟩ := C40_read wav
    unfold encodeFile at h
    rw [h1, Res.bind_ok] at h
    cases r with
    | error e => cases h
    | ok hd => exact h2.1 ⟨hd, rfl⟩
  have he : (wavData wav).length % 2 = 0 := by
    by_contra hc
    rw [encodeFile_valid hw hn] at h
    obtain ⟨E, -, h⟩ := bind_ok_inv h
    exact encFileFrames_odd (Nat.mul_pos (nf_pos f d) hn) _ _ _ _ _ ((wavData wav).length / 2) (by omega)
      (by unfold wavData; rw [List.length_drop]; omega) _ h
  refine ⟨hw, he, ?_⟩
  rw [C84 hw hb hn he] at h
  obtain ⟨E, -, h⟩ := bind_ok_inv h
  obtain ⟨⟨l, E'⟩, h1, h⟩ := bind_ok_inv h
  cases h
  obtain ⟨l1, l2⟩ := runEncCalls_length _ _ _ _ nbytes (by
    intro c hc
    unfold encCallsFor at hc
    obtain ⟨p, -, rfl⟩ := List.mem_map.1 hc
    simp) h1
  rw [length_flatten_const l l2, l1, frameCount_sum]

/-- the decoder that the program makes -/
def newDecoder (α : Type) [Scalar α] (f : SamplingFrequency) (d : FrameDuration) (nch : Nat) : Res (Decoder α) := do
  let (D, _) ← Decoder.new (α := α) nch d f (List.replicate (decoderLens nch d f).1 zero) (List.replicate (decoderLens nch d f).2 ⟨zero, zero⟩)
  .ok D

theorem newDecoder_ok (f : SamplingFrequency) (d : FrameDuration) (nch : Nat) :
    ∃ D, newDecoder α f d nch = .ok D ∧ Reachable f d D ∧ D.channels.length = nch := by
  obtain ⟨D, hD, hl⟩ := (C11 (α := α) nch f d (List.replicate (decoderLens nch d f).1 zero)
    (List.replicate (decoderLens nch d f).2 ⟨zero, zero⟩)).1 (by simp)
  refine ⟨D, ?_, Reachable.new hD, hl⟩
  unfold newDecoder
  rw [hD]; rfl

/-- the bytes of a header, for the header `h` -/
def headerBytes (h : WavHeader) : List Nat := [0x52, 0x49, 0x46, 0x46] ++ le32 h.dataWithHeaderSize ++ [0x57, 0x41, 0x56, 0x45] ++
  [0x66, 0x6D, 0x74, 0x20] ++ le32 16 ++ le16 1 ++ le16 h.numChannels ++ le32 h.sampleRate ++ le32 h.byteRate ++ le16 h.blockAlign ++
  le16 h.bitsPerSample ++ [0x64, 0x61, 0x74, 0x61] ++ le32 h.dataSize

theorem headerBytes_length (h : WavHeader) : (headerBytes h).length = 44 := by simp [headerBytes, le32, le16]

/-- the samples of the frames in the results of decoder calls: sample `i` of channel `c` in frame `t` -/
def resultAt (nch : Nat) (l : List (DecResult × List Int)) (t c i : Nat) : Int := (l.getD (t * nch + c) (.ok, [])).2.getD i 0

/-- the full claim: all `len / n` frames of the file are decoded, and the samples of all complete frames (one frame for each channel) are
written behind the header. It is false, see `C85_fails`. -/
def C85_statement (α : Type) [Scalar α] : Prop := ∀ (checks : Bool) (f : SamplingFrequency) (d : FrameDuration) (nch n : Nat) (lc3 : List Nat),
  0 < n → 0 < nch →
    decodeFile α checks f d 16 nch n lc3 = (do
      let D ← newDecoder α f d nch
      let (l, _) ← runCalls checks (decCallsFor (Lc3Config.new f d).nf (lc3Frames nch n (lc3.length / n) lc3)) D
      .ok (headerBytes (decFileHeader (Lc3Config.new f d) nch) ++
        pcmBytes (Lc3Config.new f d).nf nch (lc3.length / n / nch) (resultAt nch l)))

/-- **C85, partial** For every file (also of damaged frames), every number of channels and every frame size from 1 on, with and without
overflow checks: the program calls the decoder with the pieces of `n` bytes in their order, cycling through the channels, and writes the
samples of all complete frames, interleaved; only the number of calls is `(len - 1) / n` instead of `len / n`: a piece of `n` bytes at the very end of the
file is left out. -/
theorem C85_partial {checks : Bool} {f : SamplingFrequency} {d : FrameDuration} {nch n : Nat} {lc3 : List Nat} (hn : 0 < n) (hc : 0 < nch) :
    decodeFile α checks f d 16 nch n lc3 = (do
      let D ← newDecoder α f d nch
      let (l, _) ← runCalls checks (decCallsFor (Lc3Config.new f d).nf (lc3Frames nch n ((lc3.length - 1) / n) lc3)) D
      .ok (headerBytes (decFileHeader (Lc3Config.new f d) nch) ++
        pcmBytes (Lc3Config.new f d).nf nch ((lc3.length - 1) / n / nch) (resultAt nch l))) := by
  obtain ⟨D, hD, hr, -⟩ := newDecoder_ok (α := α) f d nch
  rw [hD, Res.bind_ok]
  unfold newDecoder at hD
  obtain ⟨⟨D', a, b⟩, h1, hD⟩ := bind_ok_inv hD
  simp only [Res.ok.injEq] at hD
  subst hD
  unfold decodeFile
  simp only
  rw [h1, Res.bind_ok]
  simp only
  rw [writeWavHeader_eq (by rw [List.length_replicate]; omega), Res.bind_ok]
  simp only
  rw [decFileFrames_eq checks hn hc _ _ _ _ (by omega) (by simp) (by simp) hr]
  have ht : ∀ r : List Nat, List.take 44 (headerBytes (decFileHeader (Lc3Config.new f d) nch) ++ r) =
      headerBytes (decFileHeader (Lc3Config.new f d) nch) := fun r => List.take_left' (headerBytes_length _)
  unfold headerBytes at ht
  rw [ht]
  unfold callCount
  cases h2 : runCalls checks (decCallsFor (Lc3Config.new f d).nf (lc3Frames nch n ((lc3.length - 1) / n) lc3)) D' with
  | ok q => rfl
  | err => rfl
  | panic => rfl

theorem pcmBytes_length (nf nch k : Nat) (g : Nat → Nat → Nat → Int) : (pcmBytes nf nch k g).length = 2 * (nf * nch) * k := by
  simp [pcmBytes, List.length_flatMap, sampleBytes]
  ring

theorem pred_mul_div {a b : Nat} (ha : 0 < a) (hb : 0 < b) : (a * b - 1) / b = a - 1 := by
  obtain ⟨k, rfl⟩ : ∃ k, a = k + 1 := ⟨a - 1, by omega⟩
  have e : (k + 1) * b - 1 = (b - 1) + k * b := by rw [Nat.add_mul]; omega
  rw [e, Nat.add_mul_div_right _ _ hb, Nat.div_eq_of_lt (by omega)]
  omega

/-- **C85 fails** A file of `m ≥ 1` whole frames (`n` bytes for each of `nch` channels) never gives more than the samples of `m - 1` frames. -/
theorem C85_fails {checks : Bool} {f : SamplingFrequency} {d : FrameDuration} {nch n m : Nat} {lc3 out : List Nat} (hn : 0 < n) (hc : 0 < nch)
    (hm : 0 < m) (hl : lc3.length = m * nch * n) (h : decodeFile α checks f d 16 nch n lc3 = .ok out) :
    out.length = 44 + 2 * ((Lc3Config.new f d).nf * nch) * (m - 1) := by
  rw [C85_partial hn hc] at h
  obtain ⟨D, -, h⟩ := bind_ok_inv h
  obtain ⟨⟨l, D'⟩, -, h⟩ := bind_ok_inv h
  cases h
  rw [List.length_append, headerBytes_length, pcmBytes_length]
  have hp : 0 < m * nch := Nat.mul_pos hm hc
  have e1 : (lc3.length - 1) / n = m * nch - 1 := by rw [hl]; exact pred_mul_div hp hn
  have e2 : (m * nch - 1) / nch = m - 1 := pred_mul_div hm hc
  rw [e1, e2]

/-- the calls of the program return, in a build without overflow checks and for all frame sizes but the few of C06 -/
theorem runCalls_returns {f : SamplingFrequency} {d : FrameDuration} {n nch : Nat} (hp : n ∉ panicLengths f d) : ∀ (l : List (Nat × List Nat))
    (D : Decoder α), (∀ p ∈ l, p.1 < nch ∧ p.2.length = n) → Reachable f d D → D.channels.length = nch →
    ∃ r D', runCalls false (decCallsFor (Lc3Config.new f d).nf l) D = .ok (r, D')
  | [], D, _, _, _ => ⟨[], D, rfl⟩
  | c :: l, D, hl, hD, hc => by
    obtain ⟨h1, h2⟩ := hl c (by simp)
    obtain ⟨r, D', o, e⟩ := C06_partial hD (bits := 16) (ch := c.1) (by omega) (buf := c.2) (by rw [h2]; exact hp)
      (List.replicate (Lc3Config.new f d).nf 0)
    have hc' : D'.channels.length = nch := by
      unfold decodeFrame at e
      split at e
      · cases e
      · obtain ⟨q, -, e⟩ := bind_ok_inv e
        simp only [Res.ok.injEq, Prod.mk.injEq] at e
        obtain ⟨-, rfl, -⟩ := e
        simpa using hc
    obtain ⟨r2, D2, e2⟩ := runCalls_returns hp l D' (fun p hp => hl p (by simp [hp])) (Reachable.call hD e) hc'
    refine ⟨(r, o) :: r2, D2, ?_⟩
    simp only [decCallsFor, List.map_cons, runCalls]
    rw [e, Res.bind_ok]
    simp only
    unfold decCallsFor at e2
    rw [e2, Res.bind_ok]

/-- **C85, the program ends** In a build without overflow checks, for all frame sizes but the few of C06 (all below 8 bytes): whatever the
contents of the file, the program ends normally. -/
theorem C85_returns {f : SamplingFrequency} {d : FrameDuration} {nch n : Nat} {lc3 : List Nat} (hn : 0 < n) (hc : 0 < nch)
    (hp : n ∉ panicLengths f d) : ∃ out, decodeFile α false f d 16 nch n lc3 = .ok out ∧
      out.length = 44 + 2 * ((Lc3Config.new f d).nf * nch) * ((lc3.length - 1) / n / nch) := by
  obtain ⟨D, hD, hr, hcl⟩ := newDecoder_ok (α := α) f d nch
  obtain ⟨r, D', e⟩ := runCalls_returns (nch := nch) hp (lc3Frames nch n ((lc3.length - 1) / n) lc3) D (by
    intro p hp
    unfold lc3Frames at hp
    obtain ⟨i, hi, rfl⟩ := List.mem_map.1 hp
    rw [List.mem_range] at hi
    refine ⟨Nat.mod_lt _ hc, ?_⟩
    rw [List.length_take, List.length_drop]
    have : (i + 1) * n ≤ lc3.length - 1 := le_trans (Nat.mul_le_mul_right _ hi) (Nat.div_mul_le_self _ _)
    have e : (i + 1) * n = i * n + n := by ring
    omega) hr hcl
  refine ⟨_, by rw [C85_partial hn hc, hD, Res.bind_ok, e, Res.bind_ok], ?_⟩
  · rw [List.length_append, headerBytes_length, pcmBytes_length]

/-- so the full claim is false: two frames of 40 bytes give one frame of samples -/
theorem C85_statement_false : ¬ C85_statement α := by
  intro h
  obtain ⟨out, e1, e2⟩ := C85_returns (α := α) (f := .hz16000) (d := .tenMs) (nch := 1) (n := 40) (lc3 := List.replicate 80 0)
    (by omega) (by omega) (by decide)
  have := h false .hz16000 .tenMs 1 40 (List.replicate 80 0) (by omega) (by omega)
  rw [e1] at this
  obtain ⟨D, -, this⟩ := bind_ok_inv this.symm
  obtain ⟨⟨l, D'⟩, -, this⟩ := bind_ok_inv this
  simp only [Res.ok.injEq] at this
  rw [← this, List.length_append, headerBytes_length, pcmBytes_length] at e2
  have e3 : (Lc3Config.new .hz16000 .tenMs).nf = 160 := by decide
  simp [e3] at e2

/-- with one byte more at the end of the file, all frames are decoded -/
theorem C85_padded {checks : Bool} {f : SamplingFrequency} {d : FrameDuration} {nch n m b : Nat} {lc3 : List Nat} (hn : 0 < n) (hc : 0 < nch)
    (hl : lc3.length = m * nch * n) : decodeFile α checks f d 16 nch n (lc3 ++ [b]) = (do
      let D ← newDecoder α f d nch
      let (l, _) ← runCalls checks (decCallsFor (Lc3Config.new f d).nf (lc3Frames nch n (m * nch) lc3)) D
      .ok (headerBytes (decFileHeader (Lc3Config.new f d) nch) ++ pcmBytes (Lc3Config.new f d).nf nch m (resultAt nch l))) := by
  rw [C85_partial hn hc]
  have e1 : ((lc3 ++ [b]).length - 1) / n = m * nch := by
    rw [List.length_append, List.length_singleton, Nat.add_sub_cancel, hl, Nat.mul_div_cancel _ hn]
  have e2 : lc3Frames nch n (m * nch) (lc3 ++ [b]) = lc3Frames nch n (m * nch) lc3 := by
    unfold lc3Frames
    apply List.map_congr_left
    intro i hi
    rw [List.mem_range] at hi
    have : (i + 1) * n ≤ lc3.length := by rw [hl]; exact Nat.mul_le_mul_right _ hi
    have e : (i + 1) * n = i * n + n := by ring
    rw [List.drop_append_of_le_length (by omega), List.take_append_of_le_length (by rw [List.length_drop]; omega)]
  rw [e1, e2, Nat.mul_div_cancel _ hc]

/-- encoding a WAV file and decoding the result with the two programs loses the last frame: of `T ≥ 1` begun frames `T - 1` come back -/
theorem C85_roundtrip_fails {checks : Bool} {f : SamplingFrequency} {d : FrameDuration} {nch n : Nat} {wav lc3 out : List Nat} (hb : Bytes wav)
    (hn : 0 < n) (hc : 0 < nch) (hd : wavData wav ≠ []) (he : encodeFile α f d 16 nch n wav = .ok lc3)
    (h : decodeFile α checks f d 16 nch n lc3 = .ok out) :
    out.length = 44 + 2 * ((Lc3Config.new f d).nf * nch) * (frameCount (Lc3Config.new f d).nf nch (wavData wav).length - 1) := by
  obtain ⟨-, -, hl⟩ := C84_size hb hc he
  refine C85_fails hn hc ?_ hl h
  rw [frameCount_step (Nat.mul_pos (nf_pos f d) hc) (List.length_pos_iff.2 hd)]
  omega

/-! ### The header -/

theorem decFileHeader_fits {f : SamplingFrequency} {d : FrameDuration} {nch : Nat} (h : nch < 2 ^ 15) : FitsWav (decFileHeader (Lc3Config.new f d) nch) := by
  have : (Lc3Config.new f d).fs ≤ 48000 := by cases f <;> cases d <;> decide
  unfold FitsWav decFileHeader FULL_WAV_HEADER_LEN RIFF_HEADER_ONLY_LEN
  have h2 : (Lc3Config.new f d).fs * nch * 16 ≤ 48000 * nch * 16 := Nat.mul_le_mul_right _ (Nat.mul_le_mul_right _ this)
  simp only
  refine ⟨by omega, by omega, ?_, by omega, by omega, by omega, by omega⟩
  omega

/-- what the header of a new WAV file says -/
theorem readWavHeader_append {h : WavHeader} (hf : FitsWav h) (r : List Nat) :
    readWavHeader (headerBytes h ++ r) = .ok (.ok { h with dataStartPosition := 44 }) := by
  obtain ⟨buf, e1, -, -, -, e2⟩ := (C40_write (h := h) (buf := List.replicate 44 0 ++ r)).2 (by simp) hf
  rw [writeWavHeader_eq (by simp), List.drop_left' (by simp)] at e1
  simp only [Res.ok.injEq, Prod.mk.injEq, and_true] at e1
  rw [← e1] at e2
  exact e2

theorem fs_spec (f : SamplingFrequency) (d : FrameDuration) : (Lc3Config.new f d).fs ∈ [8000, 16000, 24000, 32000, 44100, 48000] := by
  cases f <;> cases d <;> decide

/-- **C86, partial** The new WAV file begins with a valid header that states the number of channels, the sampling frequency, 16 bits per sample
and the byte rate; the samples begin behind it. What it does not state is the amount of data (`C86_fails`), and the block size is that of two channels whatever the number of
channels. -/
theorem C86_partial {checks : Bool} {f : SamplingFrequency} {d : FrameDuration} {nch n : Nat} {lc3 out : List Nat} (hn : 0 < n) (hc : 0 < nch)
    (h15 : nch < 2 ^ 15) (h : decodeFile α checks f d 16 nch n lc3 = .ok out) :
    ∃ hd, readWavHeader out = .ok (.ok hd) ∧ hd.numChannels = nch ∧ hd.sampleRate = (Lc3Config.new f d).fs ∧ hd.bitsPerSample = 16 ∧
      hd.byteRate = (Lc3Config.new f d).fs * nch * 2 ∧ hd.dataStartPosition = 44 ∧ hd.blockAlign = 4 ∧ hd.dataSize = 0 ∧
      hd.dataWithHeaderSize = 36 := by
  rw [C85_partial hn hc] at h
  obtain ⟨D, -, h⟩ := bind_ok_inv h
  obtain ⟨⟨l, D'⟩, -, h⟩ := bind_ok_inv h
  cases h
  refine ⟨_, readWavHeader_append (decFileHeader_fits h15) _, rfl, rfl, rfl, ?_, rfl, rfl, rfl, rfl⟩
  unfold decFileHeader
  simp only
  omega

/-- **C86 fails** As soon as a sample has been written, the header states the wrong amount of data: 0 bytes. -/
theorem C86_fails {checks : Bool} {f : SamplingFrequency} {d : FrameDuration} {nch n : Nat} {lc3 out : List Nat} (hn : 0 < n) (hc : 0 < nch)
    (h15 : nch < 2 ^ 15) (hl : nch * n < lc3.length) (h : decodeFile α checks f d 16 nch n lc3 = .ok out) :
    ∃ hd, readWavHeader out = .ok (.ok hd) ∧ hd.dataSize = 0 ∧ 0 < (out.drop hd.dataStartPosition).length := by
  obtain ⟨hd, h1, -, -, -, -, h2, -, h3, -⟩ := C86_partial hn hc h15 h
  refine ⟨hd, h1, h3, ?_⟩
  rw [C85_partial hn hc] at h
  obtain ⟨D, -, h⟩ := bind_ok_inv h
  obtain ⟨⟨l, D'⟩, -, h⟩ := bind_ok_inv h
  cases h
  rw [h2, List.drop_left' (headerBytes_length _), pcmBytes_length]
  have h4 : nch ≤ (lc3.length - 1) / n := (Nat.le_div_iff_mul_le hn).2 (by omega)
  have h5 : 1 ≤ (lc3.length - 1) / n / nch := (Nat.le_div_iff_mul_le hc).2 (by omega)
  exact Nat.mul_pos (Nat.mul_pos (by omega) (Nat.mul_pos (nf_pos f d) hc)) h5

/-- the hypotheses of `C86_fails` can be met, for every scalar type: 81 bytes, 40 for each frame of one channel -/
example : ∃ out, decodeFile α false .hz16000 .tenMs 16 1 40 (List.replicate 81 0) = .ok out ∧ 1 * 40 < (List.replicate 81 0).length := by
  obtain ⟨out, e, -⟩ := C85_returns (α := α) (f := .hz16000) (d := .tenMs) (nch := 1) (n := 40) (lc3 := List.replicate 81 0)
    (by omega) (by omega) (by decide)
  exact ⟨out, e, by simp⟩

/-! ### C87: the encoder reads what the decoder wrote -/

theorem pcmAt_flatMap : ∀ (l : List Int), (∀ x ∈ l, -32768 ≤ x ∧ x ≤ 32767) → ∀ j, pcmAt (l.flatMap sampleBytes) j = l.getD j 0
  | [], _, j => by simp [pcmAt]
  | x :: l, h, 0 => by
    obtain ⟨h1, h2⟩ := h x (by simp)
    have e : ((x % 256).toNat : Int) + 256 * ((x / 256 % 256).toNat : Int) = x % 65536 := by omega
    simp only [List.flatMap_cons, sampleBytes, pcmAt]
    simp only [List.cons_append, List.nil_append, List.length_cons, Nat.mul_zero, List.getD_cons_zero, List.getD_cons_succ, Nat.zero_add]
    rw [if_pos (by omega), e]
    unfold Int.bmod
    have : x % 65536 % ((65536 : Nat) : Int) = x % 65536 := by omega
    simp only [this]
    split <;> omega
  | x :: l, h, j + 1 => by
    rw [List.getD_cons_succ, ← pcmAt_flatMap l (fun x hx => h x (by simp [hx])) j]
    simp only [List.flatMap_cons, sampleBytes]
    exact pcmAt_cons2 _ _ _ _

theorem getD_flatMap_const {β : Type} (z : β) {b : Nat} : ∀ (a : Nat) (F : Nat → List β), (∀ t < a, (F t).length = b) → ∀ t r, t < a → r < b →
    ((List.range a).flatMap F).getD (t * b + r) z = (F t).getD r z
  | 0, F, _, t, r, h, _ => by omega
  | a + 1, F, hF, 0, r, _, hr => by
    rw [List.range_succ_eq_map, List.flatMap_cons, List.getD_append _ _ _ _ (by rw [hF 0 (by omega)]; omega)]
    simp
  | a + 1, F, hF, t + 1, r, ht, hr => by
    rw [List.range_succ_eq_map, List.flatMap_cons, List.flatMap_map]
    have h0 := hF 0 (by omega)
    have e : (t + 1) * b + r = b + (t * b + r) := by ring
    rw [List.getD_append_right _ _ _ _ (by rw [h0, e]; omega), h0, e, Nat.add_sub_cancel_left]
    exact getD_flatMap_const z a (fun t => F (t + 1)) (fun t ht => hF (t + 1) (by omega)) t r (by omega) hr

theorem pcmAt_pcmBytes {nf nch k : Nat} {g : Nat → Nat → Nat → Int} (hg : ∀ t < k, ∀ c < nch, ∀ i < nf, -32768 ≤ g t c i ∧ g t c i ≤ 32767)
    {t c i : Nat} (ht : t < k) (hc : c < nch) (hi : i < nf) : pcmAt (pcmBytes nf nch k g) ((t * nf + i) * nch + c) = g t c i := by
  have e : pcmBytes nf nch k g = ((List.range k).flatMap fun t => (List.range nf).flatMap fun i => (List.range nch).map fun c => g t c i).flatMap sampleBytes := by
    unfold pcmBytes
    simp only [List.flatMap_assoc, List.flatMap_map]
  have hlt : i * nch + c < nf * nch := by
    calc i * nch + c < i * nch + nch := by omega
      _ = (i + 1) * nch := by ring
      _ ≤ nf * nch := Nat.mul_le_mul_right _ hi
  rw [e, pcmAt_flatMap]
  · have e2 : (t * nf + i) * nch + c = t * (nf * nch) + (i * nch + c) := by ring
    rw [e2, getD_flatMap_const 0 k _ (fun t _ => by simp [List.length_flatMap]) t _ ht hlt,
      getD_flatMap_const 0 nf _ (fun i _ => by simp) i _ hi hc, List.getD_eq_getElem _ _ (by simpa using hc)]
    simp
  · intro x hx
    simp only [List.mem_flatMap, List.mem_map, List.mem_range] at hx
    obtain ⟨t, ht, i, hi, c, hc, rfl⟩ := hx
    exact hg t ht c hc i hi

theorem pcmFrames_pcmBytes {nf nch k : Nat} (hn : 0 < nf * nch) {g : Nat → Nat → Nat → Int}
    (hg : ∀ t < k, ∀ c < nch, ∀ i < nf, -32768 ≤ g t c i ∧ g t c i ≤ 32767) :
    pcmFrames nf nch (pcmBytes nf nch k g) =
      (List.range k).flatMap fun t => (List.range nch).map fun c => (c, (List.range nf).map (g t c)) := by
  unfold pcmFrames
  have hk : frameCount nf nch (pcmBytes nf nch k g).length = k := by
    unfold frameCount
    rw [pcmBytes_length, Nat.mul_assoc 2 nf nch]
    generalize nf * nch = m at *
    rw [Nat.add_comm, Nat.add_mul_div_left _ _ (by omega), Nat.div_eq_of_lt (by omega), Nat.zero_add]
  rw [hk]
  apply List.flatMap_congr
  intro t ht
  apply List.map_congr_left
  intro c hc
  unfold pcmFrame
  congr 1
  apply List.map_congr_left
  intro i hi
  exact pcmAt_pcmBytes hg (List.mem_range.1 ht) (List.mem_range.1 hc) (List.mem_range.1 hi)

/-- 16 bit results of decoder calls -/
theorem runCalls_range {f : SamplingFrequency} {d : FrameDuration} {checks : Bool} : ∀ (l : List (Nat × List Nat)) (D D' : Decoder α)
    (r : List (DecResult × List Int)), Reachable f d D → runCalls checks (decCallsFor (Lc3Config.new f d).nf l) D = .ok (r, D') →
    ∀ p ∈ r, ∀ x ∈ p.2, -32768 ≤ x ∧ x ≤ 32767
  | [], D, D', r, hD, h => by
    simp only [decCallsFor, List.map_nil, runCalls, Res.ok.injEq, Prod.mk.injEq] at h
    obtain ⟨rfl, rfl⟩ := h
    simp
  | c :: cs, D, D', r, hD, h => by
    simp only [decCallsFor, List.map_cons, runCalls] at h
    obtain ⟨⟨r1, D1, o⟩, h1, h⟩ := bind_ok_inv h
    obtain ⟨⟨l', D2⟩, h2, h⟩ := bind_ok_inv h
    simp only [Res.ok.injEq, Prod.mk.injEq] at h
    obtain ⟨rfl, rfl⟩ := h
    have ih := runCalls_range cs D1 _ l' (Reachable.call hD h1) h2
    intro p hp
    rcases List.mem_cons.1 hp with rfl | hp
    swap
    · exact ih p hp
    intro x hx
    simp only at hx
    unfold decodeFrame at h1
    split at h1
    · cases h1
    rename_i ch hch
    obtain ⟨⟨r', ch', o'⟩, g1, h1⟩ := bind_ok_inv h1
    simp only [Res.ok.injEq, Prod.mk.injEq] at h1
    obtain ⟨rfl, rfl, rfl⟩ := h1
    unfold decodeChannel at g1
    rw [if_neg (by simp)] at g1
    obtain ⟨⟨lines, plc, info⟩, -, g1⟩ := bind_ok_inv g1
    by_cases g2 : ch.freqSamples.length ≠ D.config.nf
    · simp only [if_pos g2] at g1
      cases g1
    simp only [if_neg g2] at g1
    obtain ⟨⟨ola, fr⟩, -, g1⟩ := bind_ok_inv g1
    obtain ⟨⟨lt, fr2⟩, -, g1⟩ := bind_ok_inv g1
    simp only [Res.ok.injEq, Prod.mk.injEq] at g1
    obtain ⟨-, -, rfl⟩ := g1
    rw [scaleAndRound_eq, List.mem_append] at hx
    rcases hx with hx | hx
    · obtain ⟨y, -, rfl⟩ := List.mem_map.1 hx
      exact roundSample_range y
    · have := List.eq_of_mem_replicate (List.mem_of_mem_drop hx)
      omega

theorem bytes_headerBytes {h : WavHeader} : Bytes (headerBytes h) := by
  intro b hb
  simp only [headerBytes, le32, le16, List.mem_append, List.mem_cons, List.not_mem_nil, or_false] at hb
  omega

theorem bytes_pcmBytes (nf nch k : Nat) (g : Nat → Nat → Nat → Int) : Bytes (pcmBytes nf nch k g) := by
  intro b hb
  simp only [pcmBytes, sampleBytes, List.mem_flatMap, List.mem_cons, List.not_mem_nil, or_false] at hb
  obtain ⟨_, _, _, _, _, _, hb⟩ := hb
  omega

/-- **C87** The WAV file written by the decoding program is a valid input of the encoding program (with the same configuration and number of channels), which
then encodes, frame by frame and channel by channel, exactly the samples that the decoder returned: what call number `t · nch + c`
of the decoder gave is frame `t` of channel `c`. -/
theorem C87 {checks : Bool} {f : SamplingFrequency} {d : FrameDuration} {nch n nbytes : Nat} {lc3 wav : List Nat} (hn : 0 < n) (hc : 0 < nch)
    (h15 : nch < 2 ^ 15) (h : decodeFile α checks f d 16 nch n lc3 = .ok wav) :
    ∃ D D' l, newDecoder α f d nch = .ok D ∧
      runCalls checks (decCallsFor (Lc3Config.new f d).nf (lc3Frames nch n ((lc3.length - 1) / n) lc3)) D = .ok (l, D') ∧
      l.length = (lc3.length - 1) / n ∧
      encodeFile α f d 16 nch nbytes wav = (do
        let E ← newEncoder α f d nch
        let (b, _) ← runEncCalls (encCallsFor nbytes ((List.range ((lc3.length - 1) / n / nch)).flatMap fun t =>
          (List.range nch).map fun c => (c, (l.getD (t * nch + c) (.ok, [])).2))) E
        .ok b.flatten) := by
  have hC := h
  rw [C85_partial hn hc] at h
  obtain ⟨D, hD, h⟩ := bind_ok_inv h
  obtain ⟨⟨l, D'⟩, hl, h⟩ := bind_ok_inv h
  simp only [Res.ok.injEq] at h
  have hr : Reachable f d D := by
    obtain ⟨D2, e, hr, -⟩ := newDecoder_ok (α := α) f d nch
    rw [hD] at e
    cases e
    exact hr
  obtain ⟨-, hll, hlp⟩ := runCalls_post _ _ _ _ hr hl
  have hrange := runCalls_range _ _ _ _ hr hl
  have hll' : l.length = (lc3.length - 1) / n := by rw [hll]; simp [lc3Frames]
  refine ⟨D, D', l, hD, hl, hll', ?_⟩
  have hin : ∀ t < (lc3.length - 1) / n / nch, ∀ c < nch, t * nch + c < l.length := by
    intro t ht c hc'
    rw [hll']
    calc t * nch + c < t * nch + nch := by omega
      _ = (t + 1) * nch := by ring
      _ ≤ (lc3.length - 1) / n / nch * nch := Nat.mul_le_mul_right _ ht
      _ ≤ _ := Nat.div_mul_le_self _ _
  have hread := readWavHeader_append (decFileHeader_fits (f := f) (d := d) h15)
    (pcmBytes (Lc3Config.new f d).nf nch ((lc3.length - 1) / n / nch) (resultAt nch l))
  rw [h] at hread
  have hv : ValidWav wav := by
    obtain ⟨r, e1, e2, -⟩ := C40_read wav
    rw [hread] at e1
    cases e1
    exact e2.1 ⟨_, rfl⟩
  have hdat : wavData wav = pcmBytes (Lc3Config.new f d).nf nch ((lc3.length - 1) / n / nch) (resultAt nch l) := by
    have hst : (if bytesAt wav 36 4 = ascii "data" then 44 else 48) = 44 := by
      obtain ⟨r, e1, -, e3⟩ := C40_read wav
      rw [hread] at e1
      cases e1
      exact (e3 _ rfl).2.2.2.2.2.2.2.symm
    unfold wavData
    rw [hst, ← h, List.drop_left' (headerBytes_length _)]
  rw [C84 hv (by
      rw [← h]
      intro b hb
      rcases List.mem_append.1 hb with hb | hb
      · exact bytes_headerBytes b hb
      · exact bytes_pcmBytes _ _ _ _ b hb) hc (by rw [hdat, pcmBytes_length, Nat.mul_assoc]; omega), hdat,
    pcmFrames_pcmBytes (Nat.mul_pos (nf_pos f d) hc)]
  · have e : ((List.range ((lc3.length - 1) / n / nch)).flatMap fun t => (List.range nch).map fun c =>
        (c, (List.range (Lc3Config.new f d).nf).map (resultAt nch l t c))) =
        (List.range ((lc3.length - 1) / n / nch)).flatMap fun t => (List.range nch).map fun c => (c, (l.getD (t * nch + c) (.ok, [])).2) := by
      apply List.flatMap_congr
      intro t ht
      apply List.map_congr_left
      intro c hc'
      congr 1
      have hlt := hin t (List.mem_range.1 ht) c (List.mem_range.1 hc')
      have hlen := (hlp _ (List.getElem_mem hlt)).2
      unfold resultAt
      rw [List.getD_eq_getElem _ _ hlt]
      apply List.ext_getElem
      · simp [hlen]
      · intro i h1 h2
        rw [List.getElem_map, List.getElem_range, List.getD_eq_getElem _ _ h2]
    rw [e]
  · intro t ht c hc' i hi
    have hlt := hin t ht c hc'
    have hlen := (hlp _ (List.getElem_mem hlt)).2
    unfold resultAt
    rw [List.getD_eq_getElem _ _ hlt, List.getD_eq_getElem _ _ (by omega)]
    exact hrange _ (List.getElem_mem hlt) _ (List.getElem_mem _)

/-! ### Examples -/

/-- a stereo file with three samples in each channel -/
def exampleWav : List Nat := headerBytes ⟨2, 48000, 192000, 4, 16, 12, 44, 48⟩ ++ [1, 0, 2, 0, 255, 255, 0, 128, 3, 0, 255, 127]

/-- the hypotheses of `C84` can be met: the frame of each channel begins with the three samples of the channel, then zeros follow -/
example : ValidWav exampleWav ∧ Bytes exampleWav ∧ (wavData exampleWav).length % 2 = 0 ∧ frameCount 480 2 (wavData exampleWav).length = 1 ∧
    (pcmFrames 480 2 (wavData exampleWav)).map (fun p => (p.1, p.2.take 5)) = [(0, [1, -1, 3, 0, 0]), (1, [2, -32768, 32767, 0, 0])] := by
  refine ⟨?_, ?_, ?_, ?_, ?_⟩
  · unfold ValidWav; decide
  · unfold Bytes; decide
  all_goals decide +kernel

/-- two frames of 3 bytes for each of two channels -/
example : lc3Frames 2 3 4 [1, 2, 3, 4, 5, 6, 7, 8, 9, 10, 11, 12] = [(0, [1, 2, 3]), (1, [4, 5, 6]), (0, [7, 8, 9]), (1, [10, 11, 12])] := by decide

/-- the hypotheses of `C87` can be met, for every scalar type -/
example : ∃ wav, decodeFile α false .hz48000 .tenMs 16 2 150 (List.replicate 901 7) = .ok wav ∧ wav.length = 44 + 1920 * 3 := by
  obtain ⟨out, e1, e2⟩ := C85_returns (α := α) (f := .hz48000) (d := .tenMs) (nch := 2) (n := 150) (lc3 := List.replicate 901 7)
    (by omega) (by omega) (by decide)
  have e3 : (Lc3Config.new .hz48000 .tenMs).nf = 480 := by decide
  exact ⟨out, e1, by rw [e2, e3, List.length_replicate]⟩

end Lc3
