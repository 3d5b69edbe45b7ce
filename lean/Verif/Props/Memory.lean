import Verif.Lemmas.FrameLsb
import Verif.Props.Resync
import Verif.Props.Silence32
/-! # C106: what carries over from frame to frame -/

namespace Lc3
open Scalar Tables Spec
variable {α : Type} [Scalar α]

/-- **C106, encoder.** Any float behaviour, any configuration and state: a call of the encoder that returns counts one frame, keeps the
sizes of the buffers and the cut-off tables of the bandwidth detector, and neither the frame counter nor the bits the bit writer kept of the
frame before nor the old contents of the output buffer have any influence on the bytes or on the rest of the new state. -/
theorem C106_encoder {cfg : Lc3Config} {ch ch' : EncChannel α} {x : List Int} {buf out : List Nat}
    (h : encodeChannel cfg ch x buf = .ok (ch', out)) :
    ch'.frameIndex = ch.frameIndex + 1 ∧ ch'.outLen = ch.outLen ∧ ch'.ebLen = ch.ebLen ∧ ch'.xqLen = ch.xqLen ∧ ch'.bw = ch.bw ∧
    ∀ n bits buf', buf'.length = buf.length →
      encodeChannel cfg { ch with frameIndex := n, bits := bits } x buf' = .ok ({ ch' with frameIndex := n + 1 }, out) := by
  unfold encodeChannel at h
  obtain ⟨a, h1, h⟩ := bind_ok_inv h
  obtain ⟨s, h2, h⟩ := bind_ok_inv h
  simp only [Res.ok.injEq, Prod.mk.injEq] at h
  obtain ⟨rfl, rfl⟩ := h
  refine ⟨rfl, rfl, rfl, rfl, rfl, fun n bits buf' hb => ?_⟩
  unfold encodeChannel
  have e1 : encAnalyse cfg { ch with frameIndex := n, bits := bits } x buf'.length = .ok a := by rw [hb]; exact h1
  have e2 : encodeFrame cfg.ne a.p bits buf' = .ok s := by
    rw [← h2]
    unfold encodeFrame
    rw [encodeBody_stale cfg.ne a.p bits ch.bits hb]
  rw [e1, Res.bind_ok]
  simp only
  rw [e2, Res.bind_ok]

/-- **C106, decoder.** A call of the decoder with 16 bits per sample that returns counts one frame, and neither the frame counter nor the
time signal kept of the frame before has any influence on the samples or on the rest of the new state; with any other number of bits
per sample nothing changes. -/
theorem C106_decoder {checks : Bool} {cfg : Lc3Config} {ch ch' : DecChannel α} {bits : Nat} {buf : List Nat} {out out' : List Int} {r : DecResult}
    (h : decodeChannel checks cfg ch bits buf out = .ok (r, ch', out')) :
    (bits ≠ 16 → r = .only16BitsPerAudioSampleSupported ∧ ch' = ch ∧ out' = out) ∧
    (bits = 16 → r = .ok ∧ ch'.frameIndex = ch.frameIndex + 1 ∧
      ∀ n fs, fs.length = ch.freqSamples.length →
        decodeChannel checks cfg { ch with frameIndex := n, freqSamples := fs } bits buf out = .ok (.ok, { ch' with frameIndex := n + 1 }, out')) := by
  refine ⟨fun hb => ?_, fun hb => ?_⟩
  · unfold decodeChannel at h
    rw [if_pos hb] at h
    simp only [Res.ok.injEq, Prod.mk.injEq] at h
    exact ⟨h.1.symm, h.2.1.symm, h.2.2.symm⟩
  · unfold decodeChannel at h ⊢
    rw [if_neg (by simpa using hb)] at h
    obtain ⟨⟨lines, plc, info⟩, h1, h⟩ := bind_ok_inv h
    simp only at h
    split at h
    · cases h
    rename_i hl
    obtain ⟨⟨ola, fr⟩, h2, h⟩ := bind_ok_inv h
    obtain ⟨⟨lt, fr'⟩, h3, h⟩ := bind_ok_inv h
    simp only [Res.ok.injEq, Prod.mk.injEq] at h
    obtain ⟨rfl, rfl, rfl⟩ := h
    refine ⟨rfl, rfl, fun n fs hfs => ?_⟩
    rw [if_neg (by simpa using hb)]
    have e1 : decodeSpectrum checks cfg { ch with frameIndex := n, freqSamples := fs } buf = .ok (lines, plc, info) := h1
    rw [e1, Res.bind_ok]
    simp only
    rw [if_neg (by rw [hfs]; exact hl), h2, Res.bind_ok]
    simp only
    rw [h3, Res.bind_ok]

/-- the frames of a channel of the encoder, one after the other -/
def encodeAll (cfg : Lc3Config) : EncChannel α → List (List Int × List Nat) → Res (EncChannel α × List (List Nat))
  | ch, [] => .ok (ch, [])
  | ch, (x, buf) :: fs => do
    let (ch, b) ← encodeChannel cfg ch x buf
    let (ch, bs) ← encodeAll cfg ch fs
    .ok (ch, b :: bs)

/-- **C106, run.** The counter of a channel is the number of frames, and the output buffers may be dirty: a whole run gives the same
frames whatever they held before. -/
theorem C106_run {cfg : Lc3Config} : ∀ {fs fs' : List (List Int × List Nat)} {ch ch' : EncChannel α} {out : List (List Nat)},
    encodeAll cfg ch fs = .ok (ch', out) → List.Forall₂ (fun a b => a.1 = b.1 ∧ a.2.length = b.2.length) fs fs' →
    ch'.frameIndex = ch.frameIndex + fs.length ∧ out.length = fs.length ∧ encodeAll cfg ch fs' = .ok (ch', out)
  | [], _, ch, ch', out, h, hf => by
    cases hf
    cases h
    exact ⟨rfl, rfl, rfl⟩
  | (x, buf) :: fs, _, ch, ch', out, h, hf => by
    obtain ⟨⟨x', buf'⟩, fs', ⟨hx, hb⟩, hf', rfl⟩ := List.forall₂_cons_left_iff.1 hf
    simp only at hx hb
    subst hx
    rw [encodeAll] at h
    obtain ⟨⟨c1, b⟩, h1, h⟩ := bind_ok_inv h
    obtain ⟨⟨c2, bs⟩, h2, h⟩ := bind_ok_inv h
    cases h
    obtain ⟨e1, -, -, -, -, e2⟩ := C106_encoder h1
    obtain ⟨g1, g2, g3⟩ := C106_run h2 hf'
    refine ⟨by rw [g1, e1, List.length_cons]; omega, by simp [g2], ?_⟩
    have := e2 ch.frameIndex ch.bits buf' hb.symm
    rw [encodeAll, show encodeChannel cfg ch x buf' = .ok (c1, b) by rw [← e1] at this; exact this, Res.bind_ok]
    simp only
    rw [g3, Res.bind_ok]

theorem encChannelsNew_counter (cfg : Lc3Config) : ∀ (n : Nat) {ib r1 : List Int} {sb r2 : List α} {cb r3 : List (Cx α)} {chs : List (EncChannel α)},
    encChannelsNew cfg n ib sb cb = .ok (chs, r1, r2, r3) → chs.length = n ∧ ∀ ch ∈ chs, ch.frameIndex = 0
  | 0, ib, r1, sb, r2, cb, r3, chs, h => by
    cases h
    exact ⟨rfl, by simp⟩
  | n + 1, ib, r1, sb, r2, cb, r3, chs, h => by
    rw [encChannelsNew] at h
    obtain ⟨⟨ch, i1, s1, c1⟩, h1, h⟩ := bind_ok_inv h
    obtain ⟨⟨chs', i2, s2, c2⟩, h2, h⟩ := bind_ok_inv h
    cases h
    obtain ⟨e1, e2⟩ := encChannelsNew_counter cfg n h2
    have h0 : ch.frameIndex = 0 := by
      unfold encChannelNew at h1
      obtain ⟨⟨_, _, _⟩, -, h1⟩ := bind_ok_inv h1
      obtain ⟨_, -, h1⟩ := bind_ok_inv h1
      obtain ⟨⟨_, _, _⟩, -, h1⟩ := bind_ok_inv h1
      obtain ⟨⟨_, _⟩, -, h1⟩ := bind_ok_inv h1
      obtain ⟨⟨_, _⟩, -, h1⟩ := bind_ok_inv h1
      obtain ⟨⟨_, _⟩, -, h1⟩ := bind_ok_inv h1
      cases h1
      rfl
    refine ⟨by simp [e1], fun c hc => ?_⟩
    rcases List.mem_cons.1 hc with rfl | hc
    · exact h0
    · exact e2 c hc

theorem decChannelsNew_counter (cfg : Lc3Config) : ∀ (n : Nat) {sb r2 : List α} {cb r3 : List (Cx α)} {chs : List (DecChannel α)},
    decChannelsNew cfg n sb cb = .ok (chs, r2, r3) → chs.length = n ∧ ∀ ch ∈ chs, ch.frameIndex = 0
  | 0, sb, r2, cb, r3, chs, h => by
    cases h
    exact ⟨rfl, by simp⟩
  | n + 1, sb, r2, cb, r3, chs, h => by
    rw [decChannelsNew] at h
    obtain ⟨⟨ch, s1, c1⟩, h1, h⟩ := bind_ok_inv h
    obtain ⟨⟨chs', s2, c2⟩, h2, h⟩ := bind_ok_inv h
    cases h
    obtain ⟨e1, e2⟩ := decChannelsNew_counter cfg n h2
    have h0 : ch.frameIndex = 0 := by
      unfold decChannelNew at h1
      obtain ⟨⟨_, _⟩, -, h1⟩ := bind_ok_inv h1
      obtain ⟨⟨_, _⟩, -, h1⟩ := bind_ok_inv h1
      obtain ⟨⟨_, _, _⟩, -, h1⟩ := bind_ok_inv h1
      obtain ⟨⟨_, _⟩, -, h1⟩ := bind_ok_inv h1
      obtain ⟨⟨_, _⟩, -, h1⟩ := bind_ok_inv h1
      cases h1
      rfl
    refine ⟨by simp [e1], fun c hc => ?_⟩
    rcases List.mem_cons.1 hc with rfl | hc
    · exact h0
    · exact e2 c hc

/-- **C106, start.** The constructors start every channel's counter at 0 and make as many channels as asked for. -/
theorem C106_new {n : Nat} {d : FrameDuration} {f : SamplingFrequency} :
    (∀ {ib r1 : List Int} {sb r2 : List α} {cb r3 : List (Cx α)} {E : Encoder α}, Encoder.new n d f ib sb cb = .ok (E, r1, r2, r3) →
      E.channels.length = n ∧ ∀ ch ∈ E.channels, ch.frameIndex = 0) ∧
    (∀ {sb r2 : List α} {cb r3 : List (Cx α)} {D : Decoder α}, Decoder.new n d f sb cb = .ok (D, r2, r3) →
      D.channels.length = n ∧ ∀ ch ∈ D.channels, ch.frameIndex = 0) := by
  refine ⟨?_, ?_⟩
  · intro ib r1 sb r2 cb r3 E h
    unfold Encoder.new at h
    obtain ⟨⟨chs, _, _, _⟩, h1, h⟩ := bind_ok_inv h
    cases h
    exact encChannelsNew_counter _ _ h1
  · intro sb r2 cb r3 D h
    unfold Decoder.new at h
    obtain ⟨⟨chs, _, _⟩, h1, h⟩ := bind_ok_inv h
    cases h
    exact decChannelsNew_counter _ _ h1

namespace F32

/-- C106 applies to two frames of silence at 48 kHz, 100 and 40 bytes: both calls of the encoder return -/
example : ∃ (el : Elem) (ch ch' : EncChannel F32) (out : List (List Nat)),
    @encodeAll F32 (scalar el) (Lc3Config.new .hz48000 .tenMs) ch
      [(List.replicate 480 0, List.replicate 100 0), (List.replicate 480 0, List.replicate 40 0)] = .ok (ch', out) ∧ ch'.frameIndex = ch.frameIndex + 2 := by
  obtain ⟨el, he, hlg⟩ := exists_logFunctions
  letI := scalar el
  obtain ⟨ch, hi, h0⟩ := newChannel32_48 el .tenMs
  have step : ∀ {ch : EncChannel F32} (n : ℕ), ch.Inv (Lc3Config.new .hz48000 .tenMs) → AllZero ch.freq → 20 ≤ n → n < 4096 →
      ∃ ch' b, @encodeChannel F32 (scalar el) (Lc3Config.new .hz48000 .tenMs) ch (List.replicate 480 0) (List.replicate n 0) = .ok (ch', b) ∧
        ch'.Inv (Lc3Config.new .hz48000 .tenMs) ∧ AllZero ch'.freq := by
    intro ch n hi h0 h20 hn
    obtain ⟨a, s, t, hcf, z1, -⟩ := silence_coded32 he hlg false hi h0 (x := List.replicate 480 0) List.length_replicate (AllZero.replicate _)
      (buf := List.replicate n 0) (by simpa using h20) (by simpa using hn)
    obtain ⟨q, h1, h2, -⟩ := C96_params el hcf.inv hcf.len hcf.analysed hcf.gain hcf.inside
    obtain ⟨ch', bytes, bits, e1, e2, -⟩ := hcf.readAll h1 h2
    refine ⟨ch', bytes, e1, e2, ?_⟩
    unfold encodeChannel at e1
    rw [hcf.analysed, Res.bind_ok] at e1
    obtain ⟨_, -, e1⟩ := bind_ok_inv e1
    simp only [Res.ok.injEq, Prod.mk.injEq] at e1
    obtain ⟨rfl, -⟩ := e1
    exact z1
  obtain ⟨c1, b1, e1, i1, z1⟩ := step 100 hi h0 (by norm_num) (by norm_num)
  obtain ⟨c2, b2, e2, -, -⟩ := step 40 i1 z1 (by norm_num) (by norm_num)
  have hall : encodeAll (Lc3Config.new .hz48000 .tenMs) ch
      [(List.replicate 480 0, List.replicate 100 0), (List.replicate 480 0, List.replicate 40 0)] = .ok (c2, [b1, b2]) := by
    rw [encodeAll, e1, Res.bind_ok]
    simp only
    rw [encodeAll, e2, Res.bind_ok]
    rfl
  exact ⟨el, ch, c2, _, hall, (C106_run hall (List.forall₂_same.2 fun _ _ => ⟨rfl, rfl⟩)).1⟩

end F32
end Lc3
