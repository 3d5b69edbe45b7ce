import Verif.Props.PostFilter32
import Verif.Props.EndToEnd32
/-!
# C111: a whole stream in binary32, post filter included

A channel of the encoder and a channel of the decoder, both new, carry any number of frames. The samples written are what the exact post
filter makes of the delayed input.
-/

namespace Lc3
open Scalar Spec

section
variable {α : Type} [Scalar α]

/-- what the encoder says about the pitch of a frame -/
def sideOf (p : FrameParams) : LtpfInfo := if p.pitchPresent then ⟨true, p.ltpfActive, p.pitchIndex⟩ else ⟨false, false, 0⟩

/-- a channel encodes a list of frames (encoder/lc3_encoder.rs 63-112), each with the buffer it is written to: the final state, the side
information for the post filter, and the bytes -/
def encodeStream (cfg : Lc3Config) : List (List Int × List Nat) → EncChannel α → Res (EncChannel α × List LtpfInfo × List (List Nat))
  | [], ch => .ok (ch, [], [])
  | (x, buf) :: rest, ch => do
    let a ← encAnalyse cfg ch x buf.length
    let (ch, bytes) ← encodeChannel cfg ch x buf
    let (ch, infos, frames) ← encodeStream cfg rest ch
    .ok (ch, sideOf a.p :: infos, bytes :: frames)

end

/-- the input, delayed by `nf - 2 z` samples and cut into frames with the side information: what the exact post filter is given. `prev` is
the frame before. -/
noncomputable def delayedFrames (cfg : Lc3Config) : List Int → List (List Int × List Nat) → List LtpfInfo → List (LtpfFrame ℝ)
  | prev, (x, buf) :: rest, i :: infos =>
    ⟨i, buf.length * 8, (List.range cfg.nf).map fun j => ((prev ++ x).getD (j + 2 * cfg.z) 0 : ℝ)⟩ :: delayedFrames cfg x rest infos
  | _, _, _ => []

namespace F32
variable {el : Elem}

/-- every frame of the stream is coded (`CodedFrame32`), its samples are at most `A`, and the spectrum the decoder makes of it is within
`D` of the spectrum of the encoder's transform -/
def StreamOk (checks : Bool) (el : Elem) (f : SamplingFrequency) (d : FrameDuration) (A : ℕ) (D : ℝ) :
    List (List Int × List Nat) → EncChannel F32 → DecChannel F32 → Prop
  | [], _, _ => True
  | (x, buf) :: rest, ch, dch => (∀ v ∈ x, |v| ≤ A) ∧ (∃ a s t, CodedFrame32 checks el f d ch x buf a s t) ∧
    ∀ ch' bytes dch' r o L eb nn, @encodeChannel F32 (scalar el) (Lc3Config.new f d) ch x buf = .ok (ch', bytes) →
      @mdctEncRun F32 (scalar el) (Lc3Config.new f d) ch.freq x = .ok (ch'.freq, L, eb, nn) →
      @decodeChannel F32 (scalar el) checks (Lc3Config.new f d) dch 16 bytes (List.replicate (Lc3Config.new f d).nf 0) = .ok (r, dch', o) →
      lineDist (Lc3Config.new f d).nf (dch'.specLines.map val) (L.map val) ≤ D ∧ StreamOk checks el f d A D rest ch' dch'

/-- one frame through the encoder and the decoder, with the side information for the post filter -/
theorem frame_parts32 {checks : Bool} {f : SamplingFrequency} {d : FrameDuration} {ch : EncChannel F32} {x : List Int}
    {buf : List Nat} {a : EncAnalysis F32} {s : EncSt} {t : Nat} (h : CodedFrame32 checks el f d ch x buf a s t)
    {dch : DecChannel F32} (hd : ChInv f d dch) (out : List Int) :
    ∃ ch' bytes dch' plc o fr L eb nn, @encodeChannel F32 (scalar el) (Lc3Config.new f d) ch x buf = .ok (ch', bytes) ∧ ch'.Inv (Lc3Config.new f d) ∧
      bytes.length = buf.length ∧ @mdctEncRun F32 (scalar el) (Lc3Config.new f d) ch.freq x = .ok (ch'.freq, L, eb, nn) ∧
      @decodeSpectrum F32 (scalar el) checks (Lc3Config.new f d) dch bytes = .ok (dch'.specLines, plc, sideOf a.p) ∧
      @mdctDecRun F32 (scalar el) (Lc3Config.new f d) dch.memOla dch'.specLines = .ok (dch'.memOla, fr) ∧
      @decodeChannel F32 (scalar el) checks (Lc3Config.new f d) dch 16 bytes out = .ok (.ok, dch', o) ∧ ChInv f d dch' := by
  letI := scalar el
  obtain ⟨q, ch', bytes, bits, e1, e2, e3, e4, -, -⟩ := C96 h
  have hfreq : ch'.freq = a.freq := by
    have e := e1
    unfold encodeChannel at e
    rw [h.analysed, Res.bind_ok] at e
    obtain ⟨_, -, e⟩ := bind_ok_inv e
    simp only [Res.ok.injEq, Prod.mk.injEq] at e
    obtain ⟨rfl, -⟩ := e
    rfl
  obtain ⟨freq, L, eb, nn, bwInd, nbitsBw, attack, det, sns, tns, ltpf, pf, quant, spec, res, nf, l0, -, -, -, -, -, -,
    -, -, -, ha0⟩ := encAnalyse_inv h.analysed
  have hfr0 : a.freq = freq := by rw [ha0]
  rw [← hfr0, ← hfreq] at l0
  have hread : readFrame checks (Lc3Config.new f d) bytes = readFrame false (Lc3Config.new f d) bytes := by
    cases checks with
    | false => rfl
    | true =>
      rcases readFrame_checks (Lc3Config.new f d) bytes with hc | hc
      · rw [hc] at e4; cases e4
      · exact hc
  have heq : decodeChannel checks (Lc3Config.new f d) dch 16 bytes out = decodeChannel false (Lc3Config.new f d) dch 16 bytes out := by
    unfold decodeChannel decodeSpectrum
    rw [hread]
  have hsafe := safe_decodeChannel hd (bits := 16) (out := out) (readFrame_long e4)
  have hno := noErr_decodeChannel false (Lc3Config.new f d) dch 16 bytes out
  have hdec : ∃ r, decodeChannel checks (Lc3Config.new f d) dch 16 bytes out = .ok r := by
    rw [heq]
    cases e : decodeChannel false (Lc3Config.new f d) dch 16 bytes out with
    | ok r => exact ⟨r, rfl⟩
    | err => exact absurd e hno
    | panic => rw [e] at hsafe; exact hsafe.elim
  obtain ⟨⟨r, dch', o⟩, hdec⟩ := hdec
  have hinv := (decodeChannel_inv hd hdec).1
  have e := hdec
  unfold decodeChannel at e
  rw [if_neg (by simp)] at e
  obtain ⟨⟨lines, plc, info⟩, g1, e⟩ := bind_ok_inv e
  simp only at e
  rw [if_neg (by simp [hd.freq])] at e
  obtain ⟨⟨ola, fr⟩, g2, e⟩ := bind_ok_inv e
  obtain ⟨⟨lt, fr'⟩, g3, e⟩ := bind_ok_inv e
  simp only [Res.ok.injEq, Prod.mk.injEq] at e
  obtain ⟨rfl, rfl, rfl⟩ := e
  have hinfo : info = sideOf a.p := by
    unfold decodeSpectrum at g1
    rw [e4] at g1
    obtain ⟨l, -, g1⟩ := bind_ok_inv g1
    obtain ⟨pl, -, g1⟩ := bind_ok_inv g1
    simp only [Res.ok.injEq, Prod.mk.injEq] at g1
    exact g1.2.2.symm
  rw [hinfo] at g1
  exact ⟨ch', bytes, _, plc, _, fr, L, eb, nn, e1, e2, e3, l0, g1, g2, hdec, hinv⟩

/-- what links the two channels between frames: the decoder's overlap memory is close to the windowed aliased tail of the encoder's time
buffer, which holds the frame before -/
structure Linked (f : SamplingFrequency) (d : FrameDuration) (wn : List Rat) (A : ℕ) (E : ℝ) (prev : List Int) (ch : EncChannel F32)
    (dch : DecChannel F32) : Prop where
  inv : ch.Inv (Lc3Config.new f d)
  dec : ChFin f d dch
  size : ∀ v ∈ ch.freq, |v| ≤ A
  len : prev.length = (Lc3Config.new f d).nf
  buffer : ∀ p, p < (Lc3Config.new f d).nf → ch.freq.getD ((Lc3Config.new f d).nf - (Lc3Config.new f d).z + p) 0 = prev.getD p 0
  ola : ∀ j, j < (Lc3Config.new f d).nf - (Lc3Config.new f d).z → IsFin (dch.memOla.getD j (fin 0)) ∧
    |val (dch.memOla.getD j (fin 0)) - aliasAt (Lc3Config.new f d).nf ch.freq wn ((Lc3Config.new f d).nf + (Lc3Config.new f d).z + j)| ≤ E

theorem stream_near {checks : Bool} (he : Tame el) {f : SamplingFrequency} {d : FrameDuration} {wn : List Rat}
    (H : MdctOk (Lc3Config.new f d) ((Lc3Config.new f d).nf / 2) wn)
    (hwt : ∀ i, i < (Lc3Config.new f d).nf → |Overlap.weight wn (Lc3Config.new f d).nf i - 1| ≤ 1 / 10 ^ 13)
    {A : ℕ} (hA1 : 1 ≤ A) (hA : A ≤ 2 ^ 15) {D Q : ℝ} (hD0 : 0 ≤ D) (hD : D ≤ 2 ^ 37) (hQ : Q = A * Real.sqrt (Lc3Config.new f d).nf) :
    ∀ (xs : List (List Int × List Nat)) {prev : List Int} {ch : EncChannel F32} {dch : DecChannel F32},
    Linked f d wn A (10641 / 10000 * D + 52 / 10 ^ 6 * Q) prev ch dch → StreamOk checks el f d A D xs ch dch →
    ∃ ch' infos bytes dch' frames outs, @encodeStream F32 (scalar el) (Lc3Config.new f d) xs ch = .ok (ch', infos, bytes) ∧
      @decodeStream F32 (scalar el) checks (Lc3Config.new f d) bytes dch = .ok (dch', frames, outs) ∧
      infos.length = xs.length ∧ (∀ b ∈ bytes, b.length < 4096) ∧ outs.length = xs.length * (Lc3Config.new f d).nf ∧
      List.Forall₂ (FrameNear (213 / 100 * D + A / 8192 * Real.sqrt (Lc3Config.new f d).nf)) frames (delayedFrames (Lc3Config.new f d) prev xs infos) ∧
      ∀ p ∈ xs, p.1.length = (Lc3Config.new f d).nf ∧ ∀ v ∈ p.1, |v| ≤ A
  | [], prev, ch, dch, _, _ => ⟨ch, [], [], dch, [], [], rfl, rfl, rfl, by simp, by simp, List.Forall₂.nil, by simp⟩
  | (x, buf) :: rest, prev, ch, dch, hk, hs => by
    letI := scalar el
    obtain ⟨hxb, ⟨a, s, t, hc⟩, hs⟩ := hs
    obtain ⟨ch1, by1, dch1, plc, o, fr, L, eb, nn, e1, e2, e3, e4, e5, e6, e7, e8⟩ :=
      frame_parts32 hc hk.dec.inv (List.replicate (Lc3Config.new f d).nf 0)
    obtain ⟨hdist, hs⟩ := hs _ _ _ _ _ _ _ _ e1 e4 e7
    have hl : ch.freq.length = 2 * (Lc3Config.new f d).nf := by rw [hk.inv.freq, Nat.mul_comm]
    have hbl : by1.length < 2 ^ 28 := by rw [e3]; have := hc.len; omega
    have hfin1 := bd_decodeChannel he hk.dec hbl e7
    simp only at hfin1
    obtain ⟨lx, u, fb, T, t1, t2, t3, t4, t5⟩ := doubleFrame_near he.toAccurate H hA1 hA hl hk.size hxb e4 hfin1.inv.spec
      (fun v hv => (hfin1.spec v hv).1) rfl hQ (hdist.trans (hD.trans (by norm_num)))
    obtain ⟨-, hl1, -, hnew⟩ := mdctUpdate_ok H.z hl u
    have hrun := t1 dch.memOla hk.dec.inv.ola
    rw [e6] at hrun
    simp only [Res.ok.injEq, Prod.mk.injEq] at hrun
    obtain ⟨hm, hfr⟩ := hrun
    have hz := H.z
    have hnf0 : 1 ≤ (Lc3Config.new f d).nf := by cases f <;> cases d <;> decide
    have hnf1 : (Lc3Config.new f d).nf ≤ 2 ^ 10 := by cases f <;> cases d <;> decide
    obtain ⟨R, hR⟩ : ∃ R, R = Real.sqrt ((Lc3Config.new f d).nf : ℝ) := ⟨_, rfl⟩
    have hR1 : 1 ≤ R := by rw [hR, Real.one_le_sqrt]; exact_mod_cast hnf0
    have hR2 : R ≤ 2 ^ 5 := by
      rw [hR, Real.sqrt_le_iff]
      refine ⟨by norm_num, ?_⟩
      have : ((Lc3Config.new f d).nf : ℝ) ≤ ((2 ^ 10 : ℕ) : ℝ) := by exact_mod_cast hnf1
      refine this.trans ?_
      norm_num
    have hA' : (1 : ℝ) ≤ A := by exact_mod_cast hA1
    have hA2 : (A : ℝ) ≤ 2 ^ 15 := by exact_mod_cast hA
    have hAQ : (A : ℝ) ≤ Q := by rw [hQ, ← hR]; nlinarith
    have hQ2 : Q ≤ 2 ^ 20 := by
      rw [hQ, ← hR]
      calc (A : ℝ) * R ≤ 2 ^ 15 * 2 ^ 5 := by gcongr
        _ = 2 ^ 20 := by norm_num
    have hQ8 : (A : ℝ) / 8192 * R = 1 / 8192 * Q := by rw [hQ, ← hR]; ring
    have hE : 10641 / 10000 * D + 52 / 10 ^ 6 * Q ≤ 2 ^ 40 := by norm_num at hD hQ2 ⊢; linarith
    have hT : ∀ p, p < 2 * (Lc3Config.new f d).nf → |val (T p) - aliasAt (Lc3Config.new f d).nf ch1.freq wn p|
        ≤ 10641 / 10000 * D + 52 / 10 ^ 6 * Q := by
      intro p hp
      refine (t4 p hp).trans ?_
      have := mul_le_mul_of_nonneg_left hdist (show (0 : ℝ) ≤ 10641 / 10000 by norm_num)
      linarith
    have hlink : Linked f d wn A (10641 / 10000 * D + 52 / 10 ^ 6 * Q) x ch1 dch1 := by
      refine ⟨e2, hfin1, fb, lx, hnew, fun j hj => ?_⟩
      rw [hm, getD_of_lt (by simpa using hj), List.getElem_map, List.getElem_range]
      exact ⟨t2 _ (by omega), hT _ (by omega)⟩
    obtain ⟨ch2, infos, bytes, dch2, frames, outs, g1, g2, g3, g3', g4, g5, g6⟩ := stream_near he H hwt hA1 hA hD0 hD hQ rest hlink hs
    have hlo : o.length = (Lc3Config.new f d).nf := by
      have := (decodeChannel_inv hk.dec.inv e7).2
      simpa using this
    refine ⟨ch2, sideOf a.p :: infos, by1 :: bytes, dch2, ⟨sideOf a.p, by1.length * 8, fr⟩ :: frames, o ++ outs, ?_, ?_, by simp [g3], ?_, ?_, ?_, ?_⟩
    · rw [encodeStream, hc.analysed, Res.bind_ok, e1, Res.bind_ok]
      simp only
      rw [g1, Res.bind_ok]
    · rw [decodeStream, e5, Res.bind_ok]
      simp only
      rw [e6, Res.bind_ok]
      simp only
      rw [e7, Res.bind_ok]
      simp only
      rw [g2, Res.bind_ok]
    · intro b hb
      rcases List.mem_cons.1 hb with rfl | hb
      · rw [e3]; exact hc.len
      · exact g3' b hb
    · rw [List.length_append, hlo, g4, List.length_cons]; ring
    · rw [delayedFrames]
      refine List.Forall₂.cons ⟨rfl, by rw [e3], by rw [hfr]; simp, fun j hj => ?_⟩ g5
      simp only at hj ⊢
      have hj : j < (Lc3Config.new f d).nf := by rw [hfr] at hj; simpa using hj
      rw [hfr, getD_of_lt (by simpa using hj), getD_of_lt (by simpa using hj), List.getElem_map, List.getElem_range, List.getElem_map, List.getElem_range]
      refine (sample_near H hwt hA1 hA hl hk.len hk.buffer u fb (m := dch.memOla.getD j (fin 0)) (t := T ((Lc3Config.new f d).z + j)) hj
        (E1 := 10641 / 10000 * D + 52 / 10 ^ 6 * Q) (E0 := 10641 / 10000 * D + 52 / 10 ^ 6 * Q) (t2 _ (by omega)) (hT _ (by omega)) hE
        (fun hj' => ⟨(hk.ola j hj').1, (hk.ola j hj').2, hE⟩)).2.trans ?_
      rw [← hR, hQ8]
      have hQ0 : 0 ≤ Q := by linarith
      split <;> norm_num <;> linarith
    · intro p hp
      rcases List.mem_cons.1 hp with rfl | hp
      · exact ⟨lx, hxb⟩
      · exact g6 p hp

theorem delayedFrames_size {cfg : Lc3Config} {A : ℕ} : ∀ (xs : List (List Int × List Nat)) (prev : List Int) (infos : List LtpfInfo),
    (∀ v ∈ prev, |v| ≤ A) → (∀ p ∈ xs, ∀ v ∈ p.1, |v| ≤ A) → ∀ fr ∈ delayedFrames cfg prev xs infos, ∀ v ∈ fr.samples, |v| ≤ A
  | [], prev, infos, _, _ => by simp [delayedFrames]
  | (x, buf) :: rest, prev, [], _, _ => by simp [delayedFrames]
  | (x, buf) :: rest, prev, i :: infos, h1, h2 => by
    intro fr hfr
    rw [delayedFrames] at hfr
    have hx : ∀ v ∈ x, |v| ≤ A := h2 (x, buf) (by simp)
    rcases List.mem_cons.1 hfr with rfl | hfr
    · intro v hv
      obtain ⟨j, -, rfl⟩ := List.mem_map.1 hv
      have : |(prev ++ x).getD (j + 2 * cfg.z) 0| ≤ A := by
        rw [List.getD_eq_getElem?_getD]
        cases hg : (prev ++ x)[j + 2 * cfg.z]? with
        | none => simp
        | some w =>
          rcases List.mem_append.1 (List.mem_of_getElem? hg) with hw | hw
          · exact h1 w hw
          · exact hx w hw
      exact_mod_cast this
    · exact delayedFrames_size rest x infos hx (fun p hp => h2 p (by simp [hp])) fr hfr

theorem aliasAt_zero {n : ℕ} {freq : List Int} (h : AllZero freq) (wn : List Rat) (p : ℕ) : aliasAt n freq wn p = 0 := by
  have : ∀ q, wsample freq wn q = 0 := by
    intro q
    unfold wsample
    have : freq.getD q 0 = 0 := by
      rw [List.getD_eq_getElem?_getD]
      cases hg : freq[q]? with
      | none => rfl
      | some w => exact h w (List.mem_of_getElem? hg)
    rw [this]
    simp
  unfold aliasAt
  simp [this]

theorem zn_fin {v : F32} (h : Zn v) (hf : IsFin v) : v = fin 0 := by
  rcases h with h | h
  · exact h
  · obtain ⟨q, hq⟩ := hf
    rw [h] at hq
    cases hq

end F32

open F32

/-- **C111.** Binary32, every configuration with an encoder, any number of frames: a new channel of the encoder (zeroed time buffer) and a new
channel of the decoder (zeroed buffers) carry a stream whose frames are all coded (`CodedFrame32`), with samples up to `A` and decoded spectra
within `D` of the analysed ones. Both return. The decoder reads the side information of the encoder, what its transform hands to the post filter
is the input `nf - 2 z` samples earlier up to `ε = 2.13 D + A sqrt nf / 8192`, and the samples it writes are what the exact post filter makes of
the delayed input, clipped to 16 bits and rounded, up to `6 ε + A / 8192`, however long the stream and whatever pitches it carries. -/
theorem C111 {checks : Bool} {el : Elem} (he : Tame el) {f : SamplingFrequency} {d : FrameDuration} {ch : EncChannel F32}
    (hi : ch.Inv (Lc3Config.new f d)) (h0 : AllZero ch.freq) {dch : DecChannel F32} {sb sb' : List F32} {cb cb' : List (Cx F32)}
    (hnew : @decChannelNew F32 (scalar el) (Lc3Config.new f d) sb cb = .ok (dch, sb', cb')) (hsb : ∀ v ∈ sb, v = fin 0)
    {A : ℕ} (hA1 : 1 ≤ A) (hA : A ≤ 2 ^ 15) {D : ℝ} (hD0 : 0 ≤ D) (hD : D ≤ 2 ^ 37) {xs : List (List Int × List Nat)}
    (hs : StreamOk checks el f d A D xs ch dch) {ε : ℝ} (hε : ε = 213 / 100 * D + A / 8192 * Real.sqrt (Lc3Config.new f d).nf) :
    ∃ ch' infos bytes dch' frames outs, @encodeStream F32 (scalar el) (Lc3Config.new f d) xs ch = .ok (ch', infos, bytes) ∧
      @decodeStream F32 (scalar el) checks (Lc3Config.new f d) bytes dch = .ok (dch', frames, outs) ∧
      infos.length = xs.length ∧ outs.length = xs.length * (Lc3Config.new f d).nf ∧
      List.Forall₂ (FrameNear ε) frames (delayedFrames (Lc3Config.new f d) (List.replicate (Lc3Config.new f d).nf 0) xs infos) ∧
      ∃ (zeros rest : List ℝ) (s s' : Ltpf ℝ) (o : List ℝ), AllZero zeros ∧ Ltpf.new (Lc3Config.new f d) zeros = .ok (s, rest) ∧
        ltpfRunAll (Lc3Config.new f d) (delayedFrames (Lc3Config.new f d) (List.replicate (Lc3Config.new f d).nf 0) xs infos) s = .ok (s', o) ∧
        List.Forall₂ (fun (r : ℤ) (w : ℝ) => |(r : ℝ) - clip16 w| ≤ 1 / 2 + 6 * ε + A / 8192) outs o := by
  letI := scalar el
  obtain ⟨wn, H, hwt⟩ := mdctOk_config f d
  have hbd : AllBd (2 ^ 80) sb := by
    intro v hv
    rw [hsb v hv]
    exact ⟨⟨0, rfl⟩, by show |((0 : ℚ) : ℝ)| ≤ _; simp⟩
  have hfin := (bd_decChannelNew hbd hnew).1
  have hsil := (decChannelNew_silent32 (fun v hv => Or.inl (hsb v hv)) hnew).1
  obtain ⟨sb0, sb1, k0, hmem⟩ := channelNew_ltpf hnew
  obtain ⟨s, rest, k1⟩ := ltpfNew_exact k0
  have hA' : (1 : ℝ) ≤ A := by exact_mod_cast hA1
  have hA2 : (A : ℝ) ≤ 2 ^ 15 := by exact_mod_cast hA
  have hsq : Real.sqrt (Lc3Config.new f d).nf ≤ 2 ^ 5 := by
    rw [Real.sqrt_le_iff]
    refine ⟨by norm_num, ?_⟩
    have hnf1 : (Lc3Config.new f d).nf ≤ 2 ^ 10 := by cases f <;> cases d <;> decide
    have : ((Lc3Config.new f d).nf : ℝ) ≤ ((2 ^ 10 : ℕ) : ℝ) := by exact_mod_cast hnf1
    refine this.trans ?_
    norm_num
  have hsq0 := Real.sqrt_nonneg ((Lc3Config.new f d).nf : ℝ)
  have hlink : Linked f d wn A (10641 / 10000 * D + 52 / 10 ^ 6 * (A * Real.sqrt (Lc3Config.new f d).nf))
      (List.replicate (Lc3Config.new f d).nf 0) ch dch := by
    refine ⟨hi, hfin, ?_, by simp, ?_, ?_⟩
    · intro v hv
      rw [h0 v hv]
      simp
    · intro p hp
      rw [getD_of_lt (l := List.replicate _ _) (by simpa using hp), List.getElem_replicate, List.getD_eq_getElem?_getD]
      cases hg : ch.freq[(Lc3Config.new f d).nf - (Lc3Config.new f d).z + p]? with
      | none => rfl
      | some w => exact h0 w (List.mem_of_getElem? hg)
    · intro j hj
      rw [aliasAt_zero h0, sub_zero]
      have hj' : j < dch.memOla.length := by rw [hfin.inv.ola]; exact hj
      have hv := List.getElem_mem hj'
      rw [getD_of_lt hj', zn_fin (hsil.ola _ hv) (hfin.ola _ hv).1]
      refine ⟨⟨0, rfl⟩, ?_⟩
      show |((0 : ℚ) : ℝ)| ≤ _
      rw [Rat.cast_zero, abs_zero]
      positivity
  obtain ⟨ch', infos, bytes, dch', frames, outs, g1, g2, g3, g3', g4, g5, g6⟩ := stream_near he H hwt hA1 hA hD0 hD rfl xs hlink hs
  rw [← hε] at g5
  have hε0 : 0 ≤ ε := by rw [hε]; positivity
  have hε1 : ε ≤ 2 ^ 40 := by
    have : (A : ℝ) / 8192 * Real.sqrt (Lc3Config.new f d).nf ≤ 2 ^ 15 / 8192 * 2 ^ 5 := by gcongr
    rw [hε]
    norm_num at this hD ⊢
    linarith
  have hz : ∀ v ∈ sb0.map val, v = 0 := by
    intro v hv
    obtain ⟨w, hw, rfl⟩ := List.mem_map.1 hv
    rw [hsb w (hmem w hw)]
    show ((0 : ℚ) : ℝ) = 0
    simp
  obtain ⟨s', o, r1, r2⟩ := C110_decoder he hfin k0 k1 (X := A + 1024 * ε) (ε := ε) (by linarith)
    (by
      have e1 : (2 : ℝ) ^ 15 ≤ 2 ^ 90 := by norm_num
      have e2 : (2 : ℝ) ^ 40 * 1024 + 2 ^ 90 ≤ 2 ^ 104 := by norm_num
      linarith) hε0 (by norm_num; linarith)
    ((follows_self fun v hv => by rw [hsb v (hmem v hv)]; exact ⟨0, rfl⟩).imp fun a b hab => ⟨hab.1, hab.2.trans hε0⟩)
    (fun v hv => by rw [hz v hv, abs_zero]; linarith) (fun b hb => by have := g3' b hb; omega) g2 g5
    (fun fr hfr v hv => by
      have := delayedFrames_size xs _ infos (A := A) (by intro v hv; rw [List.eq_of_mem_replicate hv]; simp) (fun p hp => (g6 p hp).2) fr hfr v hv
      linarith)
  refine ⟨ch', infos, bytes, dch', frames, outs, g1, g2, g3, g4, g5, sb0.map val, rest, s, s', o, hz, k1, r1, r2.imp fun a b hab => hab.trans ?_⟩
  norm_num
  linarith

namespace F32
variable {el : Elem}

/-- a silent frame is decoded to zero lines -/
theorem silent_lines {checks : Bool} {f : SamplingFrequency} {d : FrameDuration} {ch ch' : EncChannel F32} {x : List Int} {buf bytes : List Nat}
    {a : EncAnalysis F32} {s : EncSt} {t : Nat} (hcf : CodedFrame32 checks el f d ch x buf a s t) (hp : SilentParams (Lc3Config.new f d) a.p)
    {dch dch' : DecChannel F32} (hd : ChInv f d dch) {out o : List Int} {r : DecResult}
    (e : @encodeChannel F32 (scalar el) (Lc3Config.new f d) ch x buf = .ok (ch', bytes))
    (e' : @decodeChannel F32 (scalar el) checks (Lc3Config.new f d) dch 16 bytes out = .ok (r, dch', o)) : AllZn dch'.specLines := by
  letI := scalar el
  obtain ⟨q, ch1, by1, bits, e1, -, -, e4, -⟩ := C96 hcf
  rw [e] at e1
  simp only [Res.ok.injEq, Prod.mk.injEq] at e1
  obtain ⟨rfl, rfl⟩ := e1
  have hx2 : a.p.xq.take a.p.lastnz = [0, 0] := by
    have hne2 : 2 ≤ (Lc3Config.new f d).ne := by cases f <;> cases d <;> decide
    rw [hp.xq, hp.last]
    obtain ⟨n, hn⟩ : ∃ n, (Lc3Config.new f d).ne = n + 2 := ⟨(Lc3Config.new f d).ne - 2, by omega⟩
    rw [hn]
    rfl
  unfold decodeChannel at e'
  rw [if_neg (by simp)] at e'
  obtain ⟨⟨lines, plc, info⟩, g1, e'⟩ := bind_ok_inv e'
  simp only at e'
  rw [if_neg (by simp [hd.freq])] at e'
  obtain ⟨⟨ola, fr⟩, g2, e'⟩ := bind_ok_inv e'
  obtain ⟨⟨lt, fr'⟩, g3, e'⟩ := bind_ok_inv e'
  simp only [Res.ok.injEq, Prod.mk.injEq] at e'
  obtain ⟨rfl, rfl, rfl⟩ := e'
  unfold decodeSpectrum at g1
  rw [e4] at g1
  obtain ⟨l, g4, g1⟩ := bind_ok_inv g1
  obtain ⟨pl, -, g1⟩ := bind_ok_inv g1
  simp only [Res.ok.injEq, Prod.mk.injEq] at g1
  obtain ⟨rfl, rfl, rfl⟩ := g1
  refine specFromFrame_zn hd.spec ?_ ?_ ?_ g4
  · unfold expectedX
    rw [hx2]
    exact AllZero.append (AllZero.replicate 2) (AllZero.replicate _)
  · unfold expectedZero
    rw [hx2]
    simp [hp.last, hp.gain]
  · intro o ho
    unfold expectedOrders at ho
    rcases List.mem_append.1 ho with ho | ho
    · have := List.mem_of_mem_take ho
      rw [hp.orders] at this
      simpa using this
    · exact List.eq_of_mem_replicate ho

theorem lineDist_zero {n : ℕ} {a b : List F32} (ha : ∀ v ∈ a, v = fin 0) (hb : ∀ v ∈ b, v = fin 0) :
    lineDist n (a.map val) (b.map val) = 0 := by
  have key : ∀ {l : List F32}, (∀ v ∈ l, v = fin 0) → ∀ k, (l.map val).getD k 0 = 0 := by
    intro l hl k
    rw [List.getD_eq_getElem?_getD, List.getElem?_map]
    cases hg : l[k]? with
    | none => rfl
    | some w =>
      rw [hl w (List.mem_of_getElem? hg)]
      show ((0 : ℚ) : ℝ) = 0
      simp
  unfold lineDist lineEnergy
  simp only [key ha, key hb]
  simp

/-- a stream of silence -/
theorem silence_stream (he : EncFunctions el) (hlg : LogFunctions el) (checks : Bool) {f : SamplingFrequency} {d : FrameDuration} :
    ∀ (bufs : List (List Nat)) {ch : EncChannel F32} {dch : DecChannel F32}, ch.Inv (Lc3Config.new f d) → AllZero ch.freq → ChFin f d dch →
    (∀ b ∈ bufs, 20 ≤ b.length ∧ b.length < 4096) →
    StreamOk checks el f d 1 0 (bufs.map fun b => (List.replicate (Lc3Config.new f d).nf 0, b)) ch dch
  | [], _, _, _, _, _, _ => trivial
  | buf :: rest, ch, dch, hi, h0, hd, hb => by
    letI := scalar el
    obtain ⟨b1, b2⟩ := hb buf (by simp)
    obtain ⟨a, s, t, hcf, z1, z2, z3, hp⟩ := silence_coded32 he hlg checks hi h0 (x := List.replicate (Lc3Config.new f d).nf 0) (by simp)
      (AllZero.replicate _) b1 b2
    rw [List.map_cons]
    refine ⟨?_, ⟨a, s, t, hcf⟩, ?_⟩
    · intro v hv
      rw [List.eq_of_mem_replicate hv]
      simp
    · intro ch' bytes dch' r o L eb nn e1 e2 e3
      obtain ⟨z4, z5, -⟩ := mdctEncRun_silence32 he.toTame.toAccurate hi.freq h0 (AllZero.replicate _) e2
      obtain ⟨q, ch1, by1, bits, e4, e5, e6, -⟩ := C96 hcf
      rw [e1] at e4
      simp only [Res.ok.injEq, Prod.mk.injEq] at e4
      obtain ⟨rfl, rfl⟩ := e4
      have hfin := bd_decodeChannel he.toTame hd (by rw [e6]; omega) e3
      simp only at hfin
      refine ⟨le_of_eq (lineDist_zero (fun v hv => zn_fin (silent_lines hcf hp hd.inv e1 e3 v hv) (hfin.spec v hv).1) z5), ?_⟩
      exact silence_stream he hlg checks rest e5 z4 hfin (fun b hb' => hb b (by simp [hb']))

end F32

/-- C111 applies to a new encoder and a new decoder at 48 kHz and any number of frames of silence in 20 to 4095 bytes each. -/
example (checks : Bool) (bufs : List (List ℕ)) (hb : ∀ b ∈ bufs, 20 ≤ b.length ∧ b.length < 4096) :
    ∃ (el : Elem) (ch : EncChannel F32) (dch : DecChannel F32) (sb' : List F32) (cb' : List (Cx F32)), Tame el ∧
      ch.Inv (Lc3Config.new .hz48000 .tenMs) ∧ AllZero ch.freq ∧
      @decChannelNew F32 (scalar el) (Lc3Config.new .hz48000 .tenMs) (List.replicate (chanScalars (Lc3Config.new .hz48000 .tenMs)) (fin 0))
        (List.replicate (chanComplex (Lc3Config.new .hz48000 .tenMs)) ⟨fin 0, fin 0⟩) = .ok (dch, sb', cb') ∧
      StreamOk checks el .hz48000 .tenMs 1 0 (bufs.map fun b => (List.replicate (Lc3Config.new .hz48000 .tenMs).nf 0, b)) ch dch := by
  obtain ⟨el, he, hlg⟩ := exists_logFunctions
  letI := scalar el
  obtain ⟨ch, hi, h0⟩ := newChannel32_48 el .tenMs
  obtain ⟨dch, e, hd⟩ := decChannelNew_ok (α := F32) (f := .hz48000) (d := .tenMs)
    (sb := List.replicate (chanScalars (Lc3Config.new .hz48000 .tenMs)) (fin 0))
    (cb := List.replicate (chanComplex (Lc3Config.new .hz48000 .tenMs)) ⟨fin 0, fin 0⟩)
    (by rw [List.length_replicate]) (by rw [List.length_replicate])
  have hfin : ChFin .hz48000 .tenMs dch := by
    refine (bd_decChannelNew (fun v hv => ?_) e).1
    rw [List.eq_of_mem_replicate hv]
    exact ⟨⟨0, rfl⟩, by show |((0 : ℚ) : ℝ)| ≤ _; simp⟩
  exact ⟨el, ch, dch, _, _, he.toTame, hi, h0, e, silence_stream he hlg checks bufs hi h0 hfin hb⟩

end Lc3
