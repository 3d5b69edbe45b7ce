import Verif.Spec.Decoder
import Verif.Lemmas.ShortFrames
import Verif.Props.OverflowWitness
import Verif.Model.ScalarReal
/-!
# C06, C07, C10 (decoder), C11: the decoder as a whole
-/

namespace Lc3
open Spec Scalar

variable {α : Type} [Scalar α]

theorem shortLens_eq (f : SamplingFrequency) (d : FrameDuration) : shortLens f d = panicLengths f d := by
  cases f <;> cases d <;> rfl

/-- the invariant of reachable decoders -/
theorem reachable_inv {f : SamplingFrequency} {d : FrameDuration} {D : Decoder α} (h : Reachable f d D) :
    D.config = Lc3Config.new f d ∧ ∀ ch ∈ D.channels, ChInv f d ch := by
  induction h with
  | @new n sb cb D r1 r2 e =>
    unfold Decoder.new at e
    obtain ⟨⟨chs, s1, c1⟩, h1, e⟩ := bind_ok_inv e
    simp only [Res.ok.injEq, Prod.mk.injEq] at e
    obtain ⟨rfl, rfl, rfl⟩ := e
    obtain ⟨a1, a2, a3⟩ := decChannelsNew_uses h1
    obtain ⟨chs', e', -, hi⟩ := decChannelsNew_ok (f := f) (d := d) (n := n) (sb := sb) (cb := cb) (by omega) (by omega)
    rw [e'] at h1
    simp only [Res.ok.injEq, Prod.mk.injEq] at h1
    obtain ⟨rfl, -, -⟩ := h1
    exact ⟨rfl, hi⟩
  | @call D D' checks bits ch buf out out' r _ e ih =>
    obtain ⟨hc, hi⟩ := ih
    unfold decodeFrame at e
    cases hch : D.channels[ch]? with
    | none => rw [hch] at e; simp at e
    | some c =>
      rw [hch] at e
      simp only at e
      rw [hc] at e
      obtain ⟨⟨r', c', o'⟩, h1, e⟩ := bind_ok_inv e
      simp only [Res.ok.injEq, Prod.mk.injEq] at e
      obtain ⟨rfl, rfl, rfl⟩ := e
      have hm := hi c (List.mem_of_getElem? hch)
      obtain ⟨h2, -⟩ := decodeChannel_inv hm h1
      refine ⟨rfl, ?_⟩
      intro x hx
      rcases List.mem_or_eq_of_mem_set hx with hx | rfl
      · exact hi x hx
      · exact h2

/-- C06 as stated: decoding any bytes on any reachable decoder returns -/
def C06_statement : Prop :=
  ∀ (α : Type) [Scalar α] (f : SamplingFrequency) (d : FrameDuration) (D : Decoder α) (checks : Bool)
    (ch : Nat) (buf : List Nat) (out : List Int), Reachable f d D → ch < D.channels.length → Bytes buf →
    decodeFrame checks D 16 ch buf out ≠ .panic

/-- **C06 (partial)** In a build without overflow checks, decoding any byte string on any reachable decoder
returns normally, except possibly for the frame lengths in `panicLengths` (one or two lengths below 8 bytes, depending on
the configuration). What is missing from C06: it is false at these lengths (`C06_fails`), and with overflow checks
(`C06_checks_fails`). -/
theorem C06_partial {f : SamplingFrequency} {d : FrameDuration} {D : Decoder α} (hD : Reachable f d D) {bits ch : Nat}
    (hch : ch < D.channels.length) {buf : List Nat} (hl : buf.length ∉ panicLengths f d) (out : List Int) :
    ∃ r D' out', decodeFrame false D bits ch buf out = .ok (r, D', out') := by
  obtain ⟨hc, hi⟩ := reachable_inv hD
  rw [← shortLens_eq] at hl
  have hs := safe_decodeChannel (hi _ (List.getElem_mem hch)) (bits := bits) (out := out) hl
  have hn := noErr_decodeChannel false (Lc3Config.new f d) D.channels[ch] bits buf out
  unfold decodeFrame
  rw [List.getElem?_eq_getElem hch, hc]
  simp only
  cases e : decodeChannel false (Lc3Config.new f d) D.channels[ch] bits buf out with
  | ok p => exact ⟨_, _, _, rfl⟩
  | err => exact absurd e hn
  | panic => rw [e] at hs; exact hs.elim

/-- a frame on which the parser panics, for every length in `panicLengths` -/
def panicFrame (f : SamplingFrequency) (d : FrameDuration) (n : Nat) : List Nat :=
  match f, d, n with
  | .hz8000, .tenMs, _ => [109, 165]
  | .hz16000, .sevenPointFiveMs, _ => [109, 165, 78, 98, 110, 24, 61]
  | .hz16000, .tenMs, 1 => [88]
  | .hz16000, .tenMs, _ => [226, 174, 129, 22]
  | .hz32000, .tenMs, _ => [88, 183, 180, 203]
  | _, _, _ => [157, 51, 26, 113]

theorem panicFrame_panics : ∀ (f : SamplingFrequency) (d : FrameDuration), ∀ n ∈ panicLengths f d,
    (panicFrame f d n).length = n ∧ (∀ b ∈ panicFrame f d n, b < 256) ∧
      readFrame false (Lc3Config.new f d) (panicFrame f d n) = .panic := by
  intro f d
  cases f <;> cases d <;> decide +kernel

/-- a panic of the parser is a panic of the decoder -/
theorem decodeFrame_panic {f : SamplingFrequency} {d : FrameDuration} {D : Decoder α} (hD : Reachable f d D)
    {checks : Bool} {buf : List Nat} (h : readFrame checks (Lc3Config.new f d) buf = .panic) {ch : Nat}
    {out : List Int} : decodeFrame checks D 16 ch buf out = .panic := by
  unfold decodeFrame
  cases D.channels[ch]? with
  | none => rfl
  | some c =>
    simp only
    rw [(reachable_inv hD).1]
    unfold decodeChannel decodeSpectrum
    rw [if_neg (by simp), h]
    rfl

/-- The exception in `C06_partial` is exact: for every configuration and every length in its list there is a
frame of that length on which every decoder panics. -/
theorem C06_fails (f : SamplingFrequency) (d : FrameDuration) (n : Nat) (hn : n ∈ panicLengths f d) :
    ∃ buf, buf.length = n ∧ Bytes buf ∧ ∀ (D : Decoder α) (ch : Nat) (out : List Int), Reachable f d D →
      decodeFrame false D 16 ch buf out = .panic := by
  obtain ⟨h1, h2, h3⟩ := panicFrame_panics f d n hn
  exact ⟨_, h1, h2, fun D ch out hD => decodeFrame_panic hD h3⟩

/-- a decoder with one channel exists for every configuration and scalar type -/
theorem exists_reachable (f : SamplingFrequency) (d : FrameDuration) (n : Nat) :
    ∃ D : Decoder α, Reachable f d D ∧ D.channels.length = n := by
  obtain ⟨chs, e, hl, -⟩ := decChannelsNew_ok (α := α) (f := f) (d := d) (n := n)
    (sb := List.replicate (n * chanScalars (Lc3Config.new f d)) zero)
    (cb := List.replicate (n * chanComplex (Lc3Config.new f d)) ⟨zero, zero⟩) (by simp) (by simp)
  refine ⟨⟨Lc3Config.new f d, chs⟩, Reachable.new (n := n) (by unfold Decoder.new; simp only; rw [e]; rfl), hl⟩

/-- With overflow checks there is a further panic: a frame of 900 bytes at 48 kHz, 10 ms. -/
theorem C06_checks_fails : ∃ buf, buf.length = 900 ∧ Bytes buf ∧ ∀ (D : Decoder α) (ch : Nat) (out : List Int),
    Reachable .hz48000 .tenMs D → decodeFrame true D 16 ch buf out = .panic := by
  exact ⟨overflowFrame, overflowFrame_length, overflowFrame_bytes,
    fun D ch out hD => decodeFrame_panic hD overflowFrame_panics⟩

/-- so C06 as stated is false -/
theorem C06_statement_false : ¬ C06_statement := by
  intro h
  obtain ⟨D, hD, hl⟩ := exists_reachable (α := ℝ) .hz48000 .tenMs 1
  obtain ⟨buf, -, hb, hp⟩ := C06_fails (α := ℝ) .hz48000 .tenMs 4 (by simp [panicLengths])
  exact h ℝ .hz48000 .tenMs D false 0 buf [] hD (by omega) hb (hp D 0 [] hD)

/-- the hypotheses of `C06_partial` can be met: 48 kHz, 10 ms, two channels, frames of 150 bytes -/
example : ∃ D : Decoder α, Reachable .hz48000 .tenMs D ∧ 1 < D.channels.length ∧
    (List.replicate 150 (0 : Nat)).length ∉ panicLengths .hz48000 .tenMs := by
  obtain ⟨D, h, hl⟩ := exists_reachable (α := α) .hz48000 .tenMs 2
  exact ⟨D, h, by omega, by simp [panicLengths]⟩

/-- **C07** `decode_frame` reports an error exactly when the requested width is not 16 bits; then neither the decoder
nor the output changes. (`.err` would be any other error: it never occurs. Whether the call returns at all is the
subject of C06.) -/
theorem C07 (checks : Bool) (D : Decoder α) (bits ch : Nat) (buf : List Nat) (out : List Int) :
    decodeFrame checks D bits ch buf out ≠ .err ∧
    ∀ r D' out', decodeFrame checks D bits ch buf out = .ok (r, D', out') →
      (r = .only16BitsPerAudioSampleSupported ↔ bits ≠ 16) ∧ (bits ≠ 16 → D' = D ∧ out' = out) := by
  unfold decodeFrame
  cases hch : D.channels[ch]? with
  | none => simp
  | some c =>
    simp only
    refine ⟨(noErr_decodeChannel _ _ _ _ _ _).bind fun _ => noErr_ok _, ?_⟩
    intro r D' out' e
    obtain ⟨⟨r1, c1, o1⟩, h1, e⟩ := bind_ok_inv e
    simp only [Res.ok.injEq, Prod.mk.injEq] at e
    obtain ⟨rfl, rfl, rfl⟩ := e
    unfold decodeChannel at h1
    by_cases hb : bits = 16
    · rw [if_neg (by simp [hb])] at h1
      obtain ⟨_, -, h1⟩ := bind_ok_inv h1
      simp only at h1
      split at h1
      · simp at h1
      obtain ⟨_, -, h1⟩ := bind_ok_inv h1
      obtain ⟨_, -, h1⟩ := bind_ok_inv h1
      simp only [Res.ok.injEq, Prod.mk.injEq] at h1
      obtain ⟨rfl, -, -⟩ := h1
      exact ⟨⟨by simp, fun h => absurd hb h⟩, fun h => absurd hb h⟩
    · rw [if_pos hb] at h1
      simp only [Res.ok.injEq, Prod.mk.injEq] at h1
      obtain ⟨rfl, rfl, rfl⟩ := h1
      refine ⟨by simp [hb], fun _ => ⟨?_, rfl⟩⟩
      cases D
      simp only [Decoder.mk.injEq, true_and]
      obtain ⟨hlt, heq⟩ := List.getElem?_eq_some_iff.1 hch
      rw [← heq]
      exact List.set_getElem_self hlt

/-- **C07, corrupt frames** A frame the parser rejects is concealed: the call returns without an error. -/
theorem C07_concealed {f : SamplingFrequency} {d : FrameDuration} {D : Decoder α} (hD : Reachable f d D)
    (checks : Bool) {ch : Nat} (hch : ch < D.channels.length) {buf : List Nat}
    (he : readFrame checks (Lc3Config.new f d) buf = .err) (out : List Int) :
    ∃ D' out', decodeFrame checks D 16 ch buf out = .ok (.ok, D', out') := by
  obtain ⟨hc, hi⟩ := reachable_inv hD
  obtain ⟨ch', out', e⟩ := decodeChannel_err (hi _ (List.getElem_mem hch)) he out
  unfold decodeFrame
  rw [List.getElem?_eq_getElem hch, hc]
  simp only
  rw [e]
  exact ⟨_, _, rfl⟩

/-- an empty frame, a frame of three bytes and one of 40 equal bytes are rejected -/
example : readFrame true (Lc3Config.new .hz48000 .tenMs) [] = .err ∧
    readFrame true (Lc3Config.new .hz48000 .tenMs) [1, 2, 3] = .err ∧
    readFrame true (Lc3Config.new .hz48000 .tenMs) (List.replicate 40 255) = .err := by decide +kernel

/-! ### C10 -/

/-- the calls for channel `c`, addressed to channel 0 -/
def callsOf (c : Nat) (cs : List Call) : List Call :=
  (cs.filter (fun x => x.channel = c)).map fun x => { x with channel := 0 }

/-- **C10, decoder** For every interleaving of calls: the results of channel `c` are those of a decoder that has only
this channel and receives only the calls for it, and the final state of the channel is the state of that decoder. -/
theorem C10_decoder (checks : Bool) : ∀ (cs : List Call) (D D' : Decoder α) (l : List (DecResult × List Int)) (c : Nat)
    (chn : DecChannel α), D.channels[c]? = some chn → runCalls checks cs D = .ok (l, D') →
    ∃ chn', D'.channels[c]? = some chn' ∧ D'.config = D.config ∧
      runCalls checks (callsOf c cs) ⟨D.config, [chn]⟩ =
        .ok (((cs.zip l).filter (fun p => p.1.channel = c)).map Prod.snd, ⟨D.config, [chn']⟩)
  | [], D, D', l, c, chn, hc, h => by
    simp only [runCalls, Res.ok.injEq, Prod.mk.injEq] at h
    obtain ⟨rfl, rfl⟩ := h
    exact ⟨chn, hc, rfl, by simp [callsOf, runCalls]⟩
  | x :: cs, D, D', l, c, chn, hc, h => by
    rw [runCalls] at h
    obtain ⟨⟨r, D1, o⟩, h1, h⟩ := bind_ok_inv h
    obtain ⟨⟨l1, D2⟩, h2, h⟩ := bind_ok_inv h
    simp only [Res.ok.injEq, Prod.mk.injEq] at h
    obtain ⟨rfl, rfl⟩ := h
    unfold decodeFrame at h1
    cases hx : D.channels[x.channel]? with
    | none => rw [hx] at h1; simp at h1
    | some cx =>
      rw [hx] at h1
      simp only at h1
      obtain ⟨⟨r', cx', o'⟩, h3, h1⟩ := bind_ok_inv h1
      simp only [Res.ok.injEq, Prod.mk.injEq] at h1
      obtain ⟨rfl, rfl, rfl⟩ := h1
      by_cases hcx : x.channel = c
      · subst hcx
        rw [hc] at hx
        cases hx
        have hlt : x.channel < D.channels.length := by
          by_contra hcon
          rw [List.getElem?_eq_none (by omega)] at hc
          exact absurd hc (by simp)
        obtain ⟨chn', e1, e2, e3⟩ := C10_decoder checks cs _ _ l1 x.channel cx' (by simp [hlt]) h2
        refine ⟨chn', e1, e2, ?_⟩
        have hco : callsOf x.channel (x :: cs) = { x with channel := 0 } :: callsOf x.channel cs := by
          simp [callsOf]
        rw [hco, runCalls]
        unfold decodeFrame
        simp only [List.getElem?_cons_zero]
        rw [h3]
        simp only [Res.bind_ok, List.set_cons_zero]
        rw [e3]
        simp
      · have hc1 : (D.channels.set x.channel cx')[c]? = some chn := by
          rw [List.getElem?_set_ne hcx]; exact hc
        obtain ⟨chn', e1, e2, e3⟩ := C10_decoder checks cs _ _ l1 c chn hc1 h2
        refine ⟨chn', e1, e2, ?_⟩
        have hco : callsOf c (x :: cs) = callsOf c cs := by simp [callsOf, hcx]
        rw [hco, e3]
        simp [hcx]

/-- **C10, decoder** a channel number outside the configured range is rejected by a panic -/
theorem C10_decoder_range (checks : Bool) (D : Decoder α) (bits ch : Nat) (buf : List Nat) (out : List Int)
    (h : D.channels.length ≤ ch) : decodeFrame checks D bits ch buf out = .panic := by
  unfold decodeFrame
  rw [List.getElem?_eq_none h]

/-- calls for two channels -/
example : callsOf 1 [⟨0, 16, [1], []⟩, ⟨1, 16, [2], []⟩, ⟨0, 16, [3], []⟩, ⟨1, 24, [4], []⟩] =
    [⟨0, 16, [2], []⟩, ⟨0, 24, [4], []⟩] := rfl

/-- **C11** Construction succeeds exactly when both buffers have at least the advertised lengths; what is left over is the
part beyond the advertised lengths, so buffers of exactly these lengths are used completely; with any shorter
buffer it panics. -/
theorem C11 (n : Nat) (f : SamplingFrequency) (d : FrameDuration) (sb : List α) (cb : List (Cx α)) :
    ((decoderLens n d f).1 ≤ sb.length ∧ (decoderLens n d f).2 ≤ cb.length →
      ∃ D, Decoder.new n d f sb cb = .ok (D, sb.drop (decoderLens n d f).1, cb.drop (decoderLens n d f).2) ∧
        D.channels.length = n) ∧
    (sb.length < (decoderLens n d f).1 ∨ cb.length < (decoderLens n d f).2 →
      Decoder.new n d f sb cb = .panic) := by
  have e1 : (decoderLens n d f).1 = n * chanScalars (Lc3Config.new f d) := rfl
  have e2 : (decoderLens n d f).2 = n * chanComplex (Lc3Config.new f d) := rfl
  rw [e1, e2]
  constructor
  · rintro ⟨h1, h2⟩
    obtain ⟨chs, e, hl, -⟩ := decChannelsNew_ok (f := f) (d := d) h1 h2
    refine ⟨⟨Lc3Config.new f d, chs⟩, ?_, hl⟩
    unfold Decoder.new
    simp only
    rw [e]; rfl
  · intro h
    unfold Decoder.new
    simp only
    have hn := noErr_decChannelsNew (Lc3Config.new f d) n sb cb
    cases e : decChannelsNew (Lc3Config.new f d) n sb cb with
    | panic => rfl
    | err => exact absurd e hn
    | ok p =>
      obtain ⟨chs, s1, c1⟩ := p
      obtain ⟨a1, a2, -⟩ := decChannelsNew_uses e
      omega

/-- the advertised lengths for two channels at 48 kHz, 10 ms -/
example : decoderLens 2 .tenMs .hz48000 = (9942, 1920) := by decide +kernel

end Lc3
