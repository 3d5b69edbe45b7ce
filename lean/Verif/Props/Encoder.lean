import Verif.Model.Encoder
import Verif.Lemmas.SafeDecoder
import Verif.Props.EncLtpf
import Verif.Props.EncDetect
/-!
# C10 (encoder), C12: the encoder as a whole

Construction at 8 kHz panics for every number of channels but 0 (`C12_fails`); `C12_partial` proves the claim for all other sampling
frequencies.
-/

namespace Lc3
open Scalar

variable {α : Type} [Scalar α]

/-- integers, scalars and complex numbers used by one channel -/
def encChanInts (cfg : Lc3Config) : Nat := cfg.nf * 2 + (encLtpfBufLens cfg).1 + cfg.ne
def encChanScalars (cfg : Lc3Config) : Nat := (encLtpfBufLens cfg).2 + cfg.nf + cfg.nb
def encChanComplex (cfg : Lc3Config) : Nat := cfg.nf / 2 * 4

/-- the buffers of a channel have the lengths of the configuration, the bandwidth detector is the one of the configuration -/
structure EncChannel.Inv (cfg : Lc3Config) (ch : EncChannel α) : Prop where
  freq : ch.freq.length = cfg.nf * 2
  bw : BwDet.new cfg.nMs cfg.fsInd = .ok ch.bw
  ltpf : ch.ltpf.Inv cfg
  out : ch.outLen = cfg.nf
  eb : ch.ebLen = cfg.nb
  xq : ch.xqLen = cfg.ne

theorem dctNew_ok {f : SamplingFrequency} {d : FrameDuration} {cb : List (Cx α)} (h : (Lc3Config.new f d).nf / 2 * 4 ≤ cb.length) :
    dctNew (Lc3Config.new f d).nf cb = .ok (cb.drop ((Lc3Config.new f d).nf / 2 * 4)) := by
  obtain ⟨fac, hfac, -⟩ := kfFactor_sizes _ (fftSizes_config f d).1
  unfold dctNew
  rw [hfac]
  generalize (Lc3Config.new f d).nf / 2 = n at *
  rw [splitAt_ok (by omega)]
  simp only [Res.bind_ok]
  rw [splitAt_ok (by simp; omega)]
  simp only [Res.bind_ok]
  rw [splitAt_ok (by simp; omega)]
  simp only [Res.bind_ok]
  rw [splitAt_ok (by simp; omega)]
  simp only [Res.bind_ok, List.drop_drop]
  congr 2
  omega

theorem encChannelNew_ok {f : SamplingFrequency} {d : FrameDuration} (hf : f ≠ .hz8000) {ib : List Int} {sb : List α} {cb : List (Cx α)}
    (h1 : encChanInts (Lc3Config.new f d) ≤ ib.length) (h2 : encChanScalars (Lc3Config.new f d) ≤ sb.length)
    (h3 : encChanComplex (Lc3Config.new f d) ≤ cb.length) :
    ∃ ch, encChannelNew (Lc3Config.new f d) ib sb cb = .ok (ch, ib.drop (encChanInts (Lc3Config.new f d)),
      sb.drop (encChanScalars (Lc3Config.new f d)), cb.drop (encChanComplex (Lc3Config.new f d))) ∧
      ch.Inv (Lc3Config.new f d) := by
  obtain ⟨w, hw, -⟩ := windowOf_ok f d
  obtain ⟨tab, htab, -⟩ := bandTable_ok f d
  have hd := dctNew_ok (f := f) (d := d) h3
  obtain ⟨bw, hbw⟩ : ∃ b, BwDet.new (Lc3Config.new f d).nMs (Lc3Config.new f d).fsInd = .ok b := by
    cases f <;> cases d <;> first | exact absurd rfl hf | exact ⟨_, rfl⟩
  have hl := (C41_new (Lc3Config.new f d) sb (ib.drop ((Lc3Config.new f d).nf * 2))).1
  unfold encChanInts encLtpfBufLens at h1
  unfold encChanScalars encLtpfBufLens at h2
  unfold encChanInts encChanScalars encChanComplex
  unfold encLtpfBufLens at hl ⊢
  generalize Lc3Config.new f d = cfg at *
  simp only at h1 h2 hl ⊢
  obtain ⟨lt, hlt, hinv⟩ := hl (by rw [List.length_drop]; omega)
  unfold encChannelNew mdctEncNew
  rw [splitAt_ok (by omega)]
  simp only [Res.bind_ok]
  rw [hd]
  simp only [Res.bind_ok]
  rw [hw]
  simp only [Res.bind_ok]
  rw [htab]
  simp only [Res.bind_ok]
  rw [hbw]
  simp only [Res.bind_ok]
  rw [hlt]
  simp only [Res.bind_ok]
  rw [splitAt_ok (by rw [List.length_drop]; omega)]
  simp only [Res.bind_ok]
  rw [splitAt_ok (by rw [List.length_drop, List.length_drop]; omega)]
  simp only [Res.bind_ok]
  rw [splitAt_ok (by rw [List.length_drop, List.length_drop]; omega)]
  simp only [Res.bind_ok]
  have hfin : ∀ (ch : EncChannel α) (i i' : List Int) (a a' : List α) (b : List (Cx α)), i = i' → a = a' → ch.Inv cfg →
      ∃ ch', Res.ok (ch, i, a, b) = .ok (ch', i', a', b) ∧ ch'.Inv cfg := by
    rintro ch i _ a _ b rfl rfl h; exact ⟨ch, rfl, h⟩
  apply hfin
  · rw [List.drop_drop, List.drop_drop, Nat.add_assoc]
  · rw [List.drop_drop, List.drop_drop]
    congr 1
    omega
  · refine ⟨?_, hbw, hinv, ?_, ?_, ?_⟩ <;>
    · simp only [List.length_take, List.length_drop]
      omega

theorem ltpfEncNew_uses {cfg : Lc3Config} {sb sb' : List α} {ib ib' : List Int} {s : EncLtpf α}
    (h : EncLtpf.new cfg sb ib = .ok (s, sb', ib')) :
    ib'.length + (encLtpfBufLens cfg).1 = ib.length ∧ sb'.length + (encLtpfBufLens cfg).2 = sb.length := by
  obtain ⟨s1, h⟩ := bind_splitAt h
  obtain ⟨s2, h⟩ := bind_splitAt h
  obtain ⟨s3, h⟩ := bind_splitAt h
  simp only [Res.ok.injEq, Prod.mk.injEq] at h
  obtain ⟨-, rfl, rfl⟩ := h
  unfold encLtpfBufLens
  simp only [List.length_drop] at *
  omega

/-- construction uses exactly the advertised amounts -/
theorem encChannelNew_uses {cfg : Lc3Config} {ib ib' : List Int} {sb sb' : List α} {cb cb' : List (Cx α)} {ch : EncChannel α}
    (h : encChannelNew cfg ib sb cb = .ok (ch, ib', sb', cb')) :
    ib'.length + encChanInts cfg = ib.length ∧ sb'.length + encChanScalars cfg = sb.length ∧
      cb'.length + encChanComplex cfg = cb.length := by
  obtain ⟨⟨fr, ib1, cb1⟩, h1, h⟩ := bind_ok_inv h
  obtain ⟨s1, h1⟩ := bind_splitAt h1
  obtain ⟨cb2, h2, h1⟩ := bind_ok_inv h1
  obtain ⟨_, -, h1⟩ := bind_ok_inv h1
  obtain ⟨_, -, h1⟩ := bind_ok_inv h1
  simp only [Res.ok.injEq, Prod.mk.injEq] at h1
  obtain ⟨-, rfl, rfl⟩ := h1
  have e1 := dctNew_uses h2
  obtain ⟨_, -, h⟩ := bind_ok_inv h
  obtain ⟨⟨l, sb3, ib3⟩, h3, h⟩ := bind_ok_inv h
  obtain ⟨e2, e3⟩ := ltpfEncNew_uses h3
  obtain ⟨s4, h⟩ := bind_splitAt h
  obtain ⟨s5, h⟩ := bind_splitAt h
  obtain ⟨s6, h⟩ := bind_splitAt h
  simp only [Res.ok.injEq, Prod.mk.injEq] at h
  obtain ⟨-, rfl, rfl, rfl⟩ := h
  unfold encChanInts encChanScalars encChanComplex
  simp only [List.length_drop] at *
  omega

theorem noErr_encChannelNew (cfg : Lc3Config) (ib : List Int) (sb : List α) (cb : List (Cx α)) :
    NoErr (encChannelNew cfg ib sb cb) := by
  unfold encChannelNew mdctEncNew dctNew EncLtpf.new kfFactor
  have hs : ∀ {β : Type} (l : List β) (n : Nat), NoErr (splitAt l n) := fun l n => noErr_splitAt l n
  have hw : ∀ (d : FrameDuration) (n : Nat), NoErr (windowOf d n) := by
    intro d n; unfold windowOf; split <;> no_err
  have ht : ∀ (d : FrameDuration) (n : Nat), NoErr (bandTable d n) := by
    intro d n; unfold bandTable; split <;> no_err
  have hb : ∀ (d : FrameDuration) (n : Nat), NoErr (BwDet.new d n) := by
    intro d n
    unfold BwDet.new
    cases d <;>
    exact (noErr_usub _ _).bind fun _ => (noErr_idx _ _).bind fun _ => (noErr_idx _ _).bind fun _ => noErr_ok _
  repeat' first
    | exact noErr_ok _
    | exact hs _ _
    | exact hw _ _
    | exact ht _ _
    | exact hb _ _
    | exact noErr_kfFactorLoop _ _ _ _
    | exact noErr_usub _ _
    | apply NoErr.bind
    | intro _

theorem noErr_encChannelsNew (cfg : Lc3Config) : ∀ (n : Nat) (ib : List Int) (sb : List α) (cb : List (Cx α)),
    NoErr (encChannelsNew cfg n ib sb cb)
  | 0, _, _, _ => noErr_ok _
  | n + 1, ib, sb, cb => by
    rw [encChannelsNew]
    exact (noErr_encChannelNew _ _ _ _).bind fun _ => (noErr_encChannelsNew cfg n _ _ _).bind fun _ => noErr_ok _

theorem encChannelsNew_ok {f : SamplingFrequency} {d : FrameDuration} (hf : f ≠ .hz8000) : ∀ (n : Nat) (ib : List Int) (sb : List α)
    (cb : List (Cx α)), n * encChanInts (Lc3Config.new f d) ≤ ib.length → n * encChanScalars (Lc3Config.new f d) ≤ sb.length →
    n * encChanComplex (Lc3Config.new f d) ≤ cb.length →
    ∃ chs, encChannelsNew (Lc3Config.new f d) n ib sb cb = .ok (chs, ib.drop (n * encChanInts (Lc3Config.new f d)),
      sb.drop (n * encChanScalars (Lc3Config.new f d)), cb.drop (n * encChanComplex (Lc3Config.new f d))) ∧ chs.length = n ∧
      ∀ ch ∈ chs, ch.Inv (Lc3Config.new f d)
  | 0, ib, sb, cb, _, _, _ => ⟨[], by simp [encChannelsNew], rfl, by simp⟩
  | n + 1, ib, sb, cb, h1, h2, h3 => by
    rw [Nat.add_mul, Nat.one_mul] at h1 h2 h3
    obtain ⟨ch, e1, hi⟩ := encChannelNew_ok (α := α) (d := d) hf (ib := ib) (sb := sb) (cb := cb) (by omega) (by omega) (by omega)
    obtain ⟨chs, e2, hl, his⟩ := encChannelsNew_ok (d := d) hf n (ib.drop (encChanInts (Lc3Config.new f d)))
      (sb.drop (encChanScalars (Lc3Config.new f d))) (cb.drop (encChanComplex (Lc3Config.new f d)))
      (by rw [List.length_drop]; omega) (by rw [List.length_drop]; omega) (by rw [List.length_drop]; omega)
    refine ⟨ch :: chs, ?_, by simp [hl], ?_⟩
    · unfold encChannelsNew
      rw [e1]
      simp only [Res.bind_ok]
      rw [e2]
      simp only [Res.bind_ok, List.drop_drop]
      rw [Nat.add_mul, Nat.add_mul, Nat.add_mul, Nat.one_mul, Nat.one_mul, Nat.one_mul, Nat.add_comm (n * _), Nat.add_comm (n * _),
        Nat.add_comm (n * _)]
    · intro c hc
      rcases List.mem_cons.1 hc with rfl | hc
      · exact hi
      · exact his c hc

theorem encChannelsNew_uses {cfg : Lc3Config} : ∀ (n : Nat) (ib ib' : List Int) (sb sb' : List α) (cb cb' : List (Cx α))
    (chs : List (EncChannel α)), encChannelsNew cfg n ib sb cb = .ok (chs, ib', sb', cb') →
    ib'.length + n * encChanInts cfg = ib.length ∧ sb'.length + n * encChanScalars cfg = sb.length ∧
      cb'.length + n * encChanComplex cfg = cb.length
  | 0, ib, ib', sb, sb', cb, cb', chs, h => by
    simp only [encChannelsNew, Res.ok.injEq, Prod.mk.injEq] at h
    obtain ⟨-, rfl, rfl, rfl⟩ := h
    simp
  | n + 1, ib, ib', sb, sb', cb, cb', chs, h => by
    obtain ⟨⟨ch, i1, s1, c1⟩, h1, h⟩ := bind_ok_inv h
    obtain ⟨⟨chs', i2, s2, c2⟩, h2, h⟩ := bind_ok_inv h
    simp only [Res.ok.injEq, Prod.mk.injEq] at h
    obtain ⟨-, rfl, rfl, rfl⟩ := h
    obtain ⟨a1, a2, a3⟩ := encChannelNew_uses h1
    obtain ⟨b1, b2, b3⟩ := encChannelsNew_uses n _ _ _ _ _ _ _ h2
    rw [Nat.add_mul, Nat.add_mul, Nat.add_mul, Nat.one_mul, Nat.one_mul, Nat.one_mul]
    omega

/-! ### C12 -/

/-- **C12**, the statement of the property: construction succeeds with buffers of at least the advertised lengths, leaving over what
is beyond these lengths, and panics with any shorter buffer -/
def C12_statement : Prop :=
  ∀ (α : Type) [Scalar α] (n : Nat) (d : FrameDuration) (f : SamplingFrequency) (ib : List Int) (sb : List α) (cb : List (Cx α)),
    ((encoderLens n d f).1 ≤ ib.length ∧ (encoderLens n d f).2.1 ≤ sb.length ∧ (encoderLens n d f).2.2 ≤ cb.length →
      ∃ E, Encoder.new n d f ib sb cb = .ok (E, ib.drop (encoderLens n d f).1, sb.drop (encoderLens n d f).2.1,
        cb.drop (encoderLens n d f).2.2) ∧ E.channels.length = n) ∧
    (ib.length < (encoderLens n d f).1 ∨ sb.length < (encoderLens n d f).2.1 ∨ cb.length < (encoderLens n d f).2.2 →
      Encoder.new n d f ib sb cb = .panic)

/-- construction with a buffer that is too short panics, for every sampling frequency -/
theorem C12_short (n : Nat) (d : FrameDuration) (f : SamplingFrequency) (ib : List Int) (sb : List α) (cb : List (Cx α))
    (h : ib.length < (encoderLens n d f).1 ∨ sb.length < (encoderLens n d f).2.1 ∨ cb.length < (encoderLens n d f).2.2) :
    Encoder.new n d f ib sb cb = .panic := by
  have e1 : (encoderLens n d f).1 = n * encChanInts (Lc3Config.new f d) := Nat.mul_comm _ _
  have e2 : (encoderLens n d f).2.1 = n * encChanScalars (Lc3Config.new f d) := Nat.mul_comm _ _
  have e3 : (encoderLens n d f).2.2 = n * encChanComplex (Lc3Config.new f d) := Nat.mul_comm _ _
  rw [e1, e2, e3] at h
  unfold Encoder.new
  simp only
  have hn := noErr_encChannelsNew (Lc3Config.new f d) n ib sb cb
  cases e : encChannelsNew (Lc3Config.new f d) n ib sb cb with
  | panic => rfl
  | err => exact absurd e hn
  | ok p =>
    obtain ⟨chs, i1, s1, c1⟩ := p
    obtain ⟨a1, a2, a3⟩ := encChannelsNew_uses _ _ _ _ _ _ _ _ e
    omega

/-- **C12** for all sampling frequencies but 8 kHz, for which the statement is false (`C12_fails`). Besides, every channel of the new
encoder has buffers of the lengths that encoding requires. -/
theorem C12_partial (n : Nat) (d : FrameDuration) (f : SamplingFrequency) (hf : f ≠ .hz8000) (ib : List Int) (sb : List α)
    (cb : List (Cx α)) :
    ((encoderLens n d f).1 ≤ ib.length ∧ (encoderLens n d f).2.1 ≤ sb.length ∧ (encoderLens n d f).2.2 ≤ cb.length →
      ∃ E, Encoder.new n d f ib sb cb = .ok (E, ib.drop (encoderLens n d f).1, sb.drop (encoderLens n d f).2.1,
        cb.drop (encoderLens n d f).2.2) ∧ E.channels.length = n ∧ E.config = Lc3Config.new f d ∧
        ∀ ch ∈ E.channels, ch.Inv (Lc3Config.new f d)) ∧
    (ib.length < (encoderLens n d f).1 ∨ sb.length < (encoderLens n d f).2.1 ∨ cb.length < (encoderLens n d f).2.2 →
      Encoder.new n d f ib sb cb = .panic) := by
  refine ⟨?_, C12_short n d f ib sb cb⟩
  have e1 : (encoderLens n d f).1 = n * encChanInts (Lc3Config.new f d) := Nat.mul_comm _ _
  have e2 : (encoderLens n d f).2.1 = n * encChanScalars (Lc3Config.new f d) := Nat.mul_comm _ _
  have e3 : (encoderLens n d f).2.2 = n * encChanComplex (Lc3Config.new f d) := Nat.mul_comm _ _
  rw [e1, e2, e3]
  rintro ⟨h1, h2, h3⟩
  obtain ⟨chs, e, hl, hi⟩ := encChannelsNew_ok hf n ib sb cb h1 h2 h3
  refine ⟨⟨Lc3Config.new f d, chs⟩, ?_, hl, rfl, hi⟩
  unfold Encoder.new
  simp only
  rw [e]
  rfl

/-- at 8 kHz construction panics whatever the buffers are, as soon as there is a channel -/
theorem C12_8kHz (n : Nat) (d : FrameDuration) (ib : List Int) (sb : List α) (cb : List (Cx α)) :
    Encoder.new (n + 1) d .hz8000 ib sb cb = .panic := by
  have hn := noErr_encChannelNew (Lc3Config.new .hz8000 d) ib sb cb
  have hb : BwDet.new (Lc3Config.new .hz8000 d).nMs (Lc3Config.new .hz8000 d).fsInd = .panic := by cases d <;> rfl
  have hc : encChannelNew (Lc3Config.new .hz8000 d) ib sb cb = .panic := by
    cases e : encChannelNew (Lc3Config.new .hz8000 d) ib sb cb with
    | panic => rfl
    | err => exact absurd e hn
    | ok p =>
      obtain ⟨⟨fr, ib1, cb1⟩, _, h⟩ := bind_ok_inv e
      obtain ⟨b, h2, _⟩ := bind_ok_inv h
      rw [hb] at h2
      cases h2
  unfold Encoder.new
  simp only
  rw [encChannelsNew, hc]
  rfl

/-- **C12 is false**: one channel at 8 kHz -/
theorem C12_fails : ¬ C12_statement := by
  intro h
  letI : Scalar Unit := ⟨fun _ => (), fun _ _ => true, fun _ _ => true, fun _ => (), fun _ => (), fun _ => (), fun _ => (), (), fun _ => (),
    fun _ => (), fun _ => 0, fun _ => 0, fun _ => (), fun _ _ => (), fun _ _ => (), fun _ => (), fun _ => (), fun _ => (), fun _ => (),
    fun _ => (), fun _ => (), fun _ _ => (), fun _ => true⟩
  obtain ⟨E, hE, _⟩ := (h Unit 1 .tenMs .hz8000 (List.replicate (encoderLens 1 .tenMs .hz8000).1 0)
    (List.replicate (encoderLens 1 .tenMs .hz8000).2.1 ()) (List.replicate (encoderLens 1 .tenMs .hz8000).2.2 ⟨(), ()⟩)).1
    (by simp only [List.length_replicate]; omega)
  rw [C12_8kHz] at hE
  cases hE

/-- the advertised lengths for two channels at 48 kHz, 10 ms -/
example : encoderLens 2 .tenMs .hz48000 = (3800, 2212, 1920) := by decide +kernel

/-! ### C10 -/

/-- a call of `encode_frame` -/
structure EncCall where
  channel : Nat
  x : List Int
  buf : List Nat

/-- a sequence of calls: the bytes written by each -/
def runEncCalls : List EncCall → Encoder α → Res (List (List Nat) × Encoder α)
  | [], E => .ok ([], E)
  | c :: cs, E => do
    let (E, b) ← encodeFrameOn E c.channel c.x c.buf
    let (l, E) ← runEncCalls cs E
    .ok (b :: l, E)

/-- the calls for channel `c`, addressed to channel 0 -/
def encCallsOf (c : Nat) (cs : List EncCall) : List EncCall :=
  (cs.filter (fun x => x.channel = c)).map fun x => { x with channel := 0 }

/-- **C10, encoder** For every interleaving of calls: the bytes written for channel `c` are those of an encoder that has only this
channel and receives only the calls for it, and the final state of the channel is the state of that encoder. -/
theorem C10_encoder : ∀ (cs : List EncCall) (E E' : Encoder α) (l : List (List Nat)) (c : Nat) (chn : EncChannel α),
    E.channels[c]? = some chn → runEncCalls cs E = .ok (l, E') →
    ∃ chn', E'.channels[c]? = some chn' ∧ E'.config = E.config ∧
      runEncCalls (encCallsOf c cs) ⟨E.config, [chn]⟩ =
        .ok (((cs.zip l).filter (fun p => p.1.channel = c)).map Prod.snd, ⟨E.config, [chn']⟩)
  | [], E, E', l, c, chn, hc, h => by
    simp only [runEncCalls, Res.ok.injEq, Prod.mk.injEq] at h
    obtain ⟨rfl, rfl⟩ := h
    exact ⟨chn, hc, rfl, by simp [encCallsOf, runEncCalls]⟩
  | x :: cs, E, E', l, c, chn, hc, h => by
    rw [runEncCalls] at h
    obtain ⟨⟨E1, o⟩, h1, h⟩ := bind_ok_inv h
    obtain ⟨⟨l1, E2⟩, h2, h⟩ := bind_ok_inv h
    simp only [Res.ok.injEq, Prod.mk.injEq] at h
    obtain ⟨rfl, rfl⟩ := h
    unfold encodeFrameOn at h1
    cases hx : E.channels[x.channel]? with
    | none => rw [hx] at h1; simp at h1
    | some cx =>
      rw [hx] at h1
      simp only at h1
      obtain ⟨⟨cx', o'⟩, h3, h1⟩ := bind_ok_inv h1
      simp only [Res.ok.injEq, Prod.mk.injEq] at h1
      obtain ⟨rfl, rfl⟩ := h1
      by_cases hcx : x.channel = c
      · subst hcx
        rw [hc] at hx
        cases hx
        have hlt : x.channel < E.channels.length := by
          by_contra hcon
          rw [List.getElem?_eq_none (by omega)] at hc
          exact absurd hc (by simp)
        obtain ⟨chn', e1, e2, e3⟩ := C10_encoder cs _ _ l1 x.channel cx' (by simp [hlt]) h2
        refine ⟨chn', e1, e2, ?_⟩
        have hco : encCallsOf x.channel (x :: cs) = { x with channel := 0 } :: encCallsOf x.channel cs := by
          simp [encCallsOf]
        rw [hco, runEncCalls]
        unfold encodeFrameOn
        simp only [List.getElem?_cons_zero]
        rw [h3]
        simp only [Res.bind_ok, List.set_cons_zero]
        rw [e3]
        simp
      · have hc1 : (E.channels.set x.channel cx')[c]? = some chn := by
          rw [List.getElem?_set_ne hcx]; exact hc
        obtain ⟨chn', e1, e2, e3⟩ := C10_encoder cs _ _ l1 c chn hc1 h2
        refine ⟨chn', e1, e2, ?_⟩
        have hco : encCallsOf c (x :: cs) = encCallsOf c cs := by simp [encCallsOf, hcx]
        rw [hco, e3]
        simp [hcx]

/-- **C10, encoder** a channel number outside the configured range is rejected by a panic -/
theorem C10_encoder_range (E : Encoder α) (ch : Nat) (x : List Int) (buf : List Nat) (h : E.channels.length ≤ ch) :
    encodeFrameOn E ch x buf = .panic := by
  unfold encodeFrameOn
  rw [List.getElem?_eq_none h]

/-- calls for two channels -/
example : encCallsOf 1 [⟨0, [1], []⟩, ⟨1, [2], []⟩, ⟨0, [3], []⟩, ⟨1, [4], [0]⟩] = [⟨0, [2], []⟩, ⟨0, [4], [0]⟩] := rfl

end Lc3
