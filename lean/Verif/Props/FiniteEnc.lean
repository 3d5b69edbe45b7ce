import Verif.Spec.FiniteEnc
import Verif.Lemmas.FinEncState
import Verif.Props.Encoder
/-!
# C94: the encoder carries no NaN and no infinity from frame to frame
-/

namespace Lc3.F32
open Scalar

theorem small_of_sample {v : ℤ} (h : IsSample v) : Small v := by
  obtain ⟨h1, h2⟩ := h
  exact abs_le.2 ⟨h1, by omega⟩

theorem EncLtpfFin.finite {s : EncLtpf F32} (h : EncLtpfFin s) : FinitePitch s :=
  ⟨fun a ha => (h.xt a ha).1, fun a ha => (h.x6 a ha).1, h.hp.1, h.hp.2.1, h.pitch, h.nc, h.ncOld⟩

theorem EncChFin.finite {f : SamplingFrequency} {d : FrameDuration} {ch : EncChannel F32} (h : EncChFin f d ch) : FiniteEncChannel ch :=
  ⟨h.attack.energy.1, h.attack.maxEnergy.1, h.ltpf.finite, h.quant.1⟩

theorem EncChFin.sizes {f : SamplingFrequency} {d : FrameDuration} {ch : EncChannel F32} (h : EncChFin f d ch) : EncSizes ch :=
  ⟨fun a ha => (h.ltpf.xt a ha).2, fun a ha => (h.ltpf.x6 a ha).2, hpForm_fst h.ltpf.hp.2.2, hpForm_snd h.ltpf.hp.2.2, h.attack.energy.2,
    h.attack.maxEnergy.2, h.quant.2⟩

/-- all channels have the sizes -/
def EncFin (f : SamplingFrequency) (d : FrameDuration) (E : Encoder F32) : Prop :=
  E.config = Lc3Config.new f d ∧ ∀ ch ∈ E.channels, EncChFin f d ch

theorem encFin_new {el : Elem} {f : SamplingFrequency} {d : FrameDuration} {n : ℕ} {ib ib' : List ℤ} {sb sb' : List F32} {cb cb' : List (Cx F32)}
    {E : Encoder F32} (hsb : ∀ a ∈ sb, IsFin a ∧ |val a| ≤ 2 ^ 18) (hib : ∀ v ∈ ib, IsSample v)
    (h : @Encoder.new F32 (scalar el) n d f ib sb cb = .ok (E, ib', sb', cb')) : EncFin f d E := by
  letI := scalar el
  unfold Encoder.new at h
  obtain ⟨⟨chs, i1, s1, c1⟩, e1, h⟩ := bind_ok_inv h
  simp only [Res.ok.injEq, Prod.mk.injEq] at h
  rw [← h.1]
  exact ⟨rfl, encChannelsNew_fin (el := el) n hsb (fun v hv => small_of_sample (hib v hv)) e1⟩

theorem encFin_calls {el : Elem} (he : Accurate el) {f : SamplingFrequency} {d : FrameDuration} : ∀ (cs : List EncCall) {E E' : Encoder F32}
    {l : List (List ℕ)}, EncFin f d E → (∀ c ∈ cs, ∀ v ∈ c.x, IsSample v) →
    @runEncCalls F32 (scalar el) cs E = .ok (l, E') → EncFin f d E'
  | [], E, E', l, h, _, e => by
    simp only [runEncCalls, Res.ok.injEq, Prod.mk.injEq] at e
    rw [← e.2]
    exact h
  | c :: cs, E, E', l, h, hc, e => by
    letI := scalar el
    rw [runEncCalls] at e
    obtain ⟨⟨E1, b⟩, e1, e⟩ := bind_ok_inv e
    obtain ⟨⟨l1, E2⟩, e2, e⟩ := bind_ok_inv e
    simp only [Res.ok.injEq, Prod.mk.injEq] at e
    rw [← e.2]
    refine encFin_calls he cs ?_ (fun c' hc' => hc c' (List.mem_cons_of_mem _ hc')) e2
    obtain ⟨hcfg, hch⟩ := h
    unfold encodeFrameOn at e1
    cases hx : E.channels[c.channel]? with
    | none => rw [hx] at e1; simp at e1
    | some ch =>
      rw [hx] at e1
      obtain ⟨⟨ch', b'⟩, e3, e1⟩ := bind_ok_inv e1
      simp only [Res.ok.injEq, Prod.mk.injEq] at e1
      rw [← e1.1]
      rw [hcfg] at e3
      have hm : ch ∈ E.channels := List.mem_of_getElem? hx
      have hn := encodeChannel_fin he (hch ch hm) (fun v hv => small_of_sample (hc c (List.mem_cons_self ..) v hv)) e3
      refine ⟨hcfg, fun a ha => ?_⟩
      rcases List.mem_or_eq_of_mem_set ha with ha | rfl
      · exact hch a ha
      · exact hn

/-- **C94.** In binary32 arithmetic, with a square root that is right up to a rounding: an encoder made from buffers of samples and of
finite numbers up to `2 ^ 18` (zeros, for example) is given any sequence of calls, on any channels, with any 16 bit samples and any
frame sizes. As long as the calls return, no number it keeps for later frames is NaN or infinite; in particular the 50 Hz high pass
filter, which feeds back its own rounded output for ever, stays bounded, and the bit offset of the quantiser stays within 41 bits. -/
theorem C94 {el : Elem} (he : Accurate el) {f : SamplingFrequency} {d : FrameDuration} {n : ℕ} {ib ib' : List ℤ} {sb sb' : List F32}
    {cb cb' : List (Cx F32)} {E E' : Encoder F32} (hsb : ∀ a ∈ sb, IsFin a ∧ |val a| ≤ 2 ^ 18) (hib : ∀ v ∈ ib, IsSample v)
    (hnew : @Encoder.new F32 (scalar el) n d f ib sb cb = .ok (E, ib', sb', cb'))
    {cs : List EncCall} (hcs : ∀ c ∈ cs, ∀ v ∈ c.x, IsSample v) {l : List (List ℕ)}
    (hrun : @runEncCalls F32 (scalar el) cs E = .ok (l, E')) : FiniteEncoder E' ∧ ∀ ch ∈ E'.channels, EncSizes ch := by
  obtain ⟨-, h⟩ := encFin_calls he cs (encFin_new hsb hib hnew) hcs hrun
  exact ⟨fun ch hch => (h ch hch).finite, fun ch hch => (h ch hch).sizes⟩

theorem runAll_fin {el : Elem} (he : Accurate el) (f : SamplingFrequency) (d : FrameDuration) : ∀ (fs : List (List ℤ × Bool × ℕ)) {s : EncLtpf F32},
    s.Inv (Lc3Config.new f d) → EncLtpfFin s → (∀ x ∈ fs, x.1.length = (Lc3Config.new f d).nf ∧ ∀ v ∈ x.1, IsSample v) →
    ∃ s' rs, @EncLtpf.runAll F32 (scalar el) (Lc3Config.new f d) s fs = .ok (s', rs) ∧ rs.length = fs.length ∧ EncLtpfFin s'
  | [], s, _, hf, _ => ⟨s, [], rfl, rfl, hf⟩
  | (x, nn, nbits) :: fs, s, hi, hf, h => by
    letI := scalar el
    obtain ⟨hl, hx⟩ := h _ (List.mem_cons_self ..)
    obtain ⟨s1, r1, e1, hi1, -⟩ := @C41_run F32 (scalar el) f d s hi x hl nn nbits
    have hf1 := encLtpf_run_fin he f d hi hf (fun v hv => small_of_sample (hx v hv)) e1
    obtain ⟨s2, rs, e2, hl2, hf2⟩ := runAll_fin he f d fs hi1 hf1 (fun y hy => h y (List.mem_cons_of_mem _ hy))
    refine ⟨s2, r1 :: rs, ?_, by simp [hl2], hf2⟩
    rw [EncLtpf.runAll, e1]
    simp only [Res.bind_ok]
    rw [e2]
    rfl

/-- **C94 for the pitch analysis**, without a condition that it returns: a new pitch analysis processes every sequence of frames of 16 bit samples
of the right length, whatever the flags and bit budgets, and holds only finite numbers afterwards. -/
theorem C94_pitch {el : Elem} (he : Accurate el) (f : SamplingFrequency) (d : FrameDuration) {sb : List F32} {ib : List ℤ}
    (hi : (encLtpfBufLens (Lc3Config.new f d)).1 ≤ ib.length) (hb : (encLtpfBufLens (Lc3Config.new f d)).2 ≤ sb.length)
    (hsb : ∀ a ∈ sb, IsFin a ∧ |val a| ≤ 2 ^ 18) (hib : ∀ v ∈ ib, IsSample v)
    {fs : List (List ℤ × Bool × ℕ)} (hfs : ∀ x ∈ fs, x.1.length = (Lc3Config.new f d).nf ∧ ∀ v ∈ x.1, IsSample v) :
    ∃ s sb' ib' s' rs, @EncLtpf.new F32 (scalar el) (Lc3Config.new f d) sb ib = .ok (s, sb', ib') ∧
      @EncLtpf.runAll F32 (scalar el) (Lc3Config.new f d) s fs = .ok (s', rs) ∧ rs.length = fs.length ∧ FinitePitch s' := by
  obtain ⟨s, e, -⟩ := (@C41_new F32 (scalar el) (Lc3Config.new f d) sb ib).1 ⟨hi, hb⟩
  obtain ⟨h1, h2, -, -⟩ := encLtpf_new_fin (el := el) hsb (fun v hv => small_of_sample (hib v hv)) e
  obtain ⟨s', rs, e2, hl, hf⟩ := runAll_fin he f d fs h1 h2 hfs
  exact ⟨s, _, _, s', rs, e, e2, hl, hf.finite⟩

/-- non-trivial instance of `C94_pitch`: a thousand frames of full scale samples at 44.1 kHz, from zeroed buffers -/
example {el : Elem} (he : Accurate el) : ∃ s sb' ib' s' rs,
    @EncLtpf.new F32 (scalar el) (Lc3Config.new .hz44100 .tenMs) (List.replicate (encLtpfBufLens (Lc3Config.new .hz44100 .tenMs)).2 (fin 0))
      (List.replicate (encLtpfBufLens (Lc3Config.new .hz44100 .tenMs)).1 0) = .ok (s, sb', ib') ∧
    @EncLtpf.runAll F32 (scalar el) (Lc3Config.new .hz44100 .tenMs) s
      (List.replicate 1000 (List.replicate (Lc3Config.new .hz44100 .tenMs).nf (-32768), false, 800)) = .ok (s', rs) ∧
    rs.length = (List.replicate 1000 (List.replicate (Lc3Config.new .hz44100 .tenMs).nf (-32768 : ℤ), false, 800)).length ∧ FinitePitch s' := by
  refine C94_pitch he .hz44100 .tenMs (by rw [List.length_replicate]) (by rw [List.length_replicate]) ?_ ?_ ?_
  · intro a ha
    rw [(List.mem_replicate.1 ha).2]
    exact bd_zero (by norm_num)
  · intro v hv
    rw [(List.mem_replicate.1 hv).2]
    exact ⟨by norm_num, by norm_num⟩
  · intro x hx
    rw [(List.mem_replicate.1 hx).2]
    refine ⟨List.length_replicate, fun v hv => ?_⟩
    rw [(List.mem_replicate.1 hv).2]
    exact ⟨by norm_num, by norm_num⟩

/-- the hypotheses of `C94` on the encoder can be met: zeroed buffers of the documented lengths, 32 kHz -/
example {el : Elem} (he : Accurate el) {E : Encoder F32} {ib' : List ℤ} {sb' : List F32} {cb' : List (Cx F32)} {m : ℕ}
    (hnew : @Encoder.new F32 (scalar el) 2 .tenMs .hz32000 (List.replicate m 0) (List.replicate m (fin 0)) (List.replicate m ⟨fin 0, fin 0⟩)
      = .ok (E, ib', sb', cb')) {b0 b1 l0 l1 : List ℕ} {E' : Encoder F32}
    (hrun : @runEncCalls F32 (scalar el) [⟨0, List.replicate 320 32767, b0⟩, ⟨1, List.replicate 320 (-32768), b1⟩] E = .ok ([l0, l1], E')) :
    FiniteEncoder E' := by
  refine (C94 he ?_ ?_ hnew ?_ hrun).1
  · intro a ha
    rw [(List.mem_replicate.1 ha).2]
    exact bd_zero (by norm_num)
  · intro v hv
    rw [(List.mem_replicate.1 hv).2]
    exact ⟨by norm_num, by norm_num⟩
  · intro c hc v hv
    simp only [List.mem_cons, List.not_mem_nil, or_false] at hc
    rcases hc with rfl | rfl
    · rw [(List.mem_replicate.1 hv).2]
      exact ⟨by norm_num, by norm_num⟩
    · rw [(List.mem_replicate.1 hv).2]
      exact ⟨by norm_num, by norm_num⟩

end Lc3.F32
