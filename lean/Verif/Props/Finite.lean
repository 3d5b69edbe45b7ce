import Verif.Lemmas.FinDecoder
import Verif.Props.DecoderSafety
/-!
# Property C93: the decoder never produces a NaN or an infinity

The decoder in binary32 (`F32`), every operation rounded to nearest, with any elementary functions of the accuracy `F32.Tame`.
-/

namespace Lc3
open Scalar Spec

namespace F32

/-- elementary functions with the assumed accuracy exist -/
theorem exists_tame : ∃ el, Tame el := by
  have near : ∀ x e : ℝ, 0 < e → ∃ c : ℚ, |(c : ℝ) - x| ≤ e := by
    intro x e he
    obtain ⟨c, h1, h2⟩ := exists_rat_btwn (show x - e < x + e by linarith)
    exact ⟨c, abs_le.2 ⟨by linarith, by linarith⟩⟩
  have hsq : ∀ q : ℚ, ∃ r : ℚ, 0 ≤ q → |(r : ℝ) - Real.sqrt q| ≤ Real.sqrt q / 2 ^ 24 := by
    intro q
    rcases lt_trichotomy q 0 with h | h | h
    · exact ⟨0, fun h' => absurd h' (by linarith)⟩
    · exact ⟨0, fun _ => by rw [h]; norm_num⟩
    · have h' : (0 : ℝ) < q := by exact_mod_cast h
      obtain ⟨r, hr⟩ := near (Real.sqrt q) (Real.sqrt q / 2 ^ 24) (div_pos (Real.sqrt_pos.2 h') (by norm_num))
      exact ⟨r, fun _ => hr⟩
  choose cs hcs using fun q : ℚ => near (Real.cos (q * Real.pi)) (1 / 2 ^ 24) (by norm_num)
  choose sn hsn using fun q : ℚ => near (Real.sin (q * Real.pi)) (1 / 2 ^ 24) (by norm_num)
  choose sq hsq using hsq
  obtain ⟨pc, hpc⟩ := near (Real.pi / 17) (1 / 2 ^ 20) (by norm_num)
  choose si hsi using fun q : ℚ => near (Real.sin q) (1 / 2 ^ 20) (by norm_num)
  choose pw hpw using fun q : ℚ => near ((10 : ℝ) ^ (q : ℝ)) ((10 : ℝ) ^ (q : ℝ) / 100) (by positivity)
  choose ex hex using fun q : ℚ => near ((2 : ℝ) ^ (q : ℝ)) ((2 : ℝ) ^ (q : ℝ)) (by positivity)
  refine ⟨⟨fun a => match a with | fin q => fin (sq q) | _ => nan, fun a => match a with | fin q => fin (si q) | _ => nan,
    fun q => fin (cs q), fun q => fin (sn q), fin pc, fun a => match a with | fin q => fin (pw q) | _ => nan,
    fun a => match a with | fin q => fin (ex q) | _ => nan, fun a => a, fun a => a, fun a => a, fun a => a, fun a _ => a⟩,
    ⟨?_, ?_, ?_⟩, ?_, ?_, ?_, ?_⟩
  · exact fun q => ⟨cs q, rfl, hcs q⟩
  · exact fun q => ⟨sn q, rfl, hsn q⟩
  · exact fun q hq => ⟨sq q, rfl, hsq q hq⟩
  · exact ⟨pc, rfl, hpc⟩
  · exact fun q _ => ⟨si q, rfl, hsi q⟩
  · exact fun q _ => ⟨pw q, rfl, hpw q⟩
  · intro q _
    refine ⟨ex q, rfl, ?_⟩
    have h := hex q
    have h0 : 0 < (2 : ℝ) ^ (q : ℝ) := by positivity
    have := abs_sub_abs_le_abs_sub (ex q : ℝ) ((2 : ℝ) ^ (q : ℝ))
    rw [abs_of_pos h0] at this
    linarith

/-- all channels are finite and bounded -/
def DecFin (f : SamplingFrequency) (d : FrameDuration) (D : Decoder F32) : Prop :=
  D.config = Lc3Config.new f d ∧ ∀ ch ∈ D.channels, ChFin f d ch

theorem DecFin.finite {f : SamplingFrequency} {d : FrameDuration} {D : Decoder F32} (h : DecFin f d D) : FiniteDecoder D :=
  fun ch hch => (h.2 ch hch).finite

theorem decFin_frame {el : Elem} (he : Tame el) {f : SamplingFrequency} {d : FrameDuration} {D D' : Decoder F32} (h : DecFin f d D)
    {checks : Bool} {bits ch : ℕ} {buf : List ℕ} (hb : buf.length < 2 ^ 28) {out out' : List ℤ} {r : DecResult}
    (e : @decodeFrame F32 (scalar el) checks D bits ch buf out = .ok (r, D', out')) : DecFin f d D' := by
  letI := scalar el
  obtain ⟨hc, hi⟩ := h
  unfold decodeFrame at e
  cases hch : D.channels[ch]? with
  | none => rw [hch] at e; simp at e
  | some c =>
    rw [hch] at e
    simp only at e
    rw [hc] at e
    obtain ⟨⟨r', c', o'⟩, h1, e⟩ := bind_ok_inv e
    simp only [Res.ok.injEq, Prod.mk.injEq] at e
    obtain ⟨rfl, rfl, rfl⟩ := e
    have h2 := bd_decodeChannel he (hi c (List.mem_of_getElem? hch)) hb h1
    refine ⟨rfl, fun x hx => ?_⟩
    rcases List.mem_or_eq_of_mem_set hx with hx | rfl
    · exact hi x hx
    · exact h2

theorem decFin_calls {el : Elem} (he : Tame el) {f : SamplingFrequency} {d : FrameDuration} {checks : Bool} :
    ∀ (cs : List Call) {D D' : Decoder F32} {l : List (DecResult × List ℤ)}, DecFin f d D → (∀ c ∈ cs, c.frame.length < 2 ^ 28) →
    @runCalls F32 (scalar el) checks cs D = .ok (l, D') → DecFin f d D'
  | [], D, D', l, h, _, e => by
    letI := scalar el
    simp only [runCalls, Res.ok.injEq, Prod.mk.injEq] at e
    obtain ⟨-, rfl⟩ := e
    exact h
  | c :: cs, D, D', l, h, hb, e => by
    letI := scalar el
    rw [runCalls] at e
    obtain ⟨⟨r, D1, o⟩, h1, e⟩ := bind_ok_inv e
    obtain ⟨⟨l1, D2⟩, h2, e⟩ := bind_ok_inv e
    simp only [Res.ok.injEq, Prod.mk.injEq] at e
    obtain ⟨-, rfl⟩ := e
    exact decFin_calls he cs (decFin_frame he h (hb c (by simp)) h1) (fun q hq => hb q (by simp [hq])) h2

theorem decFin_new {el : Elem} {f : SamplingFrequency} {d : FrameDuration} {n : ℕ} {sb sb' : List F32} {cb cb' : List (Cx F32)}
    {D : Decoder F32} (hsb : ∀ v ∈ sb, Moderate v) (hnew : @Decoder.new F32 (scalar el) n d f sb cb = .ok (D, sb', cb')) : DecFin f d D := by
  letI := scalar el
  unfold Decoder.new at hnew
  obtain ⟨⟨chs, s1, c1⟩, h1, e⟩ := bind_ok_inv hnew
  simp only [Res.ok.injEq, Prod.mk.injEq] at e
  obtain ⟨rfl, rfl, rfl⟩ := e
  exact ⟨rfl, bd_decChannelsNew (fun v hv => hsb v hv) h1⟩

end F32

open F32

/-- **C93.** Nothing in the decoder ever becomes a NaN or an infinity in binary32: for every configuration and number of channels, a
decoder made from working buffers that hold finite values up to `2 ^ 80`, any sequence of calls on any channels with any frames
(valid, damaged, concealed; of fewer than `2 ^ 28` bytes), with or without overflow checks. As long as the calls return, all
numbers the decoder holds are finite, in particular the samples before their conversion to integers. -/
theorem C93 {el : Elem} (he : Tame el) {f : SamplingFrequency} {d : FrameDuration} {n : ℕ} {sb sb' : List F32} {cb cb' : List (Cx F32)}
    {D D' : Decoder F32} (hsb : ∀ v ∈ sb, Moderate v) (hnew : @Decoder.new F32 (scalar el) n d f sb cb = .ok (D, sb', cb'))
    {checks : Bool} {cs : List Call} (hcs : ∀ c ∈ cs, c.frame.length < 2 ^ 28) {l : List (DecResult × List ℤ)}
    (hrun : @runCalls F32 (scalar el) checks cs D = .ok (l, D')) : FiniteDecoder D ∧ FiniteDecoder D' :=
  ⟨(decFin_new hsb hnew).finite, (decFin_calls he cs (decFin_new hsb hnew) hcs hrun).finite⟩

theorem runCalls_total {el : Elem} {f : SamplingFrequency} {d : FrameDuration} :
    ∀ (cs : List Call) (D : Decoder F32), @Reachable F32 (scalar el) f d D →
      (∀ c ∈ cs, c.channel < D.channels.length ∧ c.frame.length ∉ panicLengths f d) →
      ∃ l D', @runCalls F32 (scalar el) false cs D = .ok (l, D')
  | [], D, _, _ => ⟨[], D, rfl⟩
  | c :: cs, D, hD, h => by
    letI := scalar el
    obtain ⟨h1, h2⟩ := h c (by simp)
    obtain ⟨r, D1, o, e⟩ := C06_partial hD (bits := c.bits) h1 h2 c.out
    have hlen : D1.channels.length = D.channels.length := by
      have e' := e
      unfold decodeFrame at e'
      rw [List.getElem?_eq_getElem h1] at e'
      simp only at e'
      obtain ⟨⟨r', c', o'⟩, -, e'⟩ := bind_ok_inv e'
      simp only [Res.ok.injEq, Prod.mk.injEq] at e'
      obtain ⟨-, rfl, -⟩ := e'
      simp
    obtain ⟨l, D', e2⟩ := runCalls_total cs D1 (.call hD e) (fun q hq => by rw [hlen]; exact h q (by simp [hq]))
    refine ⟨(r, o) :: l, D', ?_⟩
    rw [runCalls, e, Res.bind_ok]
    simp only
    rw [show runCalls false cs D1 = _ from e2, Res.bind_ok]

/-- **C93, with termination.** Without overflow checks, and for frames whose length is not one of the few below 8 bytes of C06, the calls
return and everything stays finite. -/
theorem C93_returns {el : Elem} (he : Tame el) {f : SamplingFrequency} {d : FrameDuration} {n : ℕ} {sb sb' : List F32} {cb cb' : List (Cx F32)}
    {D : Decoder F32} (hsb : ∀ v ∈ sb, Moderate v) (hnew : @Decoder.new F32 (scalar el) n d f sb cb = .ok (D, sb', cb'))
    {cs : List Call} (hcs : ∀ c ∈ cs, c.channel < D.channels.length ∧ c.frame.length < 2 ^ 28 ∧ c.frame.length ∉ panicLengths f d) :
    ∃ l D', @runCalls F32 (scalar el) false cs D = .ok (l, D') ∧ FiniteDecoder D' := by
  obtain ⟨l, D', e⟩ := runCalls_total cs D (@Reachable.new F32 (scalar el) f d _ _ _ _ _ _ hnew) (fun c hc => ⟨(hcs c hc).1, (hcs c hc).2.2⟩)
  exact ⟨l, D', e, (C93 he hsb hnew (fun c hc => (hcs c hc).2.1) e).2⟩

/-- non-trivial instance of `C93_returns`: two channels at 48 kHz from zeroed buffers, any sequence of frames of 20 to 400 arbitrary bytes -/
example (cs : List Call) (h : ∀ c ∈ cs, c.channel < 2 ∧ 20 ≤ c.frame.length ∧ c.frame.length ≤ 400) :
    ∃ el D sb' cb' l D', Tame el ∧
      @Decoder.new F32 (scalar el) 2 .tenMs .hz48000 (List.replicate (2 * chanScalars (Lc3Config.new .hz48000 .tenMs)) (fin 0))
        (List.replicate (2 * chanComplex (Lc3Config.new .hz48000 .tenMs)) ⟨fin 0, fin 0⟩) = .ok (D, sb', cb') ∧
      @runCalls F32 (scalar el) false cs D = .ok (l, D') ∧ FiniteDecoder D' := by
  obtain ⟨el, he⟩ := exists_tame
  obtain ⟨chs, e, hl, -⟩ := @decChannelsNew_ok F32 (scalar el) .hz48000 .tenMs 2
    (List.replicate (2 * chanScalars (Lc3Config.new .hz48000 .tenMs)) (fin 0))
    (List.replicate (2 * chanComplex (Lc3Config.new .hz48000 .tenMs)) ⟨fin 0, fin 0⟩) (by rw [List.length_replicate]) (by rw [List.length_replicate])
  obtain ⟨s1, c1, hnew⟩ : ∃ s1 c1, @Decoder.new F32 (scalar el) 2 .tenMs .hz48000
      (List.replicate (2 * chanScalars (Lc3Config.new .hz48000 .tenMs)) (fin 0))
      (List.replicate (2 * chanComplex (Lc3Config.new .hz48000 .tenMs)) ⟨fin 0, fin 0⟩) = .ok (⟨Lc3Config.new .hz48000 .tenMs, chs⟩, s1, c1) := by
    unfold Decoder.new
    simp only
    rw [e]
    exact ⟨_, _, rfl⟩
  obtain ⟨l, D', h1, h2⟩ := C93_returns he (fun v hv => by
    rw [List.eq_of_mem_replicate hv]
    exact ⟨⟨0, rfl⟩, by show |((0 : ℚ) : ℝ)| ≤ 2 ^ 80; norm_num⟩) hnew (cs := cs) (fun c hc => by
    obtain ⟨a, b, c⟩ := h c hc
    refine ⟨by simpa [hl] using a, by omega, ?_⟩
    simp [panicLengths]
    omega)
  exact ⟨el, _, _, _, l, D', he, hnew, h1, h2⟩

end Lc3
