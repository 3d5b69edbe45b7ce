import Verif.Lemmas.FinLtpfRun
import Verif.Lemmas.ShortFrames
/-! Sizes in the decoder in binary32: a whole channel. -/

namespace Lc3.F32
open Scalar Tables Spec

variable {el : Elem}

theorem AllBd.finite {B : ℝ} {l : List F32} (h : AllBd B l) : Finite l := fun a ha => (h a ha).1

/-- the state of a channel is finite and bounded -/
structure ChFin (f : SamplingFrequency) (d : FrameDuration) (ch : DecChannel F32) : Prop where
  inv : @ChInv F32 f d ch
  spec : AllBd (131 / 100 * 2 ^ 91) ch.specLines
  freq : AllBd (2 ^ 108) ch.freqSamples
  good : AllBd (13 / 10 * 2 ^ 91) ch.plc.lastGood
  alpha : Bd 1 ch.plc.alpha
  ola : AllBd (2 ^ 101) ch.memOla
  ltpf : LtpfFin f d ch.ltpf
  num : Finite ch.ltpf.cNum
  den : Finite ch.ltpf.cDen
  numMem : Finite ch.ltpf.cNumMem
  denMem : Finite ch.ltpf.cDenMem

theorem ChFin.finite {f : SamplingFrequency} {d : FrameDuration} {ch : DecChannel F32} (h : ChFin f d ch) : FiniteChannel ch :=
  ⟨h.spec.finite, h.freq.finite, h.good.finite, h.alpha.1, h.ola.finite, h.num, h.den, h.numMem, h.denMem, h.ltpf.x.finite, h.ltpf.y.finite⟩

/-- the spectrum of a frame or its concealment -/
theorem bd_decodeSpectrum (he : Tame el) {f : SamplingFrequency} {d : FrameDuration} {ch : DecChannel F32} (h : ChFin f d ch)
    {buf : List ℕ} (hb : buf.length < 2 ^ 28) {lines : List F32} {plc : Plc F32} {info : LtpfInfo}
    (e : @decodeSpectrum F32 (scalar el) false (Lc3Config.new f d) ch buf = .ok (lines, plc, info)) :
    lines.length = (Lc3Config.new f d).ne ∧ info.pitchIndex < 512 ∧ AllBd (131 / 100 * 2 ^ 91) lines ∧ AllBd (13 / 10 * 2 ^ 91) plc.lastGood ∧
      Bd 1 plc.alpha := by
  letI := scalar el
  have hfs : (Lc3Config.new f d).fsInd ≤ 4 := by cases f <;> cases d <;> decide
  have hne : (Lc3Config.new f d).ne ≤ 400 := by cases f <;> cases d <;> decide
  unfold decodeSpectrum at e
  cases er : readFrame false (Lc3Config.new f d) buf with
  | panic => rw [er] at e; simp at e
  | err =>
    rw [er] at e
    simp only [Res.ok.injEq, Prod.mk.injEq] at e
    obtain ⟨rfl, rfl, rfl⟩ := e
    unfold Plc.loadInto
    refine ⟨?_, by decide, ?_, h.good, bd_plcAlpha h.alpha⟩
    · simp [plcLoop_length, h.inv.spec]
    · exact bd_plcLoop (bd_plcAlpha h.alpha) _ _ _ (h.inv.spec.trans h.inv.plcLen.symm) h.good
  | ok p =>
    obtain ⟨si, ad, x⟩ := p
    have hr := safe_readFrame f d buf (readFrame_long er)
    rw [er] at hr e
    obtain ⟨h1, h2⟩ := hr
    simp only at h1 h2 e
    obtain ⟨l, k1, e⟩ := bind_ok_inv e
    obtain ⟨p', k2, e⟩ := bind_ok_inv e
    simp only [Res.ok.injEq, Prod.mk.injEq] at e
    obtain ⟨rfl, rfl, rfl⟩ := e
    have hlen := safe_specFromFrame h1 h2 h.inv.spec
    rw [k1] at hlen
    have hl : l.length = (Lc3Config.new f d).ne := hlen
    unfold specFromFrame at k1
    obtain ⟨l1, m1, k1⟩ := bind_ok_inv k1
    obtain ⟨l2, m2, k1⟩ := bind_ok_inv k1
    have b1 := bd_dequantise he hfs h.inv.spec (by rw [h2.nbits]; omega) h1.gg h1.noise h2.values m1
    have hl1 := safe_dequantise h1 h2 h.inv.spec
    rw [m1] at hl1
    have hl1' : l1.length = (Lc3Config.new f d).ne := hl1
    obtain ⟨-, b2⟩ := bd_tnsDecode he (by omega) h2.orders.2 h2.idxs.2 b1 m2
    obtain ⟨-, b3⟩ := bd_snsDecode he b2 k1
    unfold Plc.save at k2
    split at k2
    · cases k2
    · simp only [Res.ok.injEq] at k2
      subst k2
      exact ⟨hl, h1.pitch, b3.mono (by norm_num), (b3.take _).append (h.good.drop _), bd_one⟩

/-- one frame on one channel -/
theorem bd_decodeChannel (he : Tame el) {f : SamplingFrequency} {d : FrameDuration} {ch : DecChannel F32} (h : ChFin f d ch)
    {checks : Bool} {bits : ℕ} {buf : List ℕ} (hb : buf.length < 2 ^ 28) {out : List ℤ} {r : DecResult × DecChannel F32 × List ℤ}
    (e : @decodeChannel F32 (scalar el) checks (Lc3Config.new f d) ch bits buf out = .ok r) : ChFin f d r.2.1 := by
  letI := scalar el
  have hinv := (decodeChannel_inv h.inv e).1
  have e' : decodeChannel false (Lc3Config.new f d) ch bits buf out = .ok r := by
    cases checks with
    | false => exact e
    | true =>
      rcases decodeChannel_checks (Lc3Config.new f d) ch bits buf out with h | h
      · rw [h] at e; simp at e
      · rw [← h]; exact e
  clear e
  unfold decodeChannel at e'
  split at e'
  · simp only [Res.ok.injEq] at e'
    subst e'
    exact h
  obtain ⟨⟨lines, plc, info⟩, k1, e'⟩ := bind_ok_inv e'
  obtain ⟨s1, s2, s3, s4, s5⟩ := bd_decodeSpectrum he h hb k1
  simp only at e'
  rw [if_neg (by simp [h.inv.freq])] at e'
  obtain ⟨⟨ola, freq⟩, k2, e'⟩ := bind_ok_inv e'
  obtain ⟨t1, t2, t3⟩ := bd_mdctDecRun he.toAccurate f d s1 s3 h.inv.ola h.ola k2
  simp only at e'
  obtain ⟨ls, o, k3, hlf, ho, hol⟩ := run_bd (el := el) h.ltpf s2 (buf.length * 8) t1 t3
  have hco := @ltpfCoeffs_ok F32 (scalar el) f d ch.ltpf info (buf.length * 8) h.inv.ltpf.cn h.inv.ltpf.cd
  have hpar := @ltpfParams_ok F32 (scalar el) f d info s2 (buf.length * 8)
  have c := coefOk_setting (el := el) f d info (buf.length * 8)
  have hcs : Finite ls.cNum ∧ Finite ls.cDen ∧ Finite ls.cNumMem ∧ Finite ls.cDenMem := by
    have m := k3
    unfold ltpfRun at m
    rw [hpar] at m
    simp only [Res.bind_ok] at m
    rw [hco] at m
    simp only [Res.bind_ok] at m
    split at m
    · cases m
    obtain ⟨y, -, m⟩ := bind_ok_inv m
    split at m
    · cases m
    simp only [Res.ok.injEq, Prod.mk.injEq] at m
    obtain ⟨rfl, -⟩ := m
    exact ⟨c.nFin, c.dFin, h.num, h.den⟩
  have k3' : ltpfRun (Lc3Config.new f d) ch.ltpf info (buf.length * 8) freq = .ok (ls, o) := k3
  rw [k3'] at e'
  simp only [Res.bind_ok, Res.ok.injEq] at e'
  subst e'
  exact ⟨hinv, s3, ho, s4, s5, t2, hlf, hcs.1, hcs.2.1, hcs.2.2.1, hcs.2.2.2⟩

theorem bd_splitAt {B : ℝ} {γ : Type} {l : List F32} (h : AllBd B l) {n : ℕ} {k : List F32 × List F32 → Res γ} {r : γ}
    (e : (splitAt l n >>= k) = .ok r) : AllBd B (l.take n) ∧ AllBd B (l.drop n) ∧ k (l.take n, l.drop n) = .ok r :=
  ⟨h.take _, h.drop _, (bind_splitAt e).2⟩

/-- a new channel -/
theorem bd_decChannelNew {f : SamplingFrequency} {d : FrameDuration} {sb sb' : List F32} {cb cb' : List (Cx F32)} {ch : DecChannel F32}
    (h : AllBd (2 ^ 80) sb) (e : @decChannelNew F32 (scalar el) (Lc3Config.new f d) sb cb = .ok (ch, sb', cb')) :
    ChFin f d ch ∧ AllBd (2 ^ 80) sb' := by
  letI := scalar el
  have hinv : @ChInv F32 f d ch := by
    obtain ⟨u1, u2⟩ := decChannelNew_uses e
    obtain ⟨ch', e', hi⟩ := @decChannelNew_ok F32 (scalar el) f d sb cb (by omega) (by omega)
    have : decChannelNew (Lc3Config.new f d) sb cb = _ := e'
    rw [this] at e
    simp only [Res.ok.injEq, Prod.mk.injEq] at e
    obtain ⟨rfl, -, -⟩ := e
    exact hi
  unfold decChannelNew at e
  obtain ⟨a1, h, e⟩ := bd_splitAt h e
  obtain ⟨⟨p, sb1⟩, h1, e⟩ := bind_ok_inv e
  obtain ⟨⟨m, sb2, cb1⟩, h2, e⟩ := bind_ok_inv e
  obtain ⟨⟨l, sb3⟩, h3, e⟩ := bind_ok_inv e
  unfold Plc.new at h1
  obtain ⟨b1, h, h1⟩ := bd_splitAt h h1
  simp only [Res.ok.injEq, Prod.mk.injEq] at h1
  obtain ⟨rfl, rfl⟩ := h1
  unfold mdctDecNew at h2
  obtain ⟨_, -, h2⟩ := bind_ok_inv h2
  obtain ⟨_, -, h2⟩ := bind_ok_inv h2
  obtain ⟨c1, h, h2⟩ := bd_splitAt h h2
  obtain ⟨-, h, h2⟩ := bd_splitAt h h2
  obtain ⟨_, -, h2⟩ := bind_ok_inv h2
  obtain ⟨-, h, h2⟩ := bd_splitAt h h2
  obtain ⟨-, h, h2⟩ := bd_splitAt h h2
  obtain ⟨_, -, h2⟩ := bind_ok_inv h2
  simp only [Res.ok.injEq, Prod.mk.injEq] at h2
  obtain ⟨rfl, rfl, rfl⟩ := h2
  unfold Ltpf.new at h3
  obtain ⟨d1, h, h3⟩ := bd_splitAt h h3
  obtain ⟨d2, h, h3⟩ := bd_splitAt h h3
  obtain ⟨d3, h, h3⟩ := bd_splitAt h h3
  obtain ⟨d4, h, h3⟩ := bd_splitAt h h3
  obtain ⟨d5, h, h3⟩ := bd_splitAt h h3
  obtain ⟨d6, h, h3⟩ := bd_splitAt h h3
  obtain ⟨-, h, h3⟩ := bd_splitAt h h3
  obtain ⟨-, h, h3⟩ := bd_splitAt h h3
  simp only [Res.ok.injEq, Prod.mk.injEq] at h3
  obtain ⟨rfl, rfl⟩ := h3
  obtain ⟨g1, h, e⟩ := bd_splitAt h e
  simp only [Res.ok.injEq, Prod.mk.injEq] at e
  obtain ⟨rfl, rfl, rfl⟩ := e
  exact ⟨⟨hinv, a1.mono (by norm_num), g1.mono (by norm_num), b1.mono (by norm_num), bd_one, c1.mono (by norm_num),
    ⟨hinv.ltpf, by simp, d1.mono (by norm_num), d2.mono (by norm_num)⟩, d3.finite, d4.finite, d5.finite, d6.finite⟩, h⟩

theorem bd_decChannelsNew {f : SamplingFrequency} {d : FrameDuration} : ∀ {n : ℕ} {sb sb' : List F32} {cb cb' : List (Cx F32)}
    {chs : List (DecChannel F32)}, AllBd (2 ^ 80) sb → @decChannelsNew F32 (scalar el) (Lc3Config.new f d) n sb cb = .ok (chs, sb', cb') →
    ∀ ch ∈ chs, ChFin f d ch
  | 0, _, _, _, _, _, _, h => by
    letI := scalar el
    simp only [decChannelsNew, Res.ok.injEq, Prod.mk.injEq] at h
    obtain ⟨rfl, rfl, rfl⟩ := h
    simp
  | n + 1, sb, sb', cb, cb', chs, hb, h => by
    letI := scalar el
    obtain ⟨⟨ch, sb1, cb1⟩, h1, h⟩ := bind_ok_inv h
    obtain ⟨⟨chs1, sb2, cb2⟩, h2, h⟩ := bind_ok_inv h
    obtain ⟨a1, a2⟩ := bd_decChannelNew hb h1
    have ih := bd_decChannelsNew (n := n) a2 h2
    simp only [Res.ok.injEq, Prod.mk.injEq] at h
    obtain ⟨rfl, rfl, rfl⟩ := h
    intro c hc
    rcases List.mem_cons.1 hc with rfl | hc
    · exact a1
    · exact ih c hc

end Lc3.F32
