import Verif.Lemmas.EncAnalyse32
import Verif.Lemmas.EncNoErr
import Verif.Lemmas.F32Eval
import Verif.Props.FiniteEnc
/-!
# C98: when the analysis of the encoder returns in binary32

The analysis of a frame in the arithmetic the code uses, for elementary functions of the accuracy `EncFunctions`: it returns or panics,
and `Encodable` says exactly for which signals it returns.
-/

namespace Lc3
open Scalar Tables Spec
namespace F32

/-- **C98** For every channel of an encoder, every frame of 16 bit samples and every frame length from 32 bytes on: the analysis returns
if and only if the chosen shape of the noise shaping quantiser can be written and no reflection coefficient of the temporal noise
shaping is `±1`. -/
theorem C98 {el : Elem} (he : EncFunctions el) {f : SamplingFrequency} {d : FrameDuration} {ch : EncChannel F32}
    (hi : ch.Inv (Lc3Config.new f d)) (hfr : ∀ v ∈ ch.freq, IsSample v) {x : List Int}
    (hx : x.length = (Lc3Config.new f d).nf) (hxs : ∀ v ∈ x, IsSample v) {nbytes : Nat} (hN0 : 32 ≤ nbytes) (hN : nbytes < 4096) :
    (∃ a, @encAnalyse F32 (scalar el) (Lc3Config.new f d) ch x nbytes = .ok a) ↔ Encodable el (Lc3Config.new f d) ch x nbytes := by
  constructor
  · rintro ⟨a, h⟩
    exact encodable_of_returns he hi h
  · intro h
    obtain ⟨a, e, -⟩ := encAnalyse_returns32 he hi hfr hx hxs hN0 hN h
    exact ⟨a, e⟩

/-- **C98** (finite) The lines that reach the quantiser are finite and at most `2 ^ 76`. -/
theorem C98_lines {el : Elem} (he : EncFunctions el) {f : SamplingFrequency} {d : FrameDuration} {ch : EncChannel F32}
    (hi : ch.Inv (Lc3Config.new f d)) (hfr : ∀ v ∈ ch.freq, IsSample v) {x : List Int}
    (hx : x.length = (Lc3Config.new f d).nf) (hxs : ∀ v ∈ x, IsSample v) {nbytes : Nat} (hN0 : 32 ≤ nbytes) (hN : nbytes < 4096)
    {a : EncAnalysis F32} (h : @encAnalyse F32 (scalar el) (Lc3Config.new f d) ch x nbytes = .ok a) :
    ∀ y ∈ a.lines, IsFin y ∧ |val y| ≤ 2 ^ 76 := by
  obtain ⟨a', e, hb⟩ := encAnalyse_returns32 he hi hfr hx hxs hN0 hN (encodable_of_returns he hi h)
  rw [h] at e
  cases e
  exact hb

/-- **C98** (otherwise) For all other signals it panics; there is no error the caller could handle. -/
theorem C98_panics {el : Elem} (he : EncFunctions el) {f : SamplingFrequency} {d : FrameDuration} {ch : EncChannel F32}
    (hi : ch.Inv (Lc3Config.new f d)) (hfr : ∀ v ∈ ch.freq, IsSample v) {x : List Int}
    (hx : x.length = (Lc3Config.new f d).nf) (hxs : ∀ v ∈ x, IsSample v) {nbytes : Nat} (hN0 : 32 ≤ nbytes) (hN : nbytes < 4096)
    (hr : ¬ Encodable el (Lc3Config.new f d) ch x nbytes) :
    @encAnalyse F32 (scalar el) (Lc3Config.new f d) ch x nbytes = .panic := by
  letI := scalar el
  have hnb := nb_of_inv hi
  have hi' := hi
  obtain ⟨hfreq, hbw, hltpf, hout, heb, hxq⟩ := hi'
  have hfs : (Lc3Config.new f d).fsInd ≤ 4 := by cases f <;> cases d <;> decide
  have hne : (Lc3Config.new f d).ne ≤ (Lc3Config.new f d).nf := by cases f <;> cases d <;> decide
  have hfl : ch.freq.length = 2 * (Lc3Config.new f d).nf := by rw [hfreq, Nat.mul_comm]
  obtain ⟨freq, eb, nn, out, e1, hol⟩ := mdctEncRun_returns (α := F32) (f := f) (d := d) hfl hx
  have hebl : eb.length = 64 := by rw [(mdctEncRun_eb e1).2, hnb]
  obtain ⟨bw, nbw, e2, hbwle, -, -⟩ := C34 _ hfs hbw hebl
  obtain ⟨att, det, e3⟩ := attackRun_returns (f := f) (d := d) ch.attack nbytes hx
  have htl : (out.take (Lc3Config.new f d).ne).length = (Lc3Config.new f d).ne := by rw [List.length_take]; omega
  have hs := noErr_snsEncRun (Lc3Config.new f d) (out.take (Lc3Config.new f d).ne) eb det
  have key : ∀ sns, snsEncRun (Lc3Config.new f d) (out.take (Lc3Config.new f d).ne) eb det = .ok sns →
      tnsEncRun (Lc3Config.new f d) sns.x bw (nbytes * 8) nn = .panic := by
    intro sns e4
    cases e5 : tnsEncRun (Lc3Config.new f d) sns.x bw (nbytes * 8) nn with
    | panic => rfl
    | err => exact absurd e5 (noErr_tnsEncRun _ _ _ _ _)
    | ok tns =>
      refine absurd ⟨?_, ?_⟩ hr
      · intro freq' out' eb' nn' att' det' scf lf hf st1 r1 g1 g2 g3 g4
        rw [e1] at g1
        cases g1
        rw [e3] at g2
        cases g2
        exact (snsEncRun_iff el hnb htl hebl).1 ⟨sns, e4⟩ _ _ _ _ _ g3 g4
      · intro freq' out' eb' nn' bw' nbw' att' det' sns' g1 g2 g3 g4
        rw [e1] at g1
        cases g1
        rw [e2] at g2
        cases g2
        rw [e3] at g3
        cases g3
        rw [e4] at g4
        cases g4
        exact (stable_iff_noUnit he).1 (tnsEncRun_stable32 el e5)
  unfold encAnalyse
  simp only
  rw [if_neg (by simp [hout, heb]), e1, Res.bind_ok]
  simp only
  rw [if_neg (by omega), e2, Res.bind_ok]
  simp only
  rw [e3, Res.bind_ok]
  simp only
  cases e4 : snsEncRun (Lc3Config.new f d) (out.take (Lc3Config.new f d).ne) eb det with
  | panic => rfl
  | err => exact absurd e4 hs
  | ok sns =>
    rw [Res.bind_ok, key sns e4]
    rfl

/-- **C98** (next frame) The conditions on the channel survive a frame. -/
theorem C98_next {el : Elem} {f : SamplingFrequency} {d : FrameDuration} {ch ch' : EncChannel F32} {x : List Int} {buf bytes : List Nat}
    (hi : ch.Inv (Lc3Config.new f d)) (hfr : ∀ v ∈ ch.freq, IsSample v) (hxs : ∀ v ∈ x, IsSample v)
    (h : @encodeChannel F32 (scalar el) (Lc3Config.new f d) ch x buf = .ok (ch', bytes)) :
    ch'.Inv (Lc3Config.new f d) ∧ ∀ v ∈ ch'.freq, IsSample v := by
  letI := scalar el
  refine ⟨encodeChannel_keeps hi h, ?_⟩
  unfold encodeChannel at h
  obtain ⟨a, ha, h⟩ := bind_ok_inv h
  obtain ⟨b, -, h⟩ := bind_ok_inv h
  simp only [Res.ok.injEq, Prod.mk.injEq] at h
  obtain ⟨rfl, -⟩ := h
  obtain ⟨freq, out, eb, nn, bwInd, nbitsBw, attack, det, sns, tns, ltpf, pf, quant, spec, res, nf, e1, -, -, -, -, -, e7, -, -, -,
    rfl⟩ := encAnalyse_inv ha
  simp only
  unfold mdctEncRun at e1
  split at e1
  · cases e1
  obtain ⟨fr, e2, e1⟩ := bind_ok_inv e1
  obtain ⟨w, -, e1⟩ := bind_ok_inv e1
  obtain ⟨o, -, e1⟩ := bind_ok_inv e1
  obtain ⟨t, -, e1⟩ := bind_ok_inv e1
  obtain ⟨eb', -, e1⟩ := bind_ok_inv e1
  obtain ⟨nn', -, e1⟩ := bind_ok_inv e1
  simp only [Res.ok.injEq, Prod.mk.injEq] at e1
  obtain ⟨rfl, -⟩ := e1
  unfold mdctUpdate at e2
  obtain ⟨n, -, e2⟩ := bind_ok_inv e2
  split at e2
  · cases e2
  simp only [Res.ok.injEq] at e2
  subst e2
  intro v hv
  rcases List.mem_append.1 hv with hv | hv
  · rcases List.mem_append.1 hv with hv | hv
    · exact hfr v (List.mem_of_mem_drop (List.mem_of_mem_take hv))
    · exact hxs v hv
  · exact hfr v (List.mem_of_mem_drop hv)

theorem encChannelNew_samples {el : Elem} {cfg : Lc3Config} {ib ib' : List ℤ} {sb sb' : List F32} {cb cb' : List (Cx F32)} {ch : EncChannel F32}
    (h : @encChannelNew F32 (scalar el) cfg ib sb cb = .ok (ch, ib', sb', cb')) : (∀ v ∈ ch.freq, v ∈ ib) ∧ ∀ v ∈ ib', v ∈ ib := by
  letI := scalar el
  unfold encChannelNew mdctEncNew at h
  obtain ⟨⟨freq, i1, c1⟩, e1, h⟩ := bind_ok_inv h
  obtain ⟨⟨freq', i1'⟩, e11, e1⟩ := bind_ok_inv e1
  obtain ⟨c2, e12, e1⟩ := bind_ok_inv e1
  obtain ⟨w1, e13, e1⟩ := bind_ok_inv e1
  obtain ⟨w2, e14, e1⟩ := bind_ok_inv e1
  simp only [Res.ok.injEq, Prod.mk.injEq] at e1
  obtain ⟨rfl, rfl, rfl⟩ := e1
  obtain ⟨bw, e2, h⟩ := bind_ok_inv h
  obtain ⟨⟨ltpf, s1, i2⟩, e3, h⟩ := bind_ok_inv h
  obtain ⟨⟨out, s2⟩, e4, h⟩ := bind_ok_inv h
  obtain ⟨⟨eb, s3⟩, e5, h⟩ := bind_ok_inv h
  obtain ⟨⟨xq, i3⟩, e6, h⟩ := bind_ok_inv h
  simp only [Res.ok.injEq, Prod.mk.injEq] at h
  obtain ⟨rfl, rfl, rfl, -⟩ := h
  refine ⟨(splitAt_mem e11).1, fun v hv => (splitAt_mem e11).2 v ?_⟩
  have hv := (splitAt_mem e6).2 v hv
  unfold EncLtpf.new at e3
  obtain ⟨⟨xs, i4⟩, e7, e3⟩ := bind_ok_inv e3
  obtain ⟨⟨xt, s4⟩, e8, e3⟩ := bind_ok_inv e3
  obtain ⟨⟨x6, s5⟩, e9, e3⟩ := bind_ok_inv e3
  simp only [Res.ok.injEq, Prod.mk.injEq] at e3
  obtain ⟨-, -, rfl⟩ := e3
  exact (splitAt_mem e7).2 v hv

theorem encChannelsNew_samples {el : Elem} {cfg : Lc3Config} : ∀ (n : ℕ) {ib ib' : List ℤ} {sb sb' : List F32} {cb cb' : List (Cx F32)}
    {chs : List (EncChannel F32)}, @encChannelsNew F32 (scalar el) cfg n ib sb cb = .ok (chs, ib', sb', cb') →
    ∀ ch ∈ chs, ∀ v ∈ ch.freq, v ∈ ib
  | 0, ib, ib', sb, sb', cb, cb', chs, h => by
    simp only [encChannelsNew, Res.ok.injEq, Prod.mk.injEq] at h
    rw [← h.1]
    intro ch hch
    cases hch
  | n + 1, ib, ib', sb, sb', cb, cb', chs, h => by
    letI := scalar el
    simp only [encChannelsNew] at h
    obtain ⟨⟨ch, i1, s1, c1⟩, e1, h⟩ := bind_ok_inv h
    obtain ⟨⟨chs', i2, s2, c2⟩, e2, h⟩ := bind_ok_inv h
    simp only [Res.ok.injEq, Prod.mk.injEq] at h
    rw [← h.1]
    obtain ⟨k1, k2⟩ := encChannelNew_samples e1
    intro c hc
    rcases List.mem_cons.1 hc with rfl | hc
    · exact k1
    · exact fun v hv => k2 v (encChannelsNew_samples n e2 c hc v hv)

/-- **C98** (first frame) A new encoder meets the conditions if its integer buffer holds 16 bit samples (zeros, in the use the code
documents). -/
theorem C98_new {el : Elem} {n : Nat} {d : FrameDuration} {f : SamplingFrequency} (hf : f ≠ .hz8000) {ib : List Int} {sb : List F32}
    {cb : List (Cx F32)} (h : (encoderLens n d f).1 ≤ ib.length ∧ (encoderLens n d f).2.1 ≤ sb.length ∧ (encoderLens n d f).2.2 ≤ cb.length)
    (hib : ∀ v ∈ ib, IsSample v) :
    ∃ E r, @Encoder.new F32 (scalar el) n d f ib sb cb = .ok (E, r) ∧ E.channels.length = n ∧
      ∀ ch ∈ E.channels, ch.Inv (Lc3Config.new f d) ∧ ∀ v ∈ ch.freq, IsSample v := by
  letI := scalar el
  obtain ⟨E, e, hl, -, hi⟩ := (C12_partial n d f hf ib sb cb).1 h
  refine ⟨E, _, e, hl, fun ch hch => ⟨hi ch hch, ?_⟩⟩
  unfold Encoder.new at e
  obtain ⟨⟨chs, i1, s1, c1⟩, e1, e⟩ := bind_ok_inv e
  simp only [Res.ok.injEq, Prod.mk.injEq] at e
  obtain ⟨rfl, -⟩ := e
  exact fun v hv => hib v (encChannelsNew_samples n e1 ch hch v hv)

/-! ## The conditions can be met -/

/-- elementary functions with the assumed accuracy exist, whatever `log2` and `powi` are -/
theorem exists_encFunctions (lg2 : F32 → F32) (pw : F32 → ℤ → F32) : ∃ el, EncFunctions el ∧ el.log2 = lg2 ∧ el.powi = pw := by
  have near : ∀ x e : ℝ, 0 < e → ∃ c : ℚ, |(c : ℝ) - x| ≤ e := by
    intro x e he
    obtain ⟨c, h1, h2⟩ := exists_rat_btwn (show x - e < x + e by linarith)
    exact ⟨c, abs_le.2 ⟨by linarith, by linarith⟩⟩
  have hsq : ∀ q : ℚ, ∃ r : ℚ, 0 ≤ q → |(r : ℝ) - Real.sqrt q| ≤ Real.sqrt q / 2 ^ 24 := by
    intro q
    rcases lt_trichotomy q 0 with h | h | h
    · exact ⟨0, fun h' => absurd h' (by linarith)⟩
    · exact ⟨0, fun _ => by rw [h]; norm_num⟩
    · have h' : (0 : ℝ) < q := by exact_mod_cast h
      obtain ⟨r, hr⟩ := near (Real.sqrt q) (Real.sqrt q / 2 ^ 24) (div_pos (Real.sqrt_pos.2 h') (by norm_num))
      exact ⟨r, fun _ => hr⟩
  choose cs hcs using fun q : ℚ => near (Real.cos (q * Real.pi)) (1 / 2 ^ 24) (by norm_num)
  choose sn hsn using fun q : ℚ => near (Real.sin (q * Real.pi)) (1 / 2 ^ 24) (by norm_num)
  choose sq hsq using hsq
  choose si hsi using fun q : ℚ => near (Real.sin q) (1 / 2 ^ 20) (by norm_num)
  choose lg hlg using fun q : ℚ => near (Real.logb 10 q) (1 / 2 ^ 100) (by norm_num)
  choose pt hpt using fun q : ℚ => near ((10 : ℝ) ^ (q : ℝ)) ((10 : ℝ) ^ (q : ℝ) / 2 ^ 22) (by positivity)
  choose ex hex using fun q : ℚ => near ((2 : ℝ) ^ (q : ℝ)) ((2 : ℝ) ^ (q : ℝ)) (by positivity)
  choose as has using fun q : ℚ => near (Real.arcsin q) (1 / 2 ^ 20) (by norm_num)
  have hex2 : ∀ q : ℚ, |(ex q : ℝ)| ≤ 2 * (2 : ℝ) ^ (q : ℝ) := by
    intro q
    have h := hex q
    have h0 : 0 < (2 : ℝ) ^ (q : ℝ) := by positivity
    have := abs_sub_abs_le_abs_sub (ex q : ℝ) ((2 : ℝ) ^ (q : ℝ))
    rw [abs_of_pos h0] at this
    linarith
  refine ⟨⟨fun a => match a with | fin q => fin (sq q) | _ => nan, fun a => match a with | fin q => fin (si q) | _ => nan,
    fun q => fin (cs q), fun q => fin (sn q), fin (12401689 / 67108864), fun a => match a with | fin q => fin (pt q) | _ => nan,
    fun a => match a with | fin q => fin (ex q) | _ => nan, lg2,
    fun a => match a with | fin q => if q = 0 then inf true else fin (lg q) | _ => nan,
    fun a => match a with
      | fin q => if q = 1 then fin (13176795 / 8388608) else if q = -1 then fin (-13176795 / 8388608) else if |q| < 1 then fin (as q) else nan
      | _ => nan,
    fun a => match a with | fin q => fin (ex q) | _ => nan, pw⟩,
    ⟨⟨⟨?_, ?_, ?_⟩, ?_, ?_, ?_, ?_⟩, ⟨?_, ?_, ?_⟩, ?_, ?_, ?_, ?_, ?_, ?_, ?_, ?_⟩, rfl, rfl⟩
  · exact fun q => ⟨cs q, rfl, hcs q⟩
  · exact fun q => ⟨sn q, rfl, hsn q⟩
  · exact fun q hq => ⟨sq q, rfl, hsq q hq⟩
  · refine ⟨_, rfl, ?_⟩
    have h1 := Real.pi_gt_d6
    have h2 := Real.pi_lt_d6
    push_cast
    rw [abs_le]
    norm_num at h1 h2 ⊢
    constructor <;> linarith
  · exact fun q _ => ⟨si q, rfl, hsi q⟩
  · intro q _
    refine ⟨pt q, rfl, (hpt q).trans ?_⟩
    have : (0 : ℝ) < (10 : ℝ) ^ (q : ℝ) := by positivity
    exact div_le_div_of_nonneg_left this.le (by norm_num) (by norm_num)
  · exact fun q _ => ⟨ex q, rfl, hex2 q⟩
  · intro q hq
    refine ⟨lg q, if_neg hq.ne', (hlg q).trans ?_⟩
    have : 0 ≤ |Real.logb 10 (q : ℝ)| / 2 ^ 22 := by positivity
    linarith
  · rfl
  · exact fun q _ => ⟨pt q, rfl, hpt q⟩
  · exact fun q _ => ⟨ex q, rfl, hex2 q⟩
  · intro q hq
    have h1 : q ≠ 1 := by rintro rfl; norm_num at hq
    have h2 : q ≠ -1 := by rintro rfl; norm_num at hq
    refine ⟨as q, ?_, has q⟩
    simp only
    rw [if_neg h1, if_neg h2, if_pos hq]
  · simp
  · simp only
    rw [if_neg (by norm_num), if_pos trivial]
  · intro q hq
    have h1 : q ≠ 1 := by rintro rfl; norm_num at hq
    have h2 : q ≠ -1 := by rintro rfl; norm_num at hq
    simp only
    rw [if_neg h1, if_neg h2, if_neg (by linarith)]
  · rfl
  · exact fun _ => rfl
  · rfl

/-- the scale factors of a spectrum without any structure: all logarithms are zero -/
theorem target_flat {el : Elem} (hl : el.log2 = fun _ => fin 0) {cfg : Lc3Config} {eb scf : List F32} {att : Bool}
    (h : @snsTarget F32 (scalar el) cfg eb att = .ok scf) (he : eb.length = 64) (hnb : cfg.nb = 64) : scf = List.replicate 16 (fin 0) := by
  letI := scalar el
  unfold snsTarget at h
  obtain ⟨t, -, h⟩ := bind_ok_inv h
  obtain ⟨p, hp, h⟩ := bind_ok_inv h
  simp only [Res.ok.injEq] at h
  subst h
  have e0 : ∀ v : F32, (log2 v / ofRat 2 : F32) = fin 0 := by
    intro v
    show F32.div (el.log2 v) (rnd 2) = fin 0
    rw [hl, ← divK_eq, ← rndK_eq]
    show divK (fin 0) (rndK 2) = fin 0
    decide +kernel
  have hsl : (snsSmooth p).length = 64 := by unfold snsSmooth; simp
  have e1 : ∀ (l : List F32) (v : F32), l.length = 64 →
      (l.map fun x => (log2 (ofRat (1 / 8388608) + maxS x v) / ofRat 2 : F32)) = List.replicate 64 (fin 0) := by
    intro l v hv
    rw [List.eq_replicate_iff]
    refine ⟨by simp [hv], fun b hb => ?_⟩
    obtain ⟨c, -, rfl⟩ := List.mem_map.1 hb
    exact e0 _
  rw [e1 _ _ (by simp [hsl])]
  have e2 : ∀ (b : Bool) (t : FrameDuration), @snsAttack F32 (evalScalar sqrtElem) b t (@snsMeanRemoval F32 (evalScalar sqrtElem)
      (@snsDownsample F32 (evalScalar sqrtElem) (List.replicate 64 (fin 0)))) = List.replicate 16 (fin 0) := by
    intro b t
    cases b <;> cases t <;> decide +kernel
  have e3 := e2 att cfg.nMs
  show @snsAttack F32 (scalar el) _ _ (@snsMeanRemoval F32 (scalar el) (@snsDownsample F32 (scalar el) _)) = _
  rw [evalScalar_eq]
  exact e3

/-- the first stage uses no elementary function -/
theorem nearest_elem (el : Elem) : ∀ (cs : List (List ℚ)) (x : List F32) (i b : Nat) (m : Option F32),
    @snsNearest F32 (evalScalar el) x cs i b m = @snsNearest F32 (evalScalar sqrtElem) x cs i b m
  | [], _, _, _, _ => rfl
  | c :: cs, x, i, b, m => by
    have e : @snsDmse F32 (evalScalar el) x c = @snsDmse F32 (evalScalar sqrtElem) x c := rfl
    have h1 : ∀ u v, @Scalar.lt F32 (evalScalar el) u v = @Scalar.lt F32 (evalScalar sqrtElem) u v := fun _ _ => rfl
    have h2 : ∀ u, @Scalar.ltInf F32 (evalScalar el) u = @Scalar.ltInf F32 (evalScalar sqrtElem) u := fun _ => rfl
    cases m <;> simp only [snsNearest, e, h1, h2, nearest_elem el cs]

theorem stage1_elem (el : Elem) (scf : List F32) : @snsStage1 F32 (evalScalar el) scf = @snsStage1 F32 (evalScalar sqrtElem) scf := by
  unfold snsStage1
  simp only [nearest_elem el]
  generalize @snsNearest F32 (evalScalar sqrtElem) (scf.take 8) LFCB 0 0 none = i
  generalize @snsNearest F32 (evalScalar sqrtElem) (scf.drop 8) HFCB 0 0 none = j
  generalize idx LFCB i = A
  generalize idx HFCB j = B
  split
  · rfl
  · cases A <;> cases B <;> rfl

theorem rotate_elem (el : Elem) (r : List F32) : @snsRotate F32 (evalScalar el) r = @snsRotate F32 (evalScalar sqrtElem) r := rfl

/-- a residual with a pulse behind the tenth entry -/
theorem flat_writable (el : Elem) {lf hf : Nat} {st1 r1 : List F32}
    (h : @snsStage1 F32 (scalar el) (List.replicate 16 (fin 0)) = .ok (lf, hf, st1, r1)) : Writable el r1 := by
  intro c _
  right
  have key : (match @snsStage1 F32 (evalScalar sqrtElem) (List.replicate 16 (fin 0)) with
      | .ok (_, _, _, r) => ((@snsRotate F32 (evalScalar sqrtElem) r).drop 10).any fun a => F32.lt (fin 0) (absF a)
      | _ => false) = true := by decide +kernel
  rw [evalScalar_eq] at h ⊢
  rw [stage1_elem] at h
  rw [rotate_elem]
  rw [h] at key
  simp only [List.any_eq_true] at key
  exact key

/-- reflection coefficients from a filter of NaNs -/
theorem stepDown_nan {el : Elem} : ∀ (k : Nat) (a acc : List F32), (∀ i, 1 ≤ i → i ≤ k → @at0 F32 (scalar el) a i = nan) →
    ∀ c ∈ @stepDown F32 (scalar el) k a acc, c = nan ∨ c ∈ acc
  | 0, a, acc, _, c, hc => Or.inr hc
  | k + 1, a, acc, ha, c, hc => by
    letI := scalar el
    rw [stepDown] at hc
    have h1 := ha (k + 1) (by omega) le_rfl
    refine (stepDown_nan k _ _ ?_ c hc).elim Or.inl fun h => (List.mem_cons.1 h).elim (fun h => Or.inl (h.trans h1)) Or.inr
    · intro i hi hik
      obtain ⟨j, rfl⟩ : ∃ j, i = j + 1 := ⟨i - 1, by omega⟩
      rw [at0, List.getD_cons_succ, List.getD_eq_getElem _ _ (by simp; omega)]
      simp only [List.getElem_map, List.getElem_range]
      rw [h1, ha (j + 1) (by omega) (by omega)]
      rfl

/-- with a NaN for every power no reflection coefficient is `±1` -/
theorem noUnit_nan {el : Elem} (hp : el.powi = fun _ _ => nan) (cfg : Lc3Config) (x : List F32) (bw nbits : Nat) (nn : Bool) :
    NoUnit el cfg x bw nbits nn := by
  letI := scalar el
  intro p _ s _ r _ c hc
  have h0 : (zero : F32) = fin 0 := by
    show rnd 0 = fin 0
    rw [← rndK_eq]
    decide +kernel
  unfold tnsAnalysis at hc
  simp only at hc
  generalize (if eq (levinson r).2 zero then at0 r 0 else at0 r 0 / (levinson r).2 : F32) = pg at hc
  generalize (if decide (lpcWeightingOf cfg.nMs nbits > 0) && lt pg (ofRat 2) then
        one - (one - ofRat (85 / 100)) * (ofRat 2 - pg) / (ofRat 2 - ofRat (3 / 2))
      else one : F32) = g at hc
  split at hc
  · generalize hL : (levinson r).1 = L at hc
    have hlen : L.length = 9 := by
      rw [← hL]
      unfold levinson
      have key : ∀ n, ((List.range n).foldl (fun s k => levStep r (k + 1) s) ([one], at0 r 0)).1.length = n + 1 := by
        intro n
        cases n with
        | zero => rfl
        | succ n =>
          rw [List.range_succ, List.foldl_append, List.foldl_cons, List.foldl_nil]
          unfold levStep
          simp
      exact key 8
    have hc' := stepDown_nan 8 _ _ (fun i _ hi => ?_) c hc
    · rcases hc' with h | h
      · rw [h]; exact ⟨by simp, by simp⟩
      · cases h
    · rw [at0, List.getD_eq_getElem _ _ (by simp [hlen]; omega)]
      simp only [List.getElem_map]
      show F32.mul _ (el.powi _ _) = nan
      rw [hp]
      generalize (L.zipIdx[i]'_).1 = u
      cases u <;> rfl
  · rw [List.eq_of_mem_replicate hc, h0]
    constructor <;> simp

/-- The hypotheses of `C98` and `Encodable` can be met: elementary functions of the assumed accuracy for which the analysis returns for
every frame of every configuration with 16 kHz or more. -/
example : ∃ el, EncFunctions el ∧ ∀ (f : SamplingFrequency) (d : FrameDuration) (ch : EncChannel F32) (x : List Int) (nbytes : Nat),
    ch.Inv (Lc3Config.new f d) → (∀ v ∈ ch.freq, IsSample v) → x.length = (Lc3Config.new f d).nf → (∀ v ∈ x, IsSample v) →
    32 ≤ nbytes → nbytes < 4096 → ∃ a, @encAnalyse F32 (scalar el) (Lc3Config.new f d) ch x nbytes = .ok a := by
  obtain ⟨el, he, hl, hp⟩ := exists_encFunctions (fun _ => fin 0) (fun _ _ => nan)
  refine ⟨el, he, fun f d ch x nbytes hi hfr hx hxs h1 h2 => (C98 he hi hfr hx hxs h1 h2).2 ⟨?_, ?_⟩⟩
  · intro freq out eb nn att det scf lf hf st1 r1 g1 g2 g3 g4
    letI := scalar el
    have hnb := nb_of_inv hi
    rw [target_flat hl g3 (by rw [(@mdctEncRun_eb F32 (scalar el) _ _ _ _ _ _ _ g1).2, hnb]) hnb] at g4
    exact flat_writable el g4
  · intro freq out eb nn bw nbw att det sns _ _ _ _
    exact noUnit_nan hp _ _ _ _ _

/-- all scale factors are NaN if the logarithm is -/
theorem target_nan {el : Elem} (hl : el.log2 = fun _ => nan) {cfg : Lc3Config} {eb : List F32} {att : Bool} {scf : List F32}
    (h : @snsTarget F32 (scalar el) cfg eb att = .ok scf) : scf = List.replicate 16 nan := by
  letI := scalar el
  unfold snsTarget at h
  obtain ⟨t, -, h⟩ := bind_ok_inv h
  obtain ⟨p, hp, h⟩ := bind_ok_inv h
  simp only [Res.ok.injEq] at h
  subst h
  have e0 : ∀ v : F32, (log2 v / ofRat 2 : F32) = nan := by
    intro v
    show F32.div (el.log2 v) (rnd 2) = nan
    rw [hl]
    rfl
  have hsl : (snsSmooth p).length = 64 := by unfold snsSmooth; simp
  have e1 : ∀ (l : List F32) (v : F32), l.length = 64 →
      (l.map fun x => (log2 (ofRat (1 / 8388608) + maxS x v) / ofRat 2 : F32)) = List.replicate 64 nan := by
    intro l v hv
    rw [List.eq_replicate_iff]
    refine ⟨by simp [hv], fun b hb => ?_⟩
    obtain ⟨c, -, rfl⟩ := List.mem_map.1 hb
    exact e0 _
  rw [e1 _ _ (by simp [hsl])]
  have e2 : ∀ (b : Bool) (t : FrameDuration), @snsAttack F32 (evalScalar sqrtElem) b t (@snsMeanRemoval F32 (evalScalar sqrtElem)
      (@snsDownsample F32 (evalScalar sqrtElem) (List.replicate 64 nan))) = List.replicate 16 nan := by
    intro b t
    cases b <;> cases t <;> decide +kernel
  have e3 := e2 att cfg.nMs
  show @snsAttack F32 (scalar el) _ _ (@snsMeanRemoval F32 (scalar el) (@snsDownsample F32 (scalar el) _)) = _
  rw [evalScalar_eq]
  exact e3

/-- the distance from a vector of NaNs is no distance -/
theorem tryGains_nan {el : Elem} {xq : List F32} (hx : xq.length = 16) (j : Nat) : ∀ (gs : List ℚ) (i : Nat) (s : SnsChoice F32), s.dmin = none →
    @snsTryGains F32 (scalar el) (List.replicate 16 nan) xq j gs i s = s
  | [], _, _, _ => rfl
  | g :: gs, i, s, hs => by
    letI := scalar el
    have hd : snsDist (List.replicate 16 nan) xq (ofRat g : F32) = nan := by
      unfold snsDist
      obtain ⟨l, q, e⟩ : ∃ l q, xq.zip (List.replicate 16 nan) = l ++ [q] := by
        have hne : xq.zip (List.replicate 16 nan) ≠ [] := by
          intro h0
          have := congrArg List.length h0
          simp [hx] at this
        exact ⟨_, _, (List.dropLast_append_getLast hne).symm⟩
      have hq : q.2 = nan := by
        have : q ∈ xq.zip (List.replicate 16 nan) := by rw [e]; simp
        exact List.eq_of_mem_replicate (List.of_mem_zip (a := q.1) (b := q.2) this).2
      rw [e, List.foldl_append, List.foldl_cons, List.foldl_nil, hq]
      generalize List.foldl _ _ l = u
      show F32.add u nan = nan
      cases u <;> rfl
    rw [snsTryGains]
    simp only [hd, hs]
    have : Scalar.ltInf (nan : F32) = false := rfl
    rw [this]
    exact tryGains_nan hx j gs (i + 1) s hs

/-- NaNs stay NaNs under the rotation -/
theorem rotate_nan {el : Elem} {r1 : List F32} (hl : r1.length = 16) (h : ∀ v ∈ r1, v = nan) :
    @snsRotate F32 (scalar el) r1 = List.replicate 16 nan := by
  letI := scalar el
  obtain rfl : r1 = List.replicate 16 nan := List.eq_replicate_iff.2 ⟨hl, h⟩
  rw [evalScalar_eq, rotate_elem]
  decide +kernel

theorem snsNormalize_length {el : Elem} {y : List Int} (hy : y.length ≤ 16) : (@snsNormalize F32 (scalar el) y).length = 16 := by
  letI := scalar el
  unfold snsNormalize
  simp
  omega

/-- The other case of `C98` is met too: if the logarithm of the noise shaping yields NaN, no frame is encodable, and the analysis panics. -/
example : ∃ el, EncFunctions el ∧ ∀ (f : SamplingFrequency) (d : FrameDuration) (ch : EncChannel F32) (x : List Int) (nbytes : Nat),
    ch.Inv (Lc3Config.new f d) → (∀ v ∈ ch.freq, IsSample v) → x.length = (Lc3Config.new f d).nf → (∀ v ∈ x, IsSample v) →
    32 ≤ nbytes → nbytes < 4096 → @encAnalyse F32 (scalar el) (Lc3Config.new f d) ch x nbytes = .panic := by
  obtain ⟨el, he, hl, -⟩ := exists_encFunctions (fun _ => nan) (fun _ _ => nan)
  letI := scalar el
  refine ⟨el, he, fun f d ch x nbytes hi hfr hx hxs h1 h2 => C98_panics he hi hfr hx hxs h1 h2 fun hr => ?_⟩
  have hnb := nb_of_inv hi
  have hfl : ch.freq.length = 2 * (Lc3Config.new f d).nf := by rw [hi.freq, Nat.mul_comm]
  obtain ⟨freq, eb, nn, out, e1, hol⟩ := mdctEncRun_returns (α := F32) (f := f) (d := d) hfl hx
  have hebl : eb.length = 64 := by rw [(mdctEncRun_eb e1).2, hnb]
  obtain ⟨att, det, e3⟩ := attackRun_returns (f := f) (d := d) ch.attack nbytes hx
  obtain ⟨scf, e4, l4⟩ := snsTarget_ok hnb (by cases f <;> cases d <;> decide) hebl det
  obtain ⟨lf, hf, a, b, ha, hb, e5⟩ := snsStage1_ok l4
  have hw := hr.shape freq out eb nn att det scf _ _ _ _ e1 e3 e4 e5
  obtain ⟨-, -, a3, a4⟩ := snsStage1_f32 el (snsTarget_f32 el e4) e5
  have hsc := target_nan hl e4
  subst hsc
  set r1 := ((List.replicate 16 (nan : F32)).zip ((a ++ b).map ofRat)).map fun p => p.1 - p.2 with hr1
  have hn : ∀ v ∈ r1, v = nan := by
    intro v hv
    obtain ⟨p, hp, rfl⟩ := List.mem_map.1 hv
    rw [List.eq_of_mem_replicate (List.of_mem_zip (a := p.1) (b := p.2) hp).1]
    rfl
  have hrot := rotate_nan (el := el) a3 hn
  have hproj : @snsProject F32 (scalar el) 6 ((List.replicate 16 nan).map absS) = List.replicate 16 0 := by
    rw [evalScalar_eq]
    show @snsProject F32 (evalScalar sqrtElem) 6 ((List.replicate 16 nan).map (@absS F32 (evalScalar sqrtElem))) = List.replicate 16 0
    decide +kernel
  obtain ⟨c, ec, c1, c2, c3, c4, c5, c6⟩ := @snsCands_of_search F32 (scalar el) (List.replicate 16 nan) (by simp)
    (by rw [hproj]; intro y hy; rw [List.eq_of_mem_replicate hy]) (by rw [hproj]; decide)
  have hlen : c.y0.length ≤ 16 ∧ c.y1.length ≤ 16 ∧ c.y2.length ≤ 16 ∧ c.y3.length ≤ 16 := by
    have ec' := ec
    unfold snsCands at ec'
    obtain ⟨c', -, ec'⟩ := bind_ok_inv ec'
    simp only [Res.ok.injEq] at ec'
    subst ec'
    simp [snsSigns]
  rcases hw c (by rw [hrot]; exact ec) with hw | ⟨v, hv, hw⟩
  · apply hw
    rw [hrot]
    unfold snsChoose
    simp only
    have t0 : ∀ gs : List ℚ, ∀ s : SnsChoice F32, s.dmin = none → snsTryGains (List.replicate 16 nan) (snsNormalize c.y0) 0 gs 0 s = s :=
      fun gs s => tryGains_nan (snsNormalize_length hlen.1) 0 gs 0 s
    have t1 : ∀ gs : List ℚ, ∀ s : SnsChoice F32, s.dmin = none → snsTryGains (List.replicate 16 nan) (snsNormalize c.y1) 1 gs 0 s = s :=
      fun gs s => tryGains_nan (snsNormalize_length hlen.2.1) 1 gs 0 s
    have t2 : ∀ gs : List ℚ, ∀ s : SnsChoice F32, s.dmin = none → snsTryGains (List.replicate 16 nan) (snsNormalize c.y2) 2 gs 0 s = s :=
      fun gs s => tryGains_nan (snsNormalize_length hlen.2.2.1) 2 gs 0 s
    have t3 : ∀ gs : List ℚ, ∀ s : SnsChoice F32, s.dmin = none → snsTryGains (List.replicate 16 nan) (snsNormalize c.y3) 3 gs 0 s = s :=
      fun gs s => tryGains_nan (snsNormalize_length hlen.2.2.2) 3 gs 0 s
    rw [t0 _ _ rfl, t1 _ _ rfl, t2 _ _ rfl, t3 _ _ rfl]
  · rw [hrot] at hv
    rw [List.eq_of_mem_replicate (List.mem_of_mem_drop hv)] at hw
    exact absurd hw (by decide)

end F32
end Lc3
