import Verif.Lemmas.TnsIndex32
import Verif.Lemmas.EncReturns
import Verif.Spec.FiniteEnc
/-! The analysis of the encoder in binary32: when it returns. -/

namespace Lc3.F32
open Scalar Tables Spec

variable {el : Elem}

theorem gainOff_le {nbits fsInd : ℕ} (hn : nbits < 32768) (hfs : fsInd ≤ 4) : -245 ≤ ggOffEnc nbits fsInd ∧ ggOffEnc nbits fsInd ≤ -110 := by
  rw [ggOffEnc_spec hn]
  exact gainOffset_bounds nbits hfs

/-- the limiter bound of lines of any size the encoder can make -/
theorem ggMinOf_sized (hel : GainFunctions el) {xf : List F32} {nbits fsInd : ℕ} (hn : nbits < 32768) (hfs : fsInd ≤ 4)
    (h : AllBd (2 ^ 76) xf) : @ggMinOf F32 (scalar el) xf (ggOffEnc nbits fsInd) ≤ 32000 := by
  obtain ⟨o1, o2⟩ := gainOff_le hn hfs
  obtain ⟨M, h1, h2, h3, h4⟩ := maxAbs_f32 el fun y hy => (h y hy).1
  have hM := h4 (2 ^ 76) (by positivity) fun y hy => (h y hy).2
  rcases h2.eq_or_lt with h0 | h0
  · have hz : rnd 0 = .fin 0 := by unfold rnd; rw [rndQ_zero]; norm_num
    unfold ggMinOf
    rw [h1]
    show (if F32.lt (rnd 0) (fin M) = true then _ else _) ≤ _
    rw [hz, if_neg (by simp [F32.lt, ← h0])]
    norm_num
  have hMq : M ≤ 2 ^ 76 := by
    have : (M : ℝ) ≤ ((2 ^ 76 : ℚ) : ℝ) := by push_cast; exact hM
    exact_mod_cast this
  rcases ggMinOf_f32 hel h1 h0 (hMq.trans (by norm_num)) (ggOffEnc nbits fsInd) with ⟨-, e⟩ | ⟨z, hw, e, hz⟩
  · rw [e]; omega
  · have hnn : (0 : ℚ) ≤ M / (262141 / 8) := by positivity
    have hup := rndQ_upper hnn
    have hw77 : rndQ (M / (262141 / 8)) ≤ 2 ^ 77 := by
      have : M / (262141 / 8) ≤ 2 ^ 76 := by
        rw [div_le_iff₀ (by norm_num)]
        norm_num at hMq ⊢
        linarith
      norm_num at hup this ⊢
      linarith
    generalize rndQ (M / (262141 / 8)) = w at *
    have hwr : (0 : ℝ) < w := by exact_mod_cast hw
    have hlog : Real.logb 10 w ≤ 24 := by
      have h1 : (w : ℝ) ≤ 10 ^ 24 := by
        have : (w : ℝ) ≤ ((2 ^ 77 : ℚ) : ℝ) := by exact_mod_cast hw77
        refine this.trans (by norm_num)
      have h2 := Real.logb_le_logb_of_le (b := 10) (by norm_num) hwr h1
      rwa [Real.logb_pow, Real.logb_self_eq_one (by norm_num), mul_one] at h2
    have hzle : (z : ℝ) ≤ 1000 := by
      generalize Real.logb 10 w = L at *
      have hz1 := (abs_le.1 hz).2
      rcases le_total 0 L with hL | hL
      · rw [abs_of_nonneg hL] at hz1
        norm_num at hz1
        linarith
      · rw [abs_of_nonpos hL] at hz1
        norm_num at hz1
        linarith
    have hzq : z ≤ 1000 := by exact_mod_cast hzle
    have : ⌈z⌉ ≤ 1000 := by rw [Int.ceil_le]; exact_mod_cast hzq
    rw [e]
    omega

/-- the rates with 64 bands -/
theorem nb_of_inv {α : Type} [Scalar α] {f : SamplingFrequency} {d : FrameDuration} {ch : EncChannel α} (hi : ch.Inv (Lc3Config.new f d)) :
    (Lc3Config.new f d).nb = 64 := by
  obtain ⟨hfreq, hbw, -⟩ := hi
  cases f <;> cases d <;> first | rfl | exact absurd hbw (by rw [show (Lc3Config.new .hz8000 .sevenPointFiveMs).fsInd = 0 from rfl, bwNew_zero]; simp)

/-- what the analysis needs from the signal follows from its return -/
theorem encodable_of_returns (he : EncFunctions el) {f : SamplingFrequency} {d : FrameDuration} {ch : EncChannel F32}
    (hi : ch.Inv (Lc3Config.new f d)) {x : List Int} {nbytes : Nat} {a : EncAnalysis F32}
    (h : @encAnalyse F32 (scalar el) (Lc3Config.new f d) ch x nbytes = .ok a) : Encodable el (Lc3Config.new f d) ch x nbytes := by
  letI := scalar el
  have hnb := nb_of_inv hi
  obtain ⟨freq, out, eb, nn, bw, nbw, att, det, sns, tns, ltpf, pf, quant, spec, res, nf, e1, e2, e3, e4, e5, e6, -⟩ := encAnalyse_inv h
  have hebl : eb.length = 64 := by rw [(mdctEncRun_eb e1).2, hnb]
  have htl : (out.take (Lc3Config.new f d).ne).length = (Lc3Config.new f d).ne := by rw [List.length_take]; omega
  constructor
  · intro freq' out' eb' nn' att' det' scf lf hf st1 r1 g1 g2 g3 g4
    rw [e1] at g1
    cases g1
    rw [e4] at g2
    cases g2
    exact (snsEncRun_iff el hnb htl hebl).1 ⟨sns, e5⟩ _ _ _ _ _ g3 g4
  · intro freq' out' eb' nn' bw' nbw' att' det' sns' g1 g2 g3 g4
    rw [e1] at g1
    cases g1
    rw [e3] at g2
    cases g2
    rw [e4] at g3
    cases g3
    rw [e5] at g4
    cases g4
    exact (stable_iff_noUnit he).1 (tnsEncRun_stable32 el e6)

/-- the analysis returns for signals with the two conditions, also for short frames if the temporal noise shaping needs two bits only -/
theorem encAnalyse_returns32_short (he : EncFunctions el) {f : SamplingFrequency} {d : FrameDuration} {ch : EncChannel F32}
    (hi : ch.Inv (Lc3Config.new f d)) (hfr : ∀ v ∈ ch.freq, IsSample v) {x : List Int}
    (hx : x.length = (Lc3Config.new f d).nf) (hxs : ∀ v ∈ x, IsSample v) {nbytes : Nat} (hN0 : 20 ≤ nbytes) (hN : nbytes < 4096)
    (hr : Encodable el (Lc3Config.new f d) ch x nbytes)
    (hs : ∀ freq out eb nn bw nbw att det sns tns, @mdctEncRun F32 (scalar el) (Lc3Config.new f d) ch.freq x = .ok (freq, out, eb, nn) →
      @bwRun F32 (scalar el) ch.bw eb = .ok (bw, nbw) → @attackRun F32 (scalar el) (Lc3Config.new f d) ch.attack x nbytes = .ok (att, det) →
      @snsEncRun F32 (scalar el) (Lc3Config.new f d) (out.take (Lc3Config.new f d).ne) eb det = .ok sns →
      @tnsEncRun F32 (scalar el) (Lc3Config.new f d) sns.x bw (nbytes * 8) nn = .ok tns → nbytes < 32 → tns.nbitsTns ≤ 2) :
    ∃ a, @encAnalyse F32 (scalar el) (Lc3Config.new f d) ch x nbytes = .ok a ∧ AllBd (2 ^ 76) a.lines := by
  letI := scalar el
  have hnb := nb_of_inv hi
  obtain ⟨hfreq, hbw, hltpf, hout, heb, hxq⟩ := hi
  have hne : (Lc3Config.new f d).ne ≤ (Lc3Config.new f d).nf := by cases f <;> cases d <;> decide
  have hfix : (Lc3Config.new f d).fsInd ≤ 4 ∧ clog2 ((Lc3Config.new f d).ne / 2) ≤ 8 ∧ (Lc3Config.new f d).ne ≤ 400 ∧
      bandLimit d (Lc3Config.new f d).fsInd ≤ (Lc3Config.new f d).ne ∧ (Lc3Config.new f d).nMs = d := by cases f <;> cases d <;> decide
  obtain ⟨hfs, hcl, hn4, hband, hd⟩ := hfix
  have hfl : ch.freq.length = 2 * (Lc3Config.new f d).nf := by rw [hfreq, Nat.mul_comm]
  obtain ⟨freq, eb, nn, out, e1, hol⟩ := mdctEncRun_returns (α := F32) (f := f) (d := d) hfl hx
  have small : ∀ {v : ℤ}, IsSample v → |v| ≤ 2 ^ 15 := fun {v} h => abs_le.2 ⟨by have := h.1; omega, by have := h.2; omega⟩
  have hb1 := bd_mdctEncRun he.toAccurate hfl (fun v hv => small (hfr v hv)) (fun v hv => small (hxs v hv)) e1
  have hebl : eb.length = 64 := by rw [(mdctEncRun_eb e1).2, hnb]
  obtain ⟨bw, nbw, e2, hbwle, hnbw, -⟩ := C34 _ hfs hbw hebl
  have hnbw3 : nbw ≤ 3 := by
    have key : ∀ i ≤ 4, ∀ n, NBITS_BW_TABLE[i]? = some n → n ≤ 3 := by
      intro i hi n hn
      have : i = 0 ∨ i = 1 ∨ i = 2 ∨ i = 3 ∨ i = 4 := by omega
      rcases this with rfl | rfl | rfl | rfl | rfl <;> (simp [NBITS_BW_TABLE] at hn; omega)
    exact key _ hfs _ hnbw
  obtain ⟨att, det, e3⟩ := attackRun_returns (f := f) (d := d) ch.attack nbytes hx
  have htl : (out.take (Lc3Config.new f d).ne).length = (Lc3Config.new f d).ne := by rw [List.length_take]; omega
  obtain ⟨sns, e4⟩ := (snsEncRun_iff el hnb htl hebl (attack := det)).2
    fun scf lf hf st1 r1 g1 g2 => hr.shape freq out eb nn att det scf lf hf st1 r1 e1 e3 g1 g2
  have hb2 := bd_snsEncRun he hnb (hb1.take _) e4
  have hsl := (snsEncRun_length e4).2
  obtain ⟨tns, e5, htb, htll⟩ := tnsEncRun_returns32 el (nbits := nbytes * 8) (nn := nn) hbwle hsl
    ((stable_iff_noUnit he).2 (hr.unit freq out eb nn bw nbw att det sns e1 e2 e3 e4))
  have hb3 := bd_tnsEncRun he.toTame hb2 e5
  obtain ⟨ltpf, pf, e6, -, -, hpf, -⟩ := C41_run f d ch.ltpf hltpf x hx nn (nbytes * 8)
  have hpf11 : pf.nbitsLtpf ≤ 11 := by rw [hpf]; split <;> omega
  have hnf : nbitsFixed (Lc3Config.new f d).ne (nbytes * 8) ≤ 62 ∧ (nbytes * 8 ≤ 1280 → nbitsFixed (Lc3Config.new f d).ne (nbytes * 8) ≤ 60) := by
    unfold nbitsFixed
    split
    · omega
    · split <;> omega
  obtain ⟨quant, spec, e7⟩ := C44 f d (fsInd := (Lc3Config.new f d).fsInd) (nbits := nbytes * 8) (nbw := nbw) (ntns := tns.nbitsTns)
    (nltpf := pf.nbitsLtpf) (s := ch.quant) (xf := tns.lines) (by omega) (by rw [htll, hsl]) (by
      have := hs _ _ _ _ _ _ _ _ _ _ e1 e2 e3 e4 e5
      by_cases h : nbytes * 8 ≤ 1280
      · have := hnf.2 h; omega
      · omega) (ggMinOf_ge (ggOffEnc_neg _ _ (by omega)))
    (ggMinOf_sized he.gain (by omega) hfs hb3)
  obtain ⟨-, hql, -, -⟩ := C27 f d e7
  obtain ⟨res, e8⟩ := residualEncode_returns (spec := spec.nbitsSpec) (trunc := spec.nbitsTrunc) (gg := spec.gg) (xf := tns.lines)
    (xq := spec.xq) hn4 (by rw [htll, hsl]) hql
  have hbl : bandLimit d bw ≤ (Lc3Config.new f d).ne := by
    refine le_trans ?_ hband
    unfold bandLimit
    split <;> exact Nat.mul_le_mul_left _ (by omega)
  have e9 := C39_lines (Lc3Config.new f d).nMs (bw := bw) (ne := (Lc3Config.new f d).ne) (xf := tns.lines) (xq := spec.xq) (by omega) spec.gg
    (by rw [hql, hd]; exact hbl) (by rw [hd]; exact hbl) (by rw [htll, hsl, hd]; exact hbl)
  unfold encAnalyse
  simp only
  rw [if_neg (by simp [hout, heb]), e1, Res.bind_ok]
  simp only
  rw [if_neg (by omega), e2, Res.bind_ok]
  simp only
  rw [e3, Res.bind_ok]
  simp only
  rw [e4, Res.bind_ok, e5, Res.bind_ok, e6, Res.bind_ok]
  simp only
  rw [if_neg (by simpa using hxq), e7, Res.bind_ok]
  simp only
  rw [e8, Res.bind_ok, e9, Res.bind_ok]
  exact ⟨_, rfl, hb3⟩

/-- the analysis returns for signals with the two conditions -/
theorem encAnalyse_returns32 (he : EncFunctions el) {f : SamplingFrequency} {d : FrameDuration} {ch : EncChannel F32}
    (hi : ch.Inv (Lc3Config.new f d)) (hfr : ∀ v ∈ ch.freq, IsSample v) {x : List Int}
    (hx : x.length = (Lc3Config.new f d).nf) (hxs : ∀ v ∈ x, IsSample v) {nbytes : Nat} (hN0 : 32 ≤ nbytes) (hN : nbytes < 4096)
    (hr : Encodable el (Lc3Config.new f d) ch x nbytes) :
    ∃ a, @encAnalyse F32 (scalar el) (Lc3Config.new f d) ch x nbytes = .ok a ∧ AllBd (2 ^ 76) a.lines :=
  encAnalyse_returns32_short he hi hfr hx hxs (by omega) hN hr fun _ _ _ _ _ _ _ _ _ _ _ _ _ _ _ h => absurd h (by omega)

end Lc3.F32
