import Verif.Lemmas.SilenceQuant
/-! # Digital silence: the whole frame of the encoder -/

namespace Lc3
open Scalar Tables Spec

/-- no coder state and no configuration quantity the frame of silence depends on -/
structure SilentParams (cfg : Lc3Config) (p : FrameParams) : Prop where
  xq : p.xq = List.replicate cfg.ne 0
  gain : p.ggInd = 0
  last : p.lastnz = 2
  mode : p.lsbMode = false
  orders : p.rcOrder = [0, 0]
  residual : p.residual = []
  nbitsLsb : p.nbitsLsb = 0

theorem residualEncLoop_zero (gg : ℝ) (m : Nat) : ∀ (n : Nat) (t : List ℝ) (xq : List Int), AllZero xq → residualEncLoop gg m n t xq = .ok [] := by
  intro n t
  induction t generalizing n with
  | nil => intro xq _; rw [residualEncLoop]; simp
  | cons a t ih =>
    intro xq h
    cases xq with
    | nil => rw [residualEncLoop]; simp
    | cons b xq =>
      rw [residualEncLoop]
      split
      · rfl
      · rw [if_neg (by simpa using h b (by simp))]
        exact ih n xq fun v hv => h v (by simp [hv])

theorem regular_silence {f : SamplingFrequency} {d : FrameDuration} {ch : EncChannel ℝ} (hi : ch.Inv (Lc3Config.new f d))
    (h0 : AllZero ch.freq) {x : List Int} (hx0 : AllZero x) (nbytes : Nat) : Regular (Lc3Config.new f d) ch x nbytes := by
  have hfs : (Lc3Config.new f d).fsInd < 5 := by cases f <;> cases d <;> decide
  have hnb : (Lc3Config.new f d).nb = 64 := by
    have hbw := hi.bw
    cases f <;> cases d <;> first | rfl | exact absurd hbw (by rw [show (Lc3Config.new .hz8000 .sevenPointFiveMs).fsInd = 0 from rfl, bwNew_zero]; simp)
  constructor
  · intro freq out eb nn att det scf lf hf st1 r1 e1 e2 e3 e4
    obtain ⟨-, -, z3, -⟩ := mdctEncRun_silence hi.freq h0 hx0 e1
    have hl := (mdctEncRun_eb e1).2
    rw [z3.eq, hl, hnb, snsTarget_zero hnb hfs] at e3
    cases e3
    exact silence_residual e4
  · intro freq out eb nn bw nbw att det sns e1 e2 e3 e4
    obtain ⟨-, z2, -, -⟩ := mdctEncRun_silence hi.freq h0 hx0 e1
    exact stableTns_zero (snsEncRun_zero e4 (z2.take _)) _ _ _
  · intro freq out eb nn bw nbw att det sns tns e1 e2 e3 e4 e5 y hy
    obtain ⟨-, z2, -, -⟩ := mdctEncRun_silence hi.freq h0 hx0 e1
    have hs := snsEncRun_zero e4 (z2.take _)
    obtain ⟨-, -, -, t4, -⟩ := tnsEncRun_zero hs e5
    rw [t4] at hy
    rw [hs y hy, abs_zero]
    unfold maxLine stepOf
    positivity

/-- the analysis of silence -/
theorem encAnalyse_silence {f : SamplingFrequency} {d : FrameDuration} {ch : EncChannel ℝ} (hi : ch.Inv (Lc3Config.new f d))
    (h0 : AllZero ch.freq) {x : List Int} (hx : x.length = (Lc3Config.new f d).nf) (hx0 : AllZero x) {nbytes : Nat}
    (h20 : 20 ≤ nbytes) (hN : nbytes < 4096) : ∃ a, encAnalyse (Lc3Config.new f d) ch x nbytes = .ok a ∧ AllZero a.freq ∧
      AllZero a.lines ∧ AllZero a.mdct ∧ 0 < a.gg ∧ SilentParams (Lc3Config.new f d) a.p := by
  obtain ⟨a, ha⟩ := encAnalyse_returns hi hx hN (regular_silence hi h0 hx0 nbytes) (by
    intro freq out eb nn bw nbw att det sns tns e1 e2 e3 e4 e5 _
    obtain ⟨-, z2, -, -⟩ := mdctEncRun_silence hi.freq h0 hx0 e1
    obtain ⟨t1, -, -, -, t5, -⟩ := tnsEncRun_zero (snsEncRun_zero e4 (z2.take _)) e5
    omega)
  refine ⟨a, ha, ?_⟩
  obtain ⟨freq, out, eb, nn, bwInd, nbitsBw, attack, det, sns, tns, ltpf, pf, quant, spec, res, nf, e1, e2, e3, e4, e5, e6, e7,
    e8, e9, e10, rfl⟩ := encAnalyse_inv ha
  obtain ⟨z1, z2, -, -⟩ := mdctEncRun_silence hi.freq h0 hx0 e1
  have hs := snsEncRun_zero e5 (z2.take _)
  obtain ⟨t1, t2, t3, t4, t5, -⟩ := tnsEncRun_zero hs e6
  have hcfg : (Lc3Config.new f d).ne % 2 = 0 ∧ 2 ≤ (Lc3Config.new f d).ne ∧ clog2 ((Lc3Config.new f d).ne / 2) ≤ 8 ∧
      (Lc3Config.new f d).fsInd ≤ 4 := by
    cases f <;> cases d <;> decide
  obtain ⟨c1, c2, c3, c4⟩ := hcfg
  have hebl : eb.length = 64 := by
    have hnb : (Lc3Config.new f d).nb = 64 := by
      have hbw := hi.bw
      cases f <;> cases d <;> first | rfl | exact absurd hbw (by rw [show (Lc3Config.new .hz8000 .sevenPointFiveMs).fsInd = 0 from rfl, bwNew_zero]; simp)
    rw [(mdctEncRun_eb e1).2, hnb]
  have hnbw3 : nbitsBw ≤ 3 := by
    obtain ⟨bw, nbw, g1, -, g2, -⟩ := C34 _ c4 hi.bw hebl
    rw [e3] at g1
    simp only [Res.ok.injEq, Prod.mk.injEq] at g1
    obtain ⟨-, rfl⟩ := g1
    have key : ∀ i ≤ 4, ∀ n, NBITS_BW_TABLE[i]? = some n → n ≤ 3 := by
      intro i hi n hn
      have : i = 0 ∨ i = 1 ∨ i = 2 ∨ i = 3 ∨ i = 4 := by omega
      rcases this with rfl | rfl | rfl | rfl | rfl <;> (simp [NBITS_BW_TABLE] at hn; omega)
    exact key _ c4 _ g2
  have hpf11 : pf.nbitsLtpf ≤ 11 := by
    obtain ⟨s', r, l1, -, -, hpf, -⟩ := C41_run f d ch.ltpf hi.ltpf x hx nn (nbytes * 8)
    rw [e7] at l1
    simp only [Res.ok.injEq, Prod.mk.injEq] at l1
    obtain ⟨-, rfl⟩ := l1
    rw [hpf]; split <;> omega
  have hl0 : AllZero tns.lines := by rw [t4]; exact hs
  obtain ⟨q1, q2, q3, q4, q5, q6, q7, q8⟩ := quantRun_zero hl0 c1 c2 (by
    unfold nbitsFixed
    split
    · omega
    · split <;> omega) e8
  have hres : res = [] := by
    unfold residualEncode at e9
    simp only at e9
    split at e9
    · split at e9
      · cases e9
      · rw [residualEncLoop_zero _ _ _ _ _ (q1.take _)] at e9
        exact (Res.ok.inj e9).symm
    · exact (Res.ok.inj e9).symm
  refine ⟨z1, hl0, z2.take _, (C43 (by omega) e8).1, ?_⟩
  exact ⟨by rw [← q2]; exact q1.eq, by simp only [q3]; rfl, q7, q4, t2, hres, q6⟩

set_option maxRecDepth 100000 in
theorem zero_pair_symbols (f : SamplingFrequency) (d : FrameDuration) (rf : Nat) (h : rf = 0 ∨ rf = 512) :
    ((Context.symbols 15 rf (Lc3Config.new f d).ne (Context.ofLines [0, 0])).all fun e =>
      decide (0 < (AC_SPEC_FREQ.getD (AC_SPEC_LOOKUP.getD e.1 0) []).getD e.2 0)) = true ∧
    symbolCount rf (Lc3Config.new f d).ne [0, 0] = 1 := by
  rcases h with rfl | rfl <;> cases f <;> cases d <;> decide +kernel

/-- the frame of silence is written, and the decoder reads it -/
theorem silence_coded (checks : Bool) {f : SamplingFrequency} {d : FrameDuration} {ch : EncChannel ℝ} (hi : ch.Inv (Lc3Config.new f d))
    (h0 : AllZero ch.freq) {x : List Int} (hx : x.length = (Lc3Config.new f d).nf) (hx0 : AllZero x) {buf : List Nat}
    (h20 : 20 ≤ buf.length) (hN : buf.length < 4096) : ∃ a s t, CodedFrame checks f d ch x buf a s t ∧ AllZero a.freq ∧ AllZero a.lines ∧
      AllZero a.mdct ∧ SilentParams (Lc3Config.new f d) a.p := by
  obtain ⟨a, ha, z1, z2, z3, hg, hp⟩ := encAnalyse_silence hi h0 hx hx0 h20 hN
  have hrange : ∀ y ∈ a.lines, |y| ≤ Spec.maxLine (8 * buf.length) (Lc3Config.new f d).fsInd := by
    intro y hy
    rw [z2 y hy, abs_zero]
    unfold maxLine stepOf
    positivity
  have hin : ∀ y ∈ a.lines, y ≠ -(32768 - 3 / 8) * a.gg := by
    intro y hy
    rw [z2 y hy]
    intro h
    nlinarith
  obtain ⟨q, hs, hd, -⟩ := C46 hi hN ha hrange hin
  have hne2 : 2 ≤ (Lc3Config.new f d).ne ∧ clog2 ((Lc3Config.new f d).ne / 2) ≤ 8 ∧ (Lc3Config.new f d).fsInd ≤ 4 := by
    cases f <;> cases d <;> decide
  have hx2 : a.p.xq.take a.p.lastnz = [0, 0] := by
    rw [hp.xq, hp.last]
    obtain ⟨n, hn⟩ : ∃ n, (Lc3Config.new f d).ne = n + 2 := ⟨(Lc3Config.new f d).ne - 2, by omega⟩
    rw [hn]
    rfl
  have hplain : plainBits a.p.lsbMode (a.p.xq.take a.p.lastnz) = 0 := by rw [hx2, hp.mode]; decide
  have hb : BodyHyp (Lc3Config.new f d) buf.length a.p q := by
    refine ⟨hs, hd, by rw [hp.nbitsLsb]; omega, ?_⟩
    rw [pairsLsbs_length _ _ hd.range, hp.mode]
    simp
  have hrf : a.p.rateFlag = 0 ∨ a.p.rateFlag = 512 := by rw [hd.rate]; split <;> simp
  obtain ⟨s1, s2⟩ := zero_pair_symbols f d _ hrf
  have hinfo : tnsInfoFrom a.p.lpcWeighting a.p.rcOrder a.p.rcI 0 a.p.numTns +
      symbolInfo a.p.rateFlag (Lc3Config.new f d).ne (a.p.xq.take a.p.lastnz) ≤ (10 : ℕ) := by
    have h1 := symbolInfo_le s1
    rw [s2] at h1
    rw [← frameInfo_eq, hx2]
    unfold frameInfo
    have : ∀ n, ((List.range n).map fun f => filterInfo a.p.lpcWeighting ((a.p.rcI.drop (8 * f)).take (a.p.rcOrder.getD f 0))).sum = 0 := by
      intro n
      refine List.sum_eq_zero ?_
      intro v hv
      obtain ⟨k, -, rfl⟩ := List.mem_map.1 hv
      have : a.p.rcOrder.getD k 0 = 0 := by rw [hp.orders]; rcases k with - | - | k <;> rfl
      rw [this]
      simp [filterInfo]
    rw [this]
    push_cast at h1 ⊢
    linarith
  have hcount : tnsCountFrom a.p.rcOrder a.p.rcI 0 a.p.numTns +
      symbolCount a.p.rateFlag (Lc3Config.new f d).ne (a.p.xq.take a.p.lastnz) ≤ 44 * 1 := by
    rw [← frameSymbols_eq, hx2]
    unfold frameSymbols
    rw [s2]
    have : ∀ n, ((List.range n).map fun f => filterCount ((a.p.rcI.drop (8 * f)).take (a.p.rcOrder.getD f 0))).sum = 0 := by
      intro n
      refine List.sum_eq_zero ?_
      intro v hv
      obtain ⟨k, -, rfl⟩ := List.mem_map.1 hv
      have : a.p.rcOrder.getD k 0 = 0 := by rw [hp.orders]; rcases k with - | - | k <;> rfl
      rw [this]
      simp [filterCount]
    rw [this]
    omega
  have hside : (sideBits (Lc3Config.new f d).ne a.p).length ≤ 74 := by
    rw [sideBits_length hs]
    have h1 : a.p.numTns ≤ 2 := by rw [hs.numTns]; split <;> omega
    have h2 : a.p.nbitsBandwidth ≤ 3 := by
      have key : ∀ i ≤ 4, ∀ n, NBITS_BW_TABLE[i]? = some n → n ≤ 3 := by
        intro i hi n hn
        have : i = 0 ∨ i = 1 ∨ i = 2 ∨ i = 3 ∨ i = 4 := by omega
        rcases this with rfl | rfl | rfl | rfl | rfl <;> (simp [NBITS_BW_TABLE] at hn; omega)
      exact key _ hne2.2.2 _ hs.bwBits
    unfold sideLength
    split <;> omega
  obtain ⟨lsbs, s, e1, e2, e3⟩ := body_fits ch.bits hb (by omega) (X := 10) (le_refl 1) hinfo hcount (by rw [hplain]; omega)
  have hfc : nbitsAriForecast s ≤ 20 := by
    refine e2.trans ?_
    split <;> omega
  rw [hplain] at e3
  refine ⟨a, s, _, ⟨hi, hN, ha, hrange, hin, hp.mode, ⟨lsbs, e1⟩, ⟨e3, by omega⟩, Or.inr ?_, Or.inr ?_⟩, z1, z2, z3, hp⟩
  · rw [hp.residual, List.length_nil]; omega
  · rw [hx2]; decide

end Lc3
