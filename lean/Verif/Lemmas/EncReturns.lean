import Verif.Lemmas.TnsReturns
import Verif.Lemmas.MdctWindow
import Verif.Props.EncoderFrame
/-! # The analysis of the encoder returns -/

namespace Lc3
open Scalar Tables Spec

/-- the limiter's bound does not underflow `i16` -/
theorem ggMinOf_ge {α : Type} [Scalar α] {xf : List α} {ggOff : Int} (h1 : ggOff < 0) : -32767 ≤ ggMinOf xf ggOff := by
  unfold ggMinOf
  split
  · unfold toI16; omega
  · omega

theorem residualEncode_returns {α : Type} [Scalar α] {spec trunc ne : Nat} {gg : α} {xf : List α} {xq : List Int} (hn : ne ≤ 400)
    (hf : xf.length = ne) (hq : xq.length = ne) : ∃ r, residualEncode spec trunc ne gg xf xq = .ok r := by
  unfold residualEncode
  simp only
  split
  · rw [if_neg (by omega)]
    obtain ⟨bs, h, -⟩ := residualEncLoop_ok gg (((spec : Int) - trunc + 4).toNat) (xf.take ne) (xq.take ne) 0
      (by rw [List.length_take]; omega) (by rw [List.length_take, List.length_take]; omega)
    exact ⟨bs, h⟩
  · exact ⟨_, rfl⟩

theorem attackRun_returns {α : Type} [Scalar α] {f : SamplingFrequency} {d : FrameDuration} (s : AttackSt α) {x : List Int} (nbytes : Nat)
    (hx : x.length = (Lc3Config.new f d).nf) : ∃ s' b, attackRun (Lc3Config.new f d) s x nbytes = .ok (s', b) := by
  by_cases h : AttackRange f d nbytes
  · obtain ⟨s', b, e, -⟩ := C38_active f d s x nbytes hx h
    exact ⟨s', b, e⟩
  · exact ⟨_, _, C38 f d s x nbytes hx h⟩

theorem snsEncRun_len {f : SamplingFrequency} {d : FrameDuration} {x eb : List ℝ} {det : Bool} {r : SnsEncResult ℝ}
    (h : snsEncRun (Lc3Config.new f d) x eb det = .ok r) : x.length = (Lc3Config.new f d).ne ∧ r.x.length = (Lc3Config.new f d).ne := by
  obtain ⟨q, -, -, -, -, -, -, -, -, hl, -⟩ := C45 h (p := {
    bandwidthInd := 0, nbitsBandwidth := 0, lastnz := 0, lsbMode := false, ggInd := 0, numTns := 0, rcOrder := [], rcI := []
    lpcWeighting := 0, pitchPresent := false, ltpfActive := false, pitchIndex := 0, indLf := r.indLf, indHf := r.indHf
    shapeJ := r.shapeJ, gind := r.gind, lsInda := i32AsUsize r.lsInda, indexJoint := r.indexJoint, noiseFactor := 0, rateFlag := 0
    nbitsLsb := 0, xq := [], residual := [] }) rfl rfl rfl rfl rfl rfl
  have hx : x.length = (Lc3Config.new f d).ne := by
    unfold snsEncRun at h
    split at h
    · cases h
    · rename_i hn; simpa using hn
  exact ⟨hx, by rw [hl, hx]⟩

/-- The conditions on the signal under which the analysis returns. They are conditions on intermediate results: the residual of the first
stage of the noise shaping quantiser, rotated, is not zero in all of the last six entries (F14); the reflection coefficients of the
temporal noise shaping have a magnitude below one (F9); the lines are in the range of the quantiser (F15). -/
structure Regular (cfg : Lc3Config) (ch : EncChannel ℝ) (x : List Int) (nbytes : Nat) : Prop where
  shape : ∀ freq out eb nn att det scf lf hf st1 r1, mdctEncRun (α := ℝ) cfg ch.freq x = .ok (freq, out, eb, nn) →
    attackRun cfg ch.attack x nbytes = .ok (att, det) → snsTarget cfg eb det = .ok scf → snsStage1 scf = .ok (lf, hf, st1, r1) →
    ∃ a ∈ (snsRotate r1).drop 10, a ≠ 0
  stable : ∀ freq out eb nn bw nbw att det sns, mdctEncRun (α := ℝ) cfg ch.freq x = .ok (freq, out, eb, nn) →
    bwRun ch.bw eb = .ok (bw, nbw) → attackRun cfg ch.attack x nbytes = .ok (att, det) →
    snsEncRun cfg (out.take cfg.ne) eb det = .ok sns → StableTns cfg sns.x bw (nbytes * 8) nn
  range : ∀ freq out eb nn bw nbw att det sns tns, mdctEncRun (α := ℝ) cfg ch.freq x = .ok (freq, out, eb, nn) →
    bwRun ch.bw eb = .ok (bw, nbw) → attackRun cfg ch.attack x nbytes = .ok (att, det) →
    snsEncRun cfg (out.take cfg.ne) eb det = .ok sns → tnsEncRun cfg sns.x bw (nbytes * 8) nn = .ok tns →
    ∀ y ∈ tns.lines, |y| ≤ Spec.maxLine (8 * nbytes) cfg.fsInd

/-- the analysis returns if the frame has room for the bits besides the spectrum -/
theorem encAnalyse_returns {f : SamplingFrequency} {d : FrameDuration} {ch : EncChannel ℝ} (hi : ch.Inv (Lc3Config.new f d)) {x : List Int}
    (hx : x.length = (Lc3Config.new f d).nf) {nbytes : Nat} (hN : nbytes < 4096)
    (hr : Regular (Lc3Config.new f d) ch x nbytes)
    (hroom : ∀ freq out eb nn bw nbw att det sns tns, mdctEncRun (α := ℝ) (Lc3Config.new f d) ch.freq x = .ok (freq, out, eb, nn) →
      bwRun ch.bw eb = .ok (bw, nbw) → attackRun (Lc3Config.new f d) ch.attack x nbytes = .ok (att, det) →
      snsEncRun (Lc3Config.new f d) (out.take (Lc3Config.new f d).ne) eb det = .ok sns →
      tnsEncRun (Lc3Config.new f d) sns.x bw (nbytes * 8) nn = .ok tns → tns.nbitsTns ≤ 180 → tns.nbitsTns + 74 ≤ 8 * nbytes) :
    ∃ a, encAnalyse (Lc3Config.new f d) ch x nbytes = .ok a := by
  obtain ⟨hfreq, hbw, hltpf, hout, heb, hxq⟩ := hi
  have hne : (Lc3Config.new f d).ne ≤ (Lc3Config.new f d).nf := by cases f <;> cases d <;> decide
  have hfix : (Lc3Config.new f d).fsInd ≤ 4 ∧ clog2 ((Lc3Config.new f d).ne / 2) ≤ 8 ∧ (Lc3Config.new f d).ne ≤ 400 ∧
      bandLimit d (Lc3Config.new f d).fsInd ≤ (Lc3Config.new f d).ne ∧ (Lc3Config.new f d).nMs = d := by cases f <;> cases d <;> decide
  obtain ⟨hfs, hcl, hn4, hband, hd⟩ := hfix
  have hnb : (Lc3Config.new f d).nb = 64 := by
    cases f <;> cases d <;> first | rfl | exact absurd hbw (by rw [show (Lc3Config.new .hz8000 .sevenPointFiveMs).fsInd = 0 from rfl, bwNew_zero]; simp)
  obtain ⟨freq, eb, nn, out, wn, e1, -, -, -, hol⟩ := mdctEncRun_ok (f := f) (d := d) (by rw [hfreq, Nat.mul_comm]) hx
  have hebl : eb.length = 64 := by rw [(mdctEncRun_eb e1).2, hnb]
  obtain ⟨bw, nbw, e2, hbwle, hnbw, -⟩ := C34 _ hfs hbw hebl
  have hnbw3 : nbw ≤ 3 := by
    have key : ∀ i ≤ 4, ∀ n, NBITS_BW_TABLE[i]? = some n → n ≤ 3 := by
      intro i hi n hn
      have : i = 0 ∨ i = 1 ∨ i = 2 ∨ i = 3 ∨ i = 4 := by omega
      rcases this with rfl | rfl | rfl | rfl | rfl <;> (simp [NBITS_BW_TABLE] at hn; omega)
    exact key _ hfs _ hnbw
  obtain ⟨att, det, e3⟩ := attackRun_returns (f := f) (d := d) ch.attack nbytes hx
  have htl : (out.take (Lc3Config.new f d).ne).length = (Lc3Config.new f d).ne := by rw [List.length_take]; omega
  obtain ⟨sns, e4⟩ := C45_returns hnb htl hebl (attack := det)
    fun scf lf hf st1 r1 g1 g2 => hr.shape freq out eb nn att det scf lf hf st1 r1 e1 e3 g1 g2
  have hsl := (snsEncRun_len e4).2
  obtain ⟨tns, e5, htb, htll⟩ := tnsEncRun_returns (nbits := nbytes * 8) (nn := nn) hbwle hsl
    (hr.stable freq out eb nn bw nbw att det sns e1 e2 e3 e4)
  have h0 := hroom freq out eb nn bw nbw att det sns tns e1 e2 e3 e4 e5 htb
  have hrange := hr.range freq out eb nn bw nbw att det sns tns e1 e2 e3 e4 e5
  obtain ⟨ltpf, pf, e6, -, -, hpf, -⟩ := C41_run f d ch.ltpf hltpf x hx nn (nbytes * 8)
  have hpf11 : pf.nbitsLtpf ≤ 11 := by rw [hpf]; split <;> omega
  have hnf : nbitsFixed (Lc3Config.new f d).ne (nbytes * 8) ≤ 62 ∧ (nbytes * 8 ≤ 1280 → nbitsFixed (Lc3Config.new f d).ne (nbytes * 8) ≤ 60) := by
    unfold nbitsFixed
    split
    · omega
    · split <;> omega
  obtain ⟨quant, spec, e7⟩ := C44 f d (fsInd := (Lc3Config.new f d).fsInd) (nbits := nbytes * 8) (nbw := nbw) (ntns := tns.nbitsTns)
    (nltpf := pf.nbitsLtpf) (s := ch.quant) (xf := tns.lines) (by omega) (by rw [htll, hsl]) (by
      by_cases h : nbytes * 8 ≤ 1280
      · have := hnf.2 h; omega
      · omega) (ggMinOf_ge (ggOffEnc_neg _ _ (by omega)))
    (by
      have := ggMinOf_le (xf := tns.lines) (nbits := nbytes * 8) (fsInd := (Lc3Config.new f d).fsInd) (by omega) hfs
        (by rw [Nat.mul_comm]; exact hrange)
      omega)
  obtain ⟨-, hql, -, -⟩ := C27 f d e7
  obtain ⟨res, e8⟩ := residualEncode_returns (spec := spec.nbitsSpec) (trunc := spec.nbitsTrunc) (gg := spec.gg) (xf := tns.lines)
    (xq := spec.xq) hn4 (by rw [htll, hsl]) hql
  have hbl : bandLimit d bw ≤ (Lc3Config.new f d).ne := by
    refine le_trans ?_ hband
    unfold bandLimit
    split <;> exact Nat.mul_le_mul_left _ (by omega)
  have e9 := C39_lines (Lc3Config.new f d).nMs (bw := bw) (ne := (Lc3Config.new f d).ne) (xf := tns.lines) (xq := spec.xq) (by omega) spec.gg
    (by rw [hql, hd]; exact hbl) (by rw [hd]; exact hbl) (by rw [htll, hsl, hd]; exact hbl)
  unfold encAnalyse
  simp only
  rw [if_neg (by simp [hout, heb]), e1, Res.bind_ok]
  simp only
  rw [if_neg (by omega), e2, Res.bind_ok]
  simp only
  rw [e3, Res.bind_ok]
  simp only
  rw [e4, Res.bind_ok, e5, Res.bind_ok, e6, Res.bind_ok]
  simp only
  rw [if_neg (by simpa using hxq), e7, Res.bind_ok]
  simp only
  rw [e8, Res.bind_ok, e9, Res.bind_ok]
  exact ⟨_, rfl⟩

end Lc3
