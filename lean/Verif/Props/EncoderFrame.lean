import Verif.Props.Encoder
import Verif.Props.SnsInverse
import Verif.Props.EncLimiter
import Verif.Props.Residual
import Verif.Props.FrameRoundTrip
import Verif.Props.Tns
import Verif.Spec.EncoderFrame
/-!
# C46, C47: the parameters the encoder computes, and what the decoder reads

`encAnalyse` is the part of the encoder before the bit stream writer.
-/

namespace Lc3
open Scalar Tables

section
variable {α : Type} [Scalar α]

/-- the stages of a successful analysis -/
theorem encAnalyse_inv {cfg : Lc3Config} {ch : EncChannel α} {x : List Int} {nbytes : Nat} {a : EncAnalysis α}
    (h : encAnalyse cfg ch x nbytes = .ok a) :
    ∃ freq out eb nn bwInd nbitsBw attack det sns tns ltpf pf quant spec res nf,
      mdctEncRun (α := α) cfg ch.freq x = .ok (freq, out, eb, nn) ∧ cfg.ne ≤ out.length ∧
      bwRun ch.bw eb = .ok (bwInd, nbitsBw) ∧ attackRun cfg ch.attack x nbytes = .ok (attack, det) ∧
      snsEncRun cfg (out.take cfg.ne) eb det = .ok sns ∧ tnsEncRun cfg sns.x bwInd (nbytes * 8) nn = .ok tns ∧
      ch.ltpf.run cfg x nn (nbytes * 8) = .ok (ltpf, pf) ∧
      quantRun cfg.ne cfg.fsInd ch.quant tns.lines (nbytes * 8) nbitsBw tns.nbitsTns pf.nbitsLtpf = .ok (quant, spec) ∧
      residualEncode spec.nbitsSpec spec.nbitsTrunc cfg.ne spec.gg tns.lines spec.xq = .ok res ∧
      noiseFactor cfg.nMs cfg.ne tns.lines spec.xq bwInd spec.gg = .ok nf ∧
      a = ⟨freq, attack, ltpf, quant,
          { bandwidthInd := bwInd, nbitsBandwidth := nbitsBw, lastnz := spec.lastnzTrunc, lsbMode := spec.lsbMode
            ggInd := i32AsUsize spec.ggInd, numTns := tns.numFilters, rcOrder := tns.rcOrder, rcI := tns.rcI
            lpcWeighting := tns.lpcWeighting, pitchPresent := pf.pitchPresent, ltpfActive := pf.ltpfActive
            pitchIndex := pf.pitchIndex, indLf := sns.indLf, indHf := sns.indHf, shapeJ := sns.shapeJ, gind := sns.gind
            lsInda := i32AsUsize sns.lsInda, indexJoint := sns.indexJoint, noiseFactor := nf, rateFlag := spec.rateFlag
            nbitsLsb := spec.nbitsLsb, xq := spec.xq, residual := res }, out.take cfg.ne, tns.lines, spec.gg⟩ := by
  unfold encAnalyse at h
  simp only at h
  split at h
  · cases h
  obtain ⟨⟨freq, out, eb, nn⟩, h1, h⟩ := bind_ok_inv h
  simp only at h
  split at h
  · cases h
  rename_i hl
  obtain ⟨⟨bwInd, nbitsBw⟩, h2, h⟩ := bind_ok_inv h
  obtain ⟨⟨attack, det⟩, h3, h⟩ := bind_ok_inv h
  obtain ⟨sns, h4, h⟩ := bind_ok_inv h
  obtain ⟨tns, h5, h⟩ := bind_ok_inv h
  obtain ⟨⟨ltpf, pf⟩, h6, h⟩ := bind_ok_inv h
  simp only at h
  split at h
  · cases h
  obtain ⟨⟨quant, spec⟩, h7, h⟩ := bind_ok_inv h
  obtain ⟨res, h8, h⟩ := bind_ok_inv h
  obtain ⟨nf, h9, h⟩ := bind_ok_inv h
  simp only [Res.ok.injEq] at h
  exact ⟨_, _, _, _, _, _, _, _, _, _, _, _, _, _, _, _, h1, by omega, h2, h3, h4, h5, h6, h7, h8, h9, h.symm⟩

theorem energyBands_length {tab : List Nat} {out : List α} : ∀ {n b : Nat} {r : List α}, energyBands tab out b n = .ok r → r.length = n
  | 0, b, r, h => by
    simp only [energyBands, Res.ok.injEq] at h
    subst h; rfl
  | n + 1, b, r, h => by
    unfold energyBands at h
    obtain ⟨_, -, h⟩ := bind_ok_inv h
    obtain ⟨_, -, h⟩ := bind_ok_inv h
    obtain ⟨_, -, h⟩ := bind_ok_inv h
    obtain ⟨_, -, h⟩ := bind_ok_inv h
    obtain ⟨r', h1, h⟩ := bind_ok_inv h
    simp only [Res.ok.injEq] at h
    subst h
    simp [energyBands_length h1]

theorem mdctEncRun_eb {cfg : Lc3Config} {fr x freq : List Int} {out eb : List α} {nn : Bool}
    (h : mdctEncRun cfg fr x = .ok (freq, out, eb, nn)) : x.length = cfg.nf ∧ eb.length = cfg.nb := by
  unfold mdctEncRun at h
  split at h
  · cases h
  rename_i hx
  obtain ⟨_, -, h⟩ := bind_ok_inv h
  obtain ⟨_, -, h⟩ := bind_ok_inv h
  obtain ⟨_, -, h⟩ := bind_ok_inv h
  obtain ⟨_, -, h⟩ := bind_ok_inv h
  obtain ⟨eb', h1, h⟩ := bind_ok_inv h
  obtain ⟨_, -, h⟩ := bind_ok_inv h
  simp only [Res.ok.injEq, Prod.mk.injEq] at h
  obtain ⟨-, -, rfl, -⟩ := h
  exact ⟨by simpa using hx, energyBands_length h1⟩

/-- noise shaping runs only with 64 bands -/
theorem snsEncRun_nb {f : SamplingFrequency} {d : FrameDuration} {x eb : List α} {det : Bool} {r : SnsEncResult α}
    (h : snsEncRun (Lc3Config.new f d) x eb det = .ok r) : (Lc3Config.new f d).nb = 64 := by
  unfold snsEncRun at h
  split at h
  · cases h
  obtain ⟨scf, e1, h⟩ := bind_ok_inv h
  unfold snsTarget at e1
  obtain ⟨_, _, e1⟩ := bind_ok_inv e1
  obtain ⟨_, e1', -⟩ := bind_ok_inv e1
  revert e1'
  have hh : (Lc3Config.new f d).nb = 64 ∨ (Lc3Config.new f d).nb = 60 := by cases f <;> cases d <;> decide
  generalize (Lc3Config.new f d).nb = nb at hh
  rcases hh with rfl | rfl
  · intro _; rfl
  · unfold snsPad
    intro e1'
    rw [show usub 64 60 = .ok 4 from rfl, Res.bind_ok, if_pos (by norm_num), if_pos (by omega)] at e1'
    cases e1'

/-- coefficient indices whose bits can be looked up are in the alphabet -/
theorem tnsCoefBits_lt : ∀ {l : List Nat} {k r : Nat}, tnsCoefBits k l = .ok r → ∀ c ∈ l, c < 17
  | [], _, _, _, c, hc => by simp at hc
  | i :: is, k, r, h, c, hc => by
    unfold tnsCoefBits at h
    obtain ⟨row, h1, h⟩ := bind_ok_inv h
    obtain ⟨b, h2, h⟩ := bind_ok_inv h
    obtain ⟨r', h3, h⟩ := bind_ok_inv h
    rcases List.mem_cons.1 hc with rfl | hc
    · have hrow : ∀ row ∈ AC_TNS_COEF_BITS, row.length = 17 := by decide
      have := hrow row (idx_mem h1)
      rw [idx_ok_iff] at h2
      have := (List.getElem?_eq_some_iff.1 h2).1
      omega
    · exact tnsCoefBits_lt h3 c hc

/-- beyond the order all indices are 8 -/
theorem tnsOrder_drop : ∀ l : List Nat, ∀ c ∈ l.drop (tnsOrder l), c = 8
  | [], c, hc => by simp at hc
  | i :: is, c, hc => by
    unfold tnsOrder at hc
    simp only at hc
    have ih := tnsOrder_drop is
    by_cases h0 : tnsOrder is = 0
    · rw [if_pos h0] at hc
      rw [h0] at ih
      split at hc
      · rename_i h8
        rcases List.mem_cons.1 hc with rfl | hc
        · exact h8
        · exact ih c hc
      · exact ih c (by simpa using hc)
    · rw [if_neg h0] at hc
      exact ih c (by simpa using hc)

theorem tnsFilterBits_lt {w : Nat} {l : List Nat} {r : Nat} (h : tnsFilterBits α w l = .ok r) : ∀ c ∈ l, c < 17 := by
  unfold tnsFilterBits at h
  simp only at h
  obtain ⟨_, -, h⟩ := bind_ok_inv h
  obtain ⟨cb, h1, h⟩ := bind_ok_inv h
  intro c hc
  rw [← List.take_append_drop (tnsOrder l) l] at hc
  rcases List.mem_append.1 hc with hc | hc
  · exact tnsCoefBits_lt h1 c hc
  · rw [tnsOrder_drop l c hc]; norm_num

/-- the parameters of temporal noise shaping -/
theorem tnsEncRun_params {cfg : Lc3Config} {x : List α} {bw nbits : Nat} {nn : Bool} {res : TnsResult α}
    (h : tnsEncRun cfg x bw nbits nn = .ok res) :
    res.numFilters = (if bw < 3 then 1 else 2) ∧ res.rcOrder.length = 2 ∧ (∀ o ∈ res.rcOrder, o ≤ 8) ∧ res.rcI.length = 16 ∧
      (∀ c ∈ res.rcI, c < 17) ∧ res.lpcWeighting = lpcWeightingOf cfg.nMs nbits := by
  unfold tnsEncRun at h
  split at h
  · cases h
  obtain ⟨p, h1, h⟩ := bind_ok_inv h
  simp only at h
  obtain ⟨ints, e2, h⟩ := bind_ok_inv h
  obtain ⟨bits, e3, h⟩ := bind_ok_inv h
  obtain ⟨lines, -, h⟩ := bind_ok_inv h
  simp only [Res.ok.injEq] at h
  subst h
  simp only
  have hf := mapM_forall₂ e2
  have hf' := mapM_forall₂ e3
  have h2 : ints.length = p.numFilters := by rw [← hf.length_eq, (tnsParams_shape h1).2.1]
  have h3 : ∀ l ∈ ints, l.length = 8 := by
    intro l hl
    obtain ⟨i, hi, rfl⟩ := List.getElem_of_mem hl
    exact (tnsFilterInts_facts ((List.forall₂_iff_get.1 hf).2 i (by rw [hf.length_eq]; exact hi) hi)).1
  have hw : ∀ l ∈ ints, ∀ c ∈ l, c < 17 := by
    intro l hl
    obtain ⟨i, hi, rfl⟩ := List.getElem_of_mem hl
    exact tnsFilterBits_lt ((List.forall₂_iff_get.1 hf').2 i hi (by rw [← hf'.length_eq]; exact hi))
  have hn : p.numFilters = if bw < 3 then 1 else 2 := by
    revert h1
    generalize cfg.nMs = d
    intro h1
    match d, bw, h1 with
    | .tenMs, 0, h | .tenMs, 1, h | .tenMs, 2, h | .tenMs, 3, h | .tenMs, 4, h | .sevenPointFiveMs, 0, h | .sevenPointFiveMs, 1, h
    | .sevenPointFiveMs, 2, h | .sevenPointFiveMs, 3, h | .sevenPointFiveMs, 4, h =>
      injection h with h
      subst h
      rfl
    | .tenMs, n + 5, h | .sevenPointFiveMs, n + 5, h => cases h
  have hn2 : p.numFilters = 1 ∨ p.numFilters = 2 := by rw [hn]; split <;> simp
  refine ⟨hn, ?_, ?_, ?_, ?_, trivial⟩
  · simp; omega
  · intro o ho
    rcases List.mem_append.1 ho with ho | ho
    · obtain ⟨l, hl, rfl⟩ := List.mem_map.1 ho
      have := tnsOrder_le l
      have := h3 l hl
      omega
    · rw [List.eq_of_mem_replicate ho]; omega
  · rw [List.length_append, List.length_flatten, List.length_replicate]
    have : (ints.map List.length) = List.replicate ints.length 8 := by
      rw [List.eq_replicate_iff]
      refine ⟨by simp, ?_⟩
      intro n hn
      obtain ⟨l, hl, rfl⟩ := List.mem_map.1 hn
      exact h3 l hl
    rw [this]
    simp
    omega
  · intro c hc
    rcases List.mem_append.1 hc with hc | hc
    · obtain ⟨l, hl, hc⟩ := List.mem_flatten.1 hc
      exact hw l hl c hc
    · rw [List.eq_of_mem_replicate hc]; norm_num

theorem quantLine_hi (gg x : α) : quantLine gg x ≤ 32767 := by
  unfold quantLine toI16
  split <;> omega

/-- every coded line is the quantised value of a line -/
theorem coded_mem {xq : List Int} {n : Nat} {xf : List α} {gg : α} (hl : xq.length = xf.length)
    (h : ∀ k, k < n → xq.getD k 0 = (xf.map (quantLine gg)).getD k 0) {v : Int} (hv : v ∈ xq.take n) :
    ∃ x ∈ xf, v = quantLine gg x := by
  obtain ⟨k, hk, rfl⟩ := List.getElem_of_mem hv
  rw [List.length_take] at hk
  have := h k (by omega)
  rw [List.getD_eq_getElem _ _ (by omega), List.getD_eq_getElem _ _ (by simp; omega), List.getElem_map] at this
  exact ⟨_, List.getElem_mem (by omega : k < xf.length), by rw [List.getElem_take, this]⟩

/-- what noise shaping has to deliver -/
structure SnsFits (r : FrameParams) (q : PulseIdx) : Prop where
  lf : r.indLf < 32
  hf : r.indHf < 32
  shape : r.shapeJ < 4
  gain : r.gind < gainCount r.shapeJ
  sign : r.lsInda ≤ 1
  joint : r.indexJoint = jointIndex r.shapeJ r.gind q.idxa q.idxb q.lsIndb
  idxa : q.idxa < (if r.shapeJ ≤ 1 then 2390004 else if r.shapeJ = 2 then 15158272 else 774912)
  idxb : r.shapeJ = 0 → q.idxb < 6 ∧ q.lsIndb ≤ 1

/-- the parameters of the analysis are admissible if the quantised values are (gain, noise level, lines) -/
theorem encAnalyse_params {f : SamplingFrequency} {d : FrameDuration} {ch : EncChannel α} (hi : ch.Inv (Lc3Config.new f d))
    {x : List Int} {nbytes : Nat} {a : EncAnalysis α} (h : encAnalyse (Lc3Config.new f d) ch x nbytes = .ok a)
    (hnoise : ∀ l : α, noiseQuant l ≤ 7)
    {q : PulseIdx} (hq : SnsFits a.p q) :
    (a.p.ggInd < 256 → SideOk (Lc3Config.new f d) a.p q) ∧
      ((∀ v ∈ a.p.xq.take a.p.lastnz, v ≠ -32768) → DataOk (Lc3Config.new f d) nbytes a.p) := by
  obtain ⟨freq, out, eb, nn, bwInd, nbitsBw, attack, det, sns, tns, ltpf, pf, quant, spec, res, nf, h1, h2, h3, h4, h5, h6, h7,
    h8, h9, h10, rfl⟩ := encAnalyse_inv h
  obtain ⟨hx, hb⟩ := mdctEncRun_eb h1
  rw [snsEncRun_nb h5] at hb
  have hfs : (Lc3Config.new f d).fsInd ≤ 4 ∧ (Lc3Config.new f d).nMs = d := by cases f <;> cases d <;> decide
  obtain ⟨ind, nb, e1, e2, e3, -⟩ := C34 (α := α) (Lc3Config.new f d).nMs hfs.1 hi.bw hb
  rw [h3] at e1
  simp only [Res.ok.injEq, Prod.mk.injEq] at e1
  obtain ⟨rfl, rfl⟩ := e1
  obtain ⟨t1, t2, t3, t4, t5, t6⟩ := tnsEncRun_params h6
  obtain ⟨s', r, l1, -, l2, -⟩ := C41_run f d ch.ltpf hi.ltpf x hx nn (nbytes * 8)
  rw [h7] at l1
  simp only [Res.ok.injEq, Prod.mk.injEq] at l1
  obtain ⟨rfl, rfl⟩ := l1
  obtain ⟨c1, c2, -, c4⟩ := C27 f d h8
  obtain ⟨hl, -, _, _, _, _, _, qq, -, -, -, -, hqs, ho⟩ := quantRun_inv h8
  have hne : 2 ≤ (Lc3Config.new f d).ne ∧ (Lc3Config.new f d).ne % 2 = 0 := by cases f <;> cases d <;> decide
  obtain ⟨r', k1, -, -, -, -, k6, -, k8, -⟩ := C27_spectrum (α := α) (fsInd := (Lc3Config.new f d).fsInd) (nbits := nbytes * 8)
    (spec := spec.nbitsSpec) (ggOff := ggOffEnc (nbytes * 8) (Lc3Config.new f d).fsInd) (ggInd := spec.ggInd) hne.1 hne.2 hl
  rw [hqs] at k1
  obtain rfl : qq = r' := by simpa using k1
  have hxq : spec.xq = qq.xq := by rw [ho]
  have hrf : spec.rateFlag = qq.bc.rateFlag := by rw [ho]
  rw [← hxq] at k6
  have hn : nf ≤ 7 := by
    unfold noiseFactor at h10
    obtain ⟨⟨b, s, w⟩, -, h10⟩ := bind_ok_inv h10
    simp only at h10
    obtain ⟨⟨sum, count⟩, -, h10⟩ := bind_ok_inv h10
    simp only [Res.ok.injEq] at h10
    rw [← h10]
    exact hnoise _
  refine ⟨fun hg => ⟨e3, e2, c1.even, c1.two, by rw [← c2]; exact c1.le, hg, t1, t2, l2, hq.lf, hq.hf, hq.shape, hq.gain, hq.sign,
    hq.joint, hq.idxa, hq.idxb, Nat.lt_succ_of_le hn⟩, fun hr => ⟨?_, t3, t5, t4, ?_, c1.le, ?_⟩⟩
  · simp only
    rw [t6, hfs.2]
    cases d
    · simp [lpcWeightingOf, Nat.mul_comm]
    · simp [lpcWeightingOf, Nat.mul_comm]
  · simp only
    rw [hrf, k8]
    unfold encRateFlag
    congr 1
    rw [gt_iff_lt, Nat.mul_comm 8, Nat.mul_comm 160]
  · intro v hv
    have := k6 v (List.mem_of_mem_take hv)
    have := hr v hv
    obtain ⟨y, -, hy⟩ := coded_mem (by rw [c2, hl]) c4 hv
    have := quantLine_hi spec.gg y
    omega

/-- the time buffer keeps its length -/
theorem mdctEncRun_freq {cfg : Lc3Config} {fr x freq : List Int} {out eb : List α} {nn : Bool}
    (h : mdctEncRun cfg fr x = .ok (freq, out, eb, nn)) (hz : cfg.z ≤ cfg.nf) (hf : fr.length = cfg.nf * 2) :
    freq.length = cfg.nf * 2 := by
  unfold mdctEncRun at h
  split at h
  · cases h
  obtain ⟨fr', h1, h⟩ := bind_ok_inv h
  obtain ⟨_, -, h⟩ := bind_ok_inv h
  obtain ⟨_, -, h⟩ := bind_ok_inv h
  obtain ⟨_, -, h⟩ := bind_ok_inv h
  obtain ⟨_, -, h⟩ := bind_ok_inv h
  obtain ⟨_, -, h⟩ := bind_ok_inv h
  simp only [Res.ok.injEq, Prod.mk.injEq] at h
  obtain ⟨rfl, -⟩ := h
  unfold mdctUpdate usub at h1
  rw [if_pos hz, Res.bind_ok] at h1
  split at h1
  · cases h1
  · rename_i hc
    simp only [Res.ok.injEq] at h1
    rw [← h1]
    simp only [List.length_append, List.length_take, List.length_drop]
    omega

/-- the invariant of a channel survives a frame, whatever the signal and the length of the frame are -/
theorem encodeChannel_keeps {f : SamplingFrequency} {d : FrameDuration} {ch ch' : EncChannel α} {x : List Int} {buf bytes : List Nat}
    (hi : ch.Inv (Lc3Config.new f d)) (h : encodeChannel (Lc3Config.new f d) ch x buf = .ok (ch', bytes)) :
    ch'.Inv (Lc3Config.new f d) := by
  unfold encodeChannel at h
  obtain ⟨a, ha, h⟩ := bind_ok_inv h
  obtain ⟨b, -, h⟩ := bind_ok_inv h
  simp only [Res.ok.injEq, Prod.mk.injEq] at h
  obtain ⟨rfl, -⟩ := h
  obtain ⟨freq, out, eb, nn, bwInd, nbitsBw, attack, det, sns, tns, ltpf, pf, quant, spec, res, nf, e1, -, -, -, -, -, e7, -, -, -,
    rfl⟩ := encAnalyse_inv ha
  obtain ⟨hx, -⟩ := mdctEncRun_eb e1
  obtain ⟨s', r, l1, l2, -⟩ := C41_run f d ch.ltpf hi.ltpf x hx nn (buf.length * 8)
  rw [e7] at l1
  simp only [Res.ok.injEq, Prod.mk.injEq] at l1
  obtain ⟨rfl, rfl⟩ := l1
  exact ⟨mdctEncRun_freq e1 (by cases f <;> cases d <;> decide) hi.freq, hi.bw, l2, hi.out, hi.eb, hi.xq⟩

end

theorem noiseQuant_real (l : ℝ) : noiseQuant l ≤ 7 := by
  unfold noiseQuant
  simp only
  split
  · rename_i h
    have h0 : (0 : ℝ) ≤ ofRat 8 - ofRat 16 * l := by
      unfold geS at h
      rw [Bool.or_eq_true] at h
      have hz : (zero : ℝ) = 0 := by show ((0 : ℚ) : ℝ) = 0; norm_num
      rw [hz] at h
      rcases h with h | h
      · exact (of_decide_eq_true h).le
      · exact (of_decide_eq_true h).ge
    have h2 : (0 : ℝ) ≤ ofRat 8 - ofRat 16 * l + ofRat (1 / 2) := by
      have : (0 : ℝ) ≤ ofRat (1 / 2) := by show (0 : ℝ) ≤ ((1 / 2 : ℚ) : ℝ); norm_num
      linarith
    have h3 : 0 ≤ toI32 (ofRat 8 - ofRat 16 * l + ofRat (1 / 2) : ℝ) := by
      show 0 ≤ realToI32 _
      unfold realToI32
      rw [if_pos h2]
      have := Int.floor_nonneg.2 h2
      omega
    unfold i32AsUsize
    omega
  · omega

/-! ## Exact arithmetic -/

theorem quantLine_real_neg {g x : ℝ} (hg : 0 < g) (hb : |x| / g + 3 / 8 ≤ 32768) (hne : x ≠ -(32768 - 3 / 8) * g) :
    quantLine g x ≠ -32768 := by
  have hz : (zero : ℝ) = 0 := by show ((0 : ℚ) : ℝ) = 0; norm_num
  unfold quantLine
  by_cases h : 0 ≤ x
  · have hge : geS x zero = true := by
      unfold geS
      rw [hz, Bool.or_eq_true]
      rcases h.lt_or_eq with h | h
      · exact .inl (decide_eq_true h)
      · exact .inr (decide_eq_true h.symm)
    rw [if_pos hge]
    have h1 : (0 : ℝ) ≤ x / g + ofRat (3 / 8) := by
      have : (0 : ℝ) ≤ ofRat (3 / 8) := by show (0 : ℝ) ≤ ((3 / 8 : ℚ) : ℝ); norm_num
      positivity
    have h2 : 0 ≤ toI32 (x / g + ofRat (3 / 8) : ℝ) := by
      show 0 ≤ realToI32 _
      unfold realToI32
      rw [if_pos h1]
      have := Int.floor_nonneg.2 h1
      omega
    unfold toI16
    omega
  · have hx : x < 0 := not_le.1 h
    have hge : geS x zero = false := by
      unfold geS
      rw [hz, Bool.or_eq_false_iff]
      exact ⟨decide_eq_false (by show ¬ (0 : ℝ) < x; linarith), decide_eq_false (by show ¬ x = 0; linarith)⟩
    rw [if_neg (by rw [hge]; decide)]
    have he : (x / g - ofRat (3 / 8) : ℝ) = x / g - 3 / 8 := by
      congr 1
      show ((3 / 8 : ℚ) : ℝ) = 3 / 8
      norm_num
    rw [he]
    rw [abs_of_neg hx, neg_div] at hb
    have h1 : -32768 < x / g - 3 / 8 := by
      rcases (by linarith : -32768 ≤ x / g - 3 / 8).lt_or_eq with h | h
      · exact h
      · exfalso
        apply hne
        have : x / g = -(32768 - 3 / 8) := by linarith
        rw [div_eq_iff hg.ne'] at this
        exact this
    have h2 : -32767 ≤ ⌈x / g - 3 / 8⌉ := by
      have : (-32768 : ℤ) < ⌈x / g - 3 / 8⌉ := by rw [Int.lt_ceil]; push_cast; exact h1
      omega
    have h3 : ¬ 0 ≤ x / g - 3 / 8 := by
      have : x / g < 0 := div_neg_of_neg_of_pos hx hg
      linarith
    unfold toI16
    show max (-32768) (min 32767 (realToI32 _)) ≠ _
    unfold realToI32
    rw [if_neg h3]
    omega

theorem ggDelta_real_nonneg {fsInd est : Nat} (hi : fsInd < 5) :
    0 ≤ (ggDelta (GG_T1.getD fsInd 0) (GG_T2.getD fsInd 0) (GG_T3.getD fsInd 0) est : ℝ) := by
  have h0 : 0 ≤ (ggDelta0 (GG_T1.getD fsInd 0) (GG_T2.getD fsInd 0) (GG_T3.getD fsInd 0) est : ℝ) := by
    have hr : ∀ q : ℚ, (ofRat q : ℝ) = (q : ℝ) := fun _ => rfl
    have hint : ∀ n : ℕ, (ofInt (n : ℤ) : ℝ) = (n : ℝ) := fun n => by
      show (((n : ℤ) : ℚ) : ℝ) = _
      norm_cast
    unfold ggDelta0
    simp only [hr, hint]
    have hcases : fsInd = 0 ∨ fsInd = 1 ∨ fsInd = 2 ∨ fsInd = 3 ∨ fsInd = 4 := by omega
    have he : (0 : ℝ) ≤ est := by positivity
    split
    · push_cast; positivity
    · rename_i h1
      split
      · have h1' : ((GG_T1.getD fsInd 0 : ℕ) : ℝ) ≤ est := by exact_mod_cast not_lt.1 h1
        rcases hcases with rfl | rfl | rfl | rfl | rfl <;> simp [GG_T1, GG_T2] at h1' ⊢ <;>
        · have h2 := (Nat.cast_le (α := ℝ)).2 h1'
          push_cast at h2
          linarith
      · split
        · push_cast; positivity
        · push_cast; positivity
  unfold ggDelta
  show (0 : ℝ) ≤ ((⌊_⌋ : ℤ) : ℝ)
  have : (0 : ℤ) ≤ ⌊(ggDelta0 (GG_T1.getD fsInd 0) (GG_T2.getD fsInd 0) (GG_T3.getD fsInd 0) est : ℝ) + ofRat (1 / 2)⌋ := by
    apply Int.floor_nonneg.2
    have : (0 : ℝ) ≤ ofRat (1 / 2) := by show (0 : ℝ) ≤ ((1 / 2 : ℚ) : ℝ); norm_num
    linarith
  exact_mod_cast this

theorem ggOffEnc_spec {nbits fsInd : Nat} (hn : nbits < 32768) : ggOffEnc nbits fsInd = Spec.gainOffset nbits fsInd := by
  unfold ggOffEnc Spec.gainOffset toI16Wrap
  simp only
  rw [if_pos (by omega), Nat.mod_eq_of_lt (by omega), Int.tdiv_eq_ediv_of_nonneg (by positivity)]
  push_cast
  rfl

theorem maxAbs_le {xf : List ℝ} {b : ℝ} (hb : 0 ≤ b) (h : ∀ x ∈ xf, |x| ≤ b) : maxAbs xf ≤ b := by
  rw [maxAbs_real]
  have key : ∀ (l : List ℝ) (m : ℝ), m ≤ b → (∀ x ∈ l, |x| ≤ b) → l.foldl (fun m x => max m |x|) m ≤ b := by
    intro l
    induction l with
    | nil => intro m hm _; exact hm
    | cons y ys ih =>
      intro m hm hl
      exact ih _ (max_le hm (hl y (by simp))) fun x hx => hl x (by simp [hx])
  exact key xf 0 hb h

/-- the limiter bound is at most 255 if all lines are in the range of the quantiser -/
theorem ggMinOf_le {xf : List ℝ} {nbits fsInd : Nat} (hn : nbits < 32768) (hfs : fsInd ≤ 4)
    (h : ∀ x ∈ xf, |x| ≤ Spec.maxLine nbits fsInd) : ggMinOf xf (ggOffEnc nbits fsInd) ≤ 255 := by
  have hoff : -300 ≤ Spec.gainOffset nbits fsInd := by unfold Spec.gainOffset; omega
  rw [ggOffEnc_spec hn]
  have hg : 0 < Spec.stepOf nbits fsInd 255 := by unfold Spec.stepOf; positivity
  have hm : maxAbs xf ≤ Spec.maxLine nbits fsInd := maxAbs_le (by unfold Spec.maxLine; positivity) h
  unfold ggMinOf
  split
  · rename_i hl
    have hpos : 0 < maxAbs xf := by
      have : ((0 : ℚ) : ℝ) < maxAbs xf := of_decide_eq_true hl
      simpa using this
    have hlog : 28 * Real.logb 10 (maxAbs xf / (32768 - 3 / 8)) ≤ ((255 + Spec.gainOffset nbits fsInd : ℤ) : ℝ) := by
      have h1 : maxAbs xf / (32768 - 3 / 8) ≤ Spec.stepOf nbits fsInd 255 := by
        rw [div_le_iff₀ (by norm_num)]
        unfold Spec.maxLine at hm
        linarith
      have h2 := (Real.logb_le_logb (b := 10) (by norm_num) (by positivity) hg).2 h1
      have h3 : Real.logb 10 (Spec.stepOf nbits fsInd 255) = ((255 : ℝ) + Spec.gainOffset nbits fsInd) / 28 := by
        unfold Spec.stepOf
        rw [Real.logb_rpow (by norm_num) (by norm_num)]
        norm_num
      rw [h3, le_div_iff₀ (by norm_num)] at h2
      push_cast
      linarith
    have he : (ceilS ((ofRat 28 : ℝ) * log10 (maxAbs xf / (ofRat 32768 - ofRat (3 / 8))))) =
        ((⌈28 * Real.logb 10 (maxAbs xf / (32768 - 3 / 8))⌉ : ℤ) : ℝ) := by
      show ((⌈((28 : ℚ) : ℝ) * Real.logb 10 (maxAbs xf / (((32768 : ℚ) : ℝ) - ((3 / 8 : ℚ) : ℝ)))⌉ : ℤ) : ℝ) = _
      norm_num
    have hc : ⌈28 * Real.logb 10 (maxAbs xf / (32768 - 3 / 8))⌉ ≤ 255 + Spec.gainOffset nbits fsInd := Int.ceil_le.2 hlog
    rw [he]
    generalize ⌈28 * Real.logb 10 (maxAbs xf / (32768 - 3 / 8))⌉ = c at hc
    have ht : (toI32 ((c : ℤ) : ℝ) : ℤ) = max (-2147483648) (min 2147483647 c) := by
      show realToI32 _ = _
      unfold realToI32
      simp
    unfold toI16
    rw [ht]
    omega
  · omega

/-- the gain index over the reals -/
theorem ggInd_real {ne fsInd nbits nbw ntns nltpf : Nat} {s s' : QuantSt ℝ} {xf : List ℝ} {o : QuantOut ℝ}
    (h : quantRun ne fsInd s xf nbits nbw ntns nltpf = .ok (s', o)) (hm : ggMinOf xf (ggOffEnc nbits fsInd) ≤ 255) :
    0 ≤ o.ggInd ∧ o.ggInd ≤ 255 := by
  obtain ⟨-, hb, ind0, reset, ggMin, ggInd, q0, q, h1, h2, -, h3, -⟩ := quantRun_inv h
  have hs := C26_search (spectralEnergy (ne / 4) xf) (nbitsSpecAdj o.nbitsSpec (nbitsOffset s)) (ggOffEnc nbits fsInd)
  rw [← h1] at hs
  have hz0 : (zero : ℝ) = 0 := by show ((0 : ℚ) : ℝ) = 0; norm_num
  have hz : eq (maxAbs xf) zero = true → ggMinOf xf (ggOffEnc nbits fsInd) = 0 := by
    intro he
    have he' : maxAbs xf = zero := of_decide_eq_true he
    unfold ggMinOf
    rw [he', if_neg]
    rw [hz0]
    show ¬ (decide ((0 : ℝ) < 0) = true)
    simp
  obtain ⟨g1, g2, g3, -⟩ := ggLimit_bounds hs.1 hs.2 h2 hm hz
  refine ggAdjust_bounds g2 g3 (by omega) h3 ?_
  intro i hi hse
  have hnn := ggDelta_real_nonneg (est := q0.bc.nbitsEst) hi
  have hint : ∀ n : ℕ, (ofInt (n : ℤ) : ℝ) = (n : ℝ) := fun n => by
    show (((n : ℤ) : ℚ) : ℝ) = _
    norm_cast
  rw [hint, hint]
  apply decide_eq_false
  have h2' : (0 : ℝ) ≤ ofRat 2 := by show (0 : ℝ) ≤ ((2 : ℚ) : ℝ); norm_num
  have : (o.nbitsSpec : ℝ) < q0.bc.nbitsEst := by exact_mod_cast hse
  show ¬ (_ : ℝ) < _
  linarith

/-- the facts behind `C46`, together with the reversal of spectral noise shaping -/
theorem encAnalyse_real {f : SamplingFrequency} {d : FrameDuration} {ch : EncChannel ℝ} (hi : ch.Inv (Lc3Config.new f d))
    {x : List Int} {nbytes : Nat} (hN : nbytes < 4096) {a : EncAnalysis ℝ} (h : encAnalyse (Lc3Config.new f d) ch x nbytes = .ok a)
    (hr : ∀ y ∈ a.lines, |y| ≤ Spec.maxLine (8 * nbytes) (Lc3Config.new f d).fsInd)
    (hne : ∀ y ∈ a.lines, y ≠ -(32768 - 3 / 8) * a.gg) :
    ∃ q : PulseIdx, SideOk (Lc3Config.new f d) a.p q ∧ DataOk (Lc3Config.new f d) nbytes a.p ∧
      a.gg = Spec.stepOf (8 * nbytes) (Lc3Config.new f d).fsInd a.p.ggInd ∧
      ∃ shaped, snsDecode (Lc3Config.new f d) (expectedSide a.p q).snsVq shaped = .ok a.mdct ∧ shaped.length = a.mdct.length ∧
        ∃ nn tns, tnsEncRun (Lc3Config.new f d) shaped a.p.bandwidthInd (nbytes * 8) nn = .ok tns ∧ tns.lines = a.lines ∧
          a.p.numTns = tns.numFilters ∧ a.p.rcOrder = tns.rcOrder ∧ a.p.rcI = tns.rcI := by
  have hpar := fun q => encAnalyse_params (q := q) hi h noiseQuant_real
  obtain ⟨freq, out, eb, nn, bwInd, nbitsBw, attack, det, sns, tns, ltpf, pf, quant, spec, res, nf, e1, e2, e3, e4, e5, e6, e7,
    e8, e9, e10, ha⟩ := encAnalyse_inv h
  obtain ⟨q, g1, g2, g3, g4, g5, g6, g7, g8, g9, g10⟩ := C45 e5 (p := a.p) (by rw [ha]) (by rw [ha]) (by rw [ha]) (by rw [ha])
    (by rw [ha]) (by rw [ha])
  obtain ⟨h1, h2⟩ := hpar q ⟨g1, g2, g3, g4, g5, g6, g7, g8⟩
  subst ha
  simp only at hr hne h1 h2 ⊢
  have hfs : (Lc3Config.new f d).fsInd ≤ 4 := by cases f <;> cases d <;> decide
  have hg := ggInd_real e8 (ggMinOf_le (by omega) hfs (by rw [Nat.mul_comm]; exact hr))
  have hgi : i32AsUsize spec.ggInd = spec.ggInd.toNat := i32AsUsize_of_nonneg hg.1 (by omega)
  refine ⟨q, h1 (by rw [hgi]; omega), h2 ?_, ?_, sns.x, g10, g9, nn, tns, e6, rfl, rfl, rfl, rfl⟩
  · intro v hv
    obtain ⟨c1, c2, -, c4⟩ := C27 f d e8
    obtain ⟨hl, -⟩ := quantRun_inv e8
    obtain ⟨y, hy, rfl⟩ := coded_mem (by rw [c2, hl]) c4 hv
    obtain ⟨p1, p2⟩ := C43 (by omega) e8
    exact quantLine_real_neg p1 (p2 y hy) (hne y hy)
  · obtain ⟨-, -, _, _, _, _, _, qq, -, -, -, -, hq, ho⟩ := quantRun_inv e8
    have hgg : qq.gg = ggValue spec.ggInd (ggOffEnc (nbytes * 8) (Lc3Config.new f d).fsInd) := by
      unfold quantSpectrum at hq
      obtain ⟨bc, -, hq⟩ := Res.bind_eq_ok.1 hq
      split at hq
      · simp only [Res.ok.injEq] at hq
        rw [← hq]
      · cases hq
    rw [ho]
    simp only
    rw [hgg, ggOffEnc_spec (by omega), hgi, Nat.mul_comm]
    unfold ggValue Spec.stepOf
    show (10 : ℝ) ^ ((((spec.ggInd : ℚ) : ℝ) + (((Spec.gainOffset (8 * nbytes) (Lc3Config.new f d).fsInd : ℤ) : ℚ) : ℝ)) / ((28 : ℚ) : ℝ)) = _
    have : ((spec.ggInd : ℚ) : ℝ) = ((spec.ggInd.toNat : ℕ) : ℝ) := by
      have : ((spec.ggInd.toNat : ℕ) : ℤ) = spec.ggInd := Int.toNat_of_nonneg hg.1
      rw [← this]
      norm_cast
    rw [this]
    push_cast
    rfl

/-- **C46** In exact arithmetic, for every configuration, state and signal: if the analysis returns, all parameters are admissible, that
is within the fields of the bit stream, provided the lines are in the range of the quantiser and no line lies exactly on the lower
end of its last interval; and the gain the lines were divided by is the gain of the transmitted index. -/
theorem C46 {f : SamplingFrequency} {d : FrameDuration} {ch : EncChannel ℝ} (hi : ch.Inv (Lc3Config.new f d))
    {x : List Int} {nbytes : Nat} (hN : nbytes < 4096) {a : EncAnalysis ℝ} (h : encAnalyse (Lc3Config.new f d) ch x nbytes = .ok a)
    (hr : ∀ y ∈ a.lines, |y| ≤ Spec.maxLine (8 * nbytes) (Lc3Config.new f d).fsInd)
    (hne : ∀ y ∈ a.lines, y ≠ -(32768 - 3 / 8) * a.gg) :
    ∃ q : PulseIdx, SideOk (Lc3Config.new f d) a.p q ∧ DataOk (Lc3Config.new f d) nbytes a.p ∧
      a.gg = Spec.stepOf (8 * nbytes) (Lc3Config.new f d).fsInd a.p.ggInd := by
  obtain ⟨q, h1, h2, h3, -⟩ := encAnalyse_real hi hN h hr hne
  exact ⟨q, h1, h2, h3⟩

/-- The hypotheses under which a frame is decoded: the channel is one of the encoder, the analysis of the signal `x` returned `a`,
all lines are in the range of the quantiser, the frame is in normal mode, and (conditions of `C04`) the body fits by the encoder's own
count, the final value of the range coder does not wrap or 22 bits stay unused, and the seed computation of the decoder does not
overflow. -/
structure CodedFrame (checks : Bool) (f : SamplingFrequency) (d : FrameDuration) (ch : EncChannel ℝ) (x : List Int) (buf : List Nat)
    (a : EncAnalysis ℝ) (s : EncSt) (t : Nat) : Prop where
  inv : ch.Inv (Lc3Config.new f d)
  len : buf.length < 4096
  analysed : encAnalyse (Lc3Config.new f d) ch x buf.length = .ok a
  range : ∀ y ∈ a.lines, |y| ≤ Spec.maxLine (8 * buf.length) (Lc3Config.new f d).fsInd
  inside : ∀ y ∈ a.lines, y ≠ -(32768 - 3 / 8) * a.gg
  mode : a.p.lsbMode = false
  body : ∃ lsbs, encodeBody (Lc3Config.new f d).ne a.p ch.bits buf = .ok (lsbs, s)
  fits : Fits buf.length s t
  wrap : ¬ finalValueWraps s.ac ∨ t + nbitsAriForecast s + a.p.residual.length + 22 ≤ 8 * buf.length
  seed : checks = false ∨ weightedSum (a.p.xq.take a.p.lastnz) < 2 ^ 31

theorem CodedFrame.read {checks : Bool} {f : SamplingFrequency} {d : FrameDuration} {ch : EncChannel ℝ} {x : List Int} {buf : List Nat}
    {a : EncAnalysis ℝ} {s : EncSt} {t : Nat} (h : CodedFrame checks f d ch x buf a s t) {q : PulseIdx}
    (h1 : SideOk (Lc3Config.new f d) a.p q) (h2 : DataOk (Lc3Config.new f d) buf.length a.p) :
    ∃ ch' bytes bits, encodeChannel (Lc3Config.new f d) ch x buf = .ok (ch', bytes) ∧ ch'.Inv (Lc3Config.new f d) ∧
      bytes.length = buf.length ∧
      readFrame checks (Lc3Config.new f d) bytes = .ok (expectedSide a.p q,
        ⟨expectedOrders a.p, expectedTnsIdx a.p, bits, expectedSeed a.p, expectedZero a.p, 8 * buf.length⟩, expectedX a.p) ∧
      bits.length = min (encoderRoom buf.length s t + if s.ac.cache < 0 then 8 else 0) (nonZeroLines a.p) ∧
      (∀ i, i < encoderRoom buf.length s t → i < a.p.residual.length → i < nonZeroLines a.p → bits[i]? = a.p.residual[i]?) := by
  obtain ⟨lsbs, hb⟩ := h.body
  obtain ⟨s', bits, e1, e2, e3, e4, e5⟩ := C04_partial checks h1 h2 (by have := h.len; omega) h.mode hb h.fits h.wrap h.seed
  have he : ∃ ch', encodeChannel (Lc3Config.new f d) ch x buf = .ok (ch', s'.buf) := by
    unfold encodeChannel
    rw [h.analysed, Res.bind_ok, e1]
    exact ⟨_, rfl⟩
  obtain ⟨ch', he⟩ := he
  exact ⟨ch', s'.buf, bits, he, encodeChannel_keeps h.inv he, e2, e3, e4, e5⟩

/-- **C47** From the signal to the parsed frame, in exact arithmetic: the encoder writes a frame of the length of the buffer, its
channel stays usable, and the decoder's parser returns exactly the parameters, the quantised lines and the refinement bits the
analysis computed. -/
theorem C47 {checks : Bool} {f : SamplingFrequency} {d : FrameDuration} {ch : EncChannel ℝ} {x : List Int} {buf : List Nat}
    {a : EncAnalysis ℝ} {s : EncSt} {t : Nat} (h : CodedFrame checks f d ch x buf a s t) :
    ∃ q ch' bytes bits, encodeChannel (Lc3Config.new f d) ch x buf = .ok (ch', bytes) ∧ ch'.Inv (Lc3Config.new f d) ∧
      bytes.length = buf.length ∧
      readFrame checks (Lc3Config.new f d) bytes = .ok (expectedSide a.p q,
        ⟨expectedOrders a.p, expectedTnsIdx a.p, bits, expectedSeed a.p, expectedZero a.p, 8 * buf.length⟩, expectedX a.p) ∧
      bits.length = min (encoderRoom buf.length s t + if s.ac.cache < 0 then 8 else 0) (nonZeroLines a.p) ∧
      (∀ i, i < encoderRoom buf.length s t → i < a.p.residual.length → i < nonZeroLines a.p → bits[i]? = a.p.residual[i]?) := by
  obtain ⟨q, h1, h2, -⟩ := C46 h.inv h.len h.analysed h.range h.inside
  obtain ⟨ch', bytes, bits, hh⟩ := h.read h1 h2
  exact ⟨q, ch', bytes, bits, hh⟩

end Lc3
