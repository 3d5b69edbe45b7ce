import Verif.Lemmas.MdctError
import Verif.Props.CodecError
import Verif.Props.PostFilter
import Verif.Props.Silence
/-!
# C58, C59: the error of the decoded samples

In exact arithmetic. `C58`: an error in the spectra of two consecutive frames leads to a bounded error of the samples. `C59`: the samples
that come out of encoder and decoder are the samples that went in, delayed, up to an error bounded by the distance of the spectra and
the rounding.
-/

namespace Lc3
open Scalar Spec Finset

/-- the second of two frames: the samples of the input, delayed, plus the transformed errors of both spectra -/
theorem twoFrames {f : SamplingFrequency} {d : FrameDuration} {wn : List Rat}
    (H : MdctOk (Lc3Config.new f d) ((Lc3Config.new f d).nf / 2) wn) {freq freq1 freq2 x0 x1 : List Int} {L0 eb0 L1 eb1 : List ℝ}
    {nn0 nn1 : Bool} (hl : freq.length = 2 * (Lc3Config.new f d).nf) (hx0 : x0.length = (Lc3Config.new f d).nf)
    (hx1 : x1.length = (Lc3Config.new f d).nf) (e0 : mdctEncRun (Lc3Config.new f d) freq x0 = .ok (freq1, L0, eb0, nn0))
    (e1 : mdctEncRun (Lc3Config.new f d) freq1 x1 = .ok (freq2, L1, eb1, nn1)) {mem S0 S1 : List ℝ}
    (hm : mem.length = (Lc3Config.new f d).nf - (Lc3Config.new f d).z) (h0 : S0.length = (Lc3Config.new f d).ne)
    (h1 : S1.length = (Lc3Config.new f d).ne) :
    ∃ mem1 out0 mem2 out1, mdctDecRun (Lc3Config.new f d) mem S0 = .ok (mem1, out0) ∧
      mdctDecRun (Lc3Config.new f d) mem1 S1 = .ok (mem2, out1) ∧ out1.length = (Lc3Config.new f d).nf ∧
      ∀ j, j < (Lc3Config.new f d).nf → out1.getD j 0
        - (Overlap.weight wn (Lc3Config.new f d).nf (((Lc3Config.new f d).z + j) % (Lc3Config.new f d).nf) : ℝ)
          * ((x0 ++ x1).getD (j + 2 * (Lc3Config.new f d).z) 0 : ℝ)
        = timeAt ((Lc3Config.new f d).nf / 2) wn (fun k => S1.getD k 0 - L1.getD k 0) ((Lc3Config.new f d).z + j)
          + if j < (Lc3Config.new f d).nf - (Lc3Config.new f d).z then
              timeAt ((Lc3Config.new f d).nf / 2) wn (fun k => S0.getD k 0 - L0.getD k 0)
                ((Lc3Config.new f d).nf + (Lc3Config.new f d).z + j)
            else 0 := by
  obtain ⟨freq1', eb', nn', L0', wn', g0, hw, u0, a0, -⟩ := mdctEncRun_ok hl hx0
  rw [H.win] at hw
  cases hw
  rw [e0] at g0
  cases g0
  have hz := H.z
  obtain ⟨-, hl1, -, hnew⟩ := mdctUpdate_ok hz hl u0
  obtain ⟨freq2', eb', nn', L1', wn', g1, hw, u1, a1, -⟩ := mdctEncRun_ok hl1 hx1
  rw [H.win] at hw
  cases hw
  rw [e1] at g1
  cases g1
  obtain ⟨-, hl2, -, -⟩ := mdctUpdate_ok hz hl1 u1
  generalize Lc3Config.new f d = cfg at *
  refine ⟨_, _, _, _, mdctDecRun_lines H h0 hm, mdctDecRun_lines H h1 (by simp), by simp, ?_⟩
  intro j hj
  have hs := mdctUpdate_stream hz hl1 hx0 hnew u1 hj []
  have hc := alias_cancel H hl1 u1 hj
  rw [List.append_nil] at hs
  rw [← hs, ← hc, getD_of_lt (by simpa using hj), List.getElem_map, List.getElem_range, timeAt_sub, timeAt_sub,
    timeAt_analysed H hl2 a1 (by omega)]
  by_cases hjz : j < cfg.nf - cfg.z
  · rw [if_pos hjz, if_pos hjz, if_pos hjz, getD_of_lt (by simpa using hjz), List.getElem_map, List.getElem_range,
      timeAt_analysed H hl1 a0 (by omega)]
    ring
  · rw [if_neg hjz, if_neg hjz, if_neg hjz]
    ring

theorem timeAt_abs {f : SamplingFrequency} {d : FrameDuration} {wn : List Rat}
    (H : MdctOk (Lc3Config.new f d) ((Lc3Config.new f d).nf / 2) wn) (S L : List ℝ) {p : Nat} (hp : p < 2 * (Lc3Config.new f d).nf) :
    |timeAt ((Lc3Config.new f d).nf / 2) wn (fun k => S.getD k 0 - L.getD k 0) p|
      ≤ 133 / 125 * lineDist (Lc3Config.new f d).nf S L := by
  have hw := window_max H.win (4 * ((Lc3Config.new f d).nf / 2) - 1 - p)
  have hn := H.nf
  have hpos : 0 < (Lc3Config.new f d).nf := by cases f <;> cases d <;> decide
  generalize Lc3Config.new f d = cfg at *
  have ha := aliased_abs (h := cfg.nf / 2) (by omega) (fun k => S.getD k 0 - L.getD k 0) (p := p) (by omega)
  rw [← hn] at ha
  unfold timeAt
  rw [abs_mul]
  calc _ ≤ lineDist cfg.nf S L * (133 / 125) := mul_le_mul ha hw (abs_nonneg _) (Real.sqrt_nonneg _)
    _ = _ := by ring

theorem timeAt_energy {f : SamplingFrequency} {d : FrameDuration} {wn : List Rat}
    (H : MdctOk (Lc3Config.new f d) ((Lc3Config.new f d).nf / 2) wn) (S L : List ℝ) {a n : Nat} (hp : a + n ≤ 2 * (Lc3Config.new f d).nf) :
    ∑ j ∈ range n, (timeAt ((Lc3Config.new f d).nf / 2) wn (fun k => S.getD k 0 - L.getD k 0) (a + j)) ^ 2
      ≤ 5 / 2 * lineEnergy (Lc3Config.new f d).nf S L := by
  have hw := window_max H.win
  have hn := H.nf
  have hpos : 0 < (Lc3Config.new f d).nf := by cases f <;> cases d <;> decide
  generalize Lc3Config.new f d = cfg at *
  have ha := aliased_energy (h := cfg.nf / 2) (by omega) (fun k => S.getD k 0 - L.getD k 0)
  rw [← hn] at ha
  have h1 : ∀ p, (timeAt (cfg.nf / 2) wn (fun k => S.getD k 0 - L.getD k 0) p) ^ 2
      ≤ 5 / 4 * (aliased (cfg.nf / 2) (fun k => S.getD k 0 - L.getD k 0) p) ^ 2 := by
    intro p
    unfold timeAt
    rw [mul_pow]
    have h2 : ((wn.getD (4 * (cfg.nf / 2) - 1 - p) 0 : Rat) : ℝ) ^ 2 ≤ 5 / 4 := by
      have := sq_le_sq' (by have := (abs_le.1 (hw (4 * (cfg.nf / 2) - 1 - p))).1; linarith)
        (abs_le.1 (hw (4 * (cfg.nf / 2) - 1 - p))).2
      linarith
    nlinarith [sq_nonneg (aliased (cfg.nf / 2) (fun k => S.getD k 0 - L.getD k 0) p)]
  calc _ ≤ ∑ j ∈ range n, 5 / 4 * (aliased (cfg.nf / 2) (fun k => S.getD k 0 - L.getD k 0) (a + j)) ^ 2 :=
        Finset.sum_le_sum fun j _ => h1 _
    _ = 5 / 4 * ∑ j ∈ range n, (aliased (cfg.nf / 2) (fun k => S.getD k 0 - L.getD k 0) (a + j)) ^ 2 := by
        rw [Finset.mul_sum]
    _ ≤ 5 / 4 * ∑ p ∈ range (4 * (cfg.nf / 2)), (aliased (cfg.nf / 2) (fun k => S.getD k 0 - L.getD k 0) p) ^ 2 := by
        refine mul_le_mul_of_nonneg_left ?_ (by norm_num)
        have h3 := Finset.sum_range_add (fun p => (aliased (cfg.nf / 2) (fun k => S.getD k 0 - L.getD k 0) p) ^ 2) a n
        have h4 : 0 ≤ ∑ p ∈ range a, (aliased (cfg.nf / 2) (fun k => S.getD k 0 - L.getD k 0) p) ^ 2 :=
          Finset.sum_nonneg fun _ _ => sq_nonneg _
        have h5 : ∑ p ∈ range (a + n), (aliased (cfg.nf / 2) (fun k => S.getD k 0 - L.getD k 0) p) ^ 2
            ≤ ∑ p ∈ range (4 * (cfg.nf / 2)), (aliased (cfg.nf / 2) (fun k => S.getD k 0 - L.getD k 0) p) ^ 2 :=
          Finset.sum_le_sum_of_subset_of_nonneg (Finset.range_subset_range.2 (by omega)) fun _ _ _ => sq_nonneg _
        linarith
    _ = _ := by
        rw [ha]
        unfold lineEnergy
        ring

/-- **C58** In exact arithmetic: two consecutive frames go through the encoder's transform (starting with any time buffer) and *any* two
spectra are given to the decoder's transform (starting with any overlap memory). Then every sample of the second frame is the input
sample `nf - 2 z` earlier, times the weight of its position in the window (within `10 ^ -13` of one), up to an error of at most
1.064 times the distance of the spectra of this frame, and of the frame before where the frames overlap. The energy of
the error of the whole frame is at most five times the energy of the errors of both spectra. The lines above `ne`, which are never
transmitted, count as errors. -/
theorem C58 (f : SamplingFrequency) (d : FrameDuration) :
    ∃ wn, windowOf (Lc3Config.new f d).nMs (Lc3Config.new f d).nf = .ok wn ∧
      (∀ i, i < (Lc3Config.new f d).nf → |Overlap.weight wn (Lc3Config.new f d).nf i - 1| ≤ 1 / 10 ^ 13) ∧
      ∀ (freq freq1 freq2 x0 x1 : List Int) (L0 eb0 L1 eb1 : List ℝ) (nn0 nn1 : Bool) (mem S0 S1 : List ℝ),
        freq.length = 2 * (Lc3Config.new f d).nf → x0.length = (Lc3Config.new f d).nf → x1.length = (Lc3Config.new f d).nf →
        mdctEncRun (Lc3Config.new f d) freq x0 = .ok (freq1, L0, eb0, nn0) →
        mdctEncRun (Lc3Config.new f d) freq1 x1 = .ok (freq2, L1, eb1, nn1) →
        mem.length = (Lc3Config.new f d).nf - (Lc3Config.new f d).z → S0.length = (Lc3Config.new f d).ne →
        S1.length = (Lc3Config.new f d).ne →
        ∃ mem1 out0 mem2 out1, mdctDecRun (Lc3Config.new f d) mem S0 = .ok (mem1, out0) ∧
          mdctDecRun (Lc3Config.new f d) mem1 S1 = .ok (mem2, out1) ∧ out1.length = (Lc3Config.new f d).nf ∧
          ∃ err : Nat → ℝ, (∀ j, j < (Lc3Config.new f d).nf → out1.getD j 0
              = (Overlap.weight wn (Lc3Config.new f d).nf (((Lc3Config.new f d).z + j) % (Lc3Config.new f d).nf) : ℝ)
                * ((x0 ++ x1).getD (j + 2 * (Lc3Config.new f d).z) 0 : ℝ) + err j) ∧
            (∀ j, j < (Lc3Config.new f d).nf → |err j| ≤ 133 / 125 * (lineDist (Lc3Config.new f d).nf S1 L1
              + if j < (Lc3Config.new f d).nf - (Lc3Config.new f d).z then lineDist (Lc3Config.new f d).nf S0 L0 else 0)) ∧
            ∑ j ∈ range (Lc3Config.new f d).nf, err j ^ 2
              ≤ 5 * (lineEnergy (Lc3Config.new f d).nf S1 L1 + lineEnergy (Lc3Config.new f d).nf S0 L0) := by
  obtain ⟨wn, H, hw⟩ := mdctOk_config f d
  refine ⟨wn, H.win, hw, ?_⟩
  intro freq freq1 freq2 x0 x1 L0 eb0 L1 eb1 nn0 nn1 mem S0 S1 hl hx0 hx1 e0 e1 hm h0 h1
  obtain ⟨mem1, out0, mem2, out1, d0, d1, ho, hj⟩ := twoFrames H hl hx0 hx1 e0 e1 hm h0 h1
  have b0 := fun {p : Nat} => timeAt_abs H S0 L0 (p := p)
  have b1 := fun {p : Nat} => timeAt_abs H S1 L1 (p := p)
  have n0 := fun {a n : Nat} => timeAt_energy H S0 L0 (a := a) (n := n)
  have n1 := fun {a n : Nat} => timeAt_energy H S1 L1 (a := a) (n := n)
  have hz := H.z
  refine ⟨mem1, out0, mem2, out1, d0, d1, ho, ?_⟩
  generalize Lc3Config.new f d = cfg at *
  refine ⟨_, fun j hlt => sub_eq_iff_eq_add'.1 (hj j hlt), ?_, ?_⟩
  · intro j hlt
    by_cases hc : j < cfg.nf - cfg.z
    · rw [if_pos hc, if_pos hc]
      refine (abs_add_le _ _).trans ?_
      have := b0 (p := cfg.nf + cfg.z + j) (by omega)
      have := b1 (p := cfg.z + j) (by omega)
      linarith
    · rw [if_neg hc, if_neg hc, add_zero, add_zero]
      exact b1 (by omega)
  · have s0 := n0 (a := cfg.nf + cfg.z) (n := cfg.nf - cfg.z) (by omega)
    have s1 := n1 (a := cfg.z) (n := cfg.nf) (by omega)
    have hs : ∑ j ∈ range cfg.nf, (if j < cfg.nf - cfg.z then
          timeAt (cfg.nf / 2) wn (fun k => S0.getD k 0 - L0.getD k 0) (cfg.nf + cfg.z + j) else 0) ^ 2
        = ∑ j ∈ range (cfg.nf - cfg.z), (timeAt (cfg.nf / 2) wn (fun k => S0.getD k 0 - L0.getD k 0) (cfg.nf + cfg.z + j)) ^ 2 := by
      rw [← Finset.sum_subset (Finset.range_subset_range.2 (Nat.sub_le cfg.nf cfg.z))]
      · exact Finset.sum_congr rfl fun j hj => by rw [if_pos (Finset.mem_range.1 hj)]
      · intro j _ hj
        rw [if_neg (by simpa using hj)]
        norm_num
    calc _ ≤ ∑ j ∈ range cfg.nf, (2 * (timeAt (cfg.nf / 2) wn (fun k => S1.getD k 0 - L1.getD k 0) (cfg.z + j)) ^ 2
          + 2 * (if j < cfg.nf - cfg.z then
            timeAt (cfg.nf / 2) wn (fun k => S0.getD k 0 - L0.getD k 0) (cfg.nf + cfg.z + j) else 0) ^ 2) := by
          refine Finset.sum_le_sum fun j _ => ?_
          generalize timeAt (cfg.nf / 2) wn (fun k => S1.getD k 0 - L1.getD k 0) (cfg.z + j) = u
          generalize (if j < cfg.nf - cfg.z then
            timeAt (cfg.nf / 2) wn (fun k => S0.getD k 0 - L0.getD k 0) (cfg.nf + cfg.z + j) else 0) = v
          nlinarith [sq_nonneg (u - v)]
      _ ≤ _ := by
          rw [Finset.sum_add_distrib, ← Finset.mul_sum, ← Finset.mul_sum, hs]
          linarith

/-- rounding and clipping of one sample, compared with any 16 bit value -/
theorem roundSample_near {v : ℝ} {u : Int} (h1 : -32768 ≤ u) (h2 : u ≤ 32767) : |(roundSample v : ℝ) - u| ≤ 1 / 2 + |v - u| := by
  have key : ∀ t : Int, |(t : ℝ) - v| ≤ 1 / 2 →
      |((max (min (max (-2147483648) (min 2147483647 t)) 32767) (-32768) : Int) : ℝ) - u| ≤ 1 / 2 + |v - u| := by
    intro t ht
    have hc : |max (min (max (-2147483648) (min 2147483647 t)) 32767) (-32768) - u| ≤ |t - u| := by
      rcases le_total t u with h | h
      · rw [abs_of_nonpos (by omega), abs_of_nonpos (by omega)]; omega
      · rw [abs_of_nonneg (by omega), abs_of_nonneg (by omega)]; omega
    have hc' : |((max (min (max (-2147483648) (min 2147483647 t)) 32767) (-32768) : Int) : ℝ) - u| ≤ |(t : ℝ) - u| := by
      exact_mod_cast hc
    calc _ ≤ |(t : ℝ) - u| := hc'
      _ = |((t : ℝ) - v) + (v - u)| := by congr 1; ring
      _ ≤ |(t : ℝ) - v| + |v - u| := abs_add_le _ _
      _ ≤ _ := by linarith
  have hhalf : (ofRat (1 / 2) : ℝ) = 1 / 2 := by show ((1 / 2 : ℚ) : ℝ) = 1 / 2; norm_num
  unfold roundSample pos
  rw [zero_real, hhalf]
  show |((max (min (if (decide ((0 : ℝ) < v)) = true then realToI32 (v + 1 / 2) else realToI32 (v - 1 / 2)) 32767) (-32768) : Int) : ℝ)
    - u| ≤ _
  by_cases hv : (0 : ℝ) < v
  · rw [if_pos (decide_eq_true hv)]
    unfold realToI32
    rw [if_pos (by linarith)]
    refine key _ ?_
    have f1 := Int.floor_le (v + 1 / 2)
    have f2 := Int.lt_floor_add_one (v + 1 / 2)
    rw [abs_le]; constructor <;> linarith
  · rw [if_neg (by simpa using hv)]
    unfold realToI32
    rw [if_neg (by linarith)]
    refine key _ ?_
    have f1 := Int.le_ceil (v - 1 / 2)
    have f2 := Int.ceil_lt_add_one (v - 1 / 2)
    rw [abs_le]; constructor <;> linarith

theorem scaleAndRound_getD : ∀ (v : List ℝ) (out : List Int) (j : Nat), j < v.length → j < out.length →
    (scaleAndRound v out).getD j 0 = roundSample (v.getD j 0)
  | [], _, _, h, _ => by simp at h
  | _ :: _, [], _, _, h => by simp at h
  | x :: xs, _ :: out, 0, _, _ => by simp [scaleAndRound]
  | x :: xs, _ :: out, j + 1, h, h' => by
    rw [scaleAndRound, List.getD_cons_succ, List.getD_cons_succ]
    exact scaleAndRound_getD xs out j (by simpa using h) (by simpa using h')

/-- a frame without the post filter after a frame without it -/
theorem ltpfRun_off {f : SamplingFrequency} {d : FrameDuration} {s : Ltpf ℝ} (h : LtpfInv f d s) {info : LtpfInfo}
    (hp : info.pitchIndex < 512) (nbits : Nat) {fr : List ℝ} (hfr : fr.length = (Lc3Config.new f d).nf) (hoff : info.isActive = false) :
    ∃ s' out, ltpfRun (Lc3Config.new f d) s info nbits fr = .ok (s', out) ∧ s'.activePrev = false ∧
      (s.activePrev = false → out = fr) := by
  obtain ⟨s', out, y', e, -, hs, ho, -, hex⟩ := ltpfRun_ok h.rel hp nbits hfr
  refine ⟨s', out, e, ?_, ?_⟩
  · have : s'.setting.active = info.isActive := by rw [hs, settingOf_active]
    exact this.trans hoff
  · intro hin
    have hy' := hex (by
      intro h
      have : s.activePrev = true := h
      rw [hin] at this
      exact absurd this (by simp))
    rw [ho]
    apply List.ext_getElem
    · rw [List.length_map, List.length_range, hfr]
    · intro n h1 h2
      rw [List.getElem_map, List.getElem_range, hy']
      rw [List.length_map, List.length_range] at h1
      rw [frameOut_off_off _ _ hin (by rw [settingOf_active, hoff]) _ _ _ h1]
      unfold appendFrame
      rw [if_neg (by omega), show (((s.blockStart : Int) + (n : Nat)) - s.blockStart).toNat = n from by omega,
        List.getD_eq_getElem _ _ h2]

/-- the frame does not switch on the decoder's post filter -/
def FilterOff (p : FrameParams) : Prop := p.pitchPresent = false ∨ p.ltpfActive = false

theorem encodeChannel_freq {cfg : Lc3Config} {ch ch' : EncChannel ℝ} {x : List Int} {buf bytes : List Nat} {a : EncAnalysis ℝ}
    (h : encAnalyse cfg ch x buf.length = .ok a) (e : encodeChannel cfg ch x buf = .ok (ch', bytes)) : ch'.freq = a.freq := by
  unfold encodeChannel at e
  rw [h, Res.bind_ok] at e
  obtain ⟨_, -, e⟩ := bind_ok_inv e
  simp only [Res.ok.injEq, Prod.mk.injEq] at e
  obtain ⟨rfl, -⟩ := e
  rfl

/-- one frame through the encoder and the decoder -/
theorem frame_through {checks : Bool} {f : SamplingFrequency} {d : FrameDuration} {ch : EncChannel ℝ} {x : List Int} {buf : List Nat}
    {a : EncAnalysis ℝ} {s : EncSt} {t : Nat} (h : CodedFrame checks f d ch x buf a s t) (hoff : FilterOff a.p) {dch : DecChannel ℝ}
    (hd : ChInv f d dch) (out : List Int) :
    ∃ ch' bytes dch' o fr, encodeChannel (Lc3Config.new f d) ch x buf = .ok (ch', bytes) ∧ ch'.Inv (Lc3Config.new f d) ∧
      ch'.freq = a.freq ∧ bytes.length = buf.length ∧
      decodeChannel checks (Lc3Config.new f d) dch 16 bytes out = .ok (.ok, dch', o) ∧ ChInv f d dch' ∧
      mdctDecRun (Lc3Config.new f d) dch.memOla dch'.specLines = .ok (dch'.memOla, fr) ∧ dch'.ltpf.activePrev = false ∧
      (dch.ltpf.activePrev = false → o = scaleAndRound fr out) := by
  obtain ⟨q, h1, h2, -⟩ := C46 h.inv h.len h.analysed h.range h.inside
  obtain ⟨ch', bytes, bits, e1, e2, e3, e4, -, -⟩ := h.read h1 h2
  have hfreq := encodeChannel_freq h.analysed e1
  have hread : readFrame checks (Lc3Config.new f d) bytes = readFrame false (Lc3Config.new f d) bytes := by
    cases checks with
    | false => rfl
    | true =>
      rcases readFrame_checks (Lc3Config.new f d) bytes with hc | hc
      · rw [hc] at e4; cases e4
      · exact hc
  have heq : decodeChannel checks (Lc3Config.new f d) dch 16 bytes out = decodeChannel false (Lc3Config.new f d) dch 16 bytes out := by
    unfold decodeChannel decodeSpectrum
    rw [hread]
  have hsafe := safe_decodeChannel hd (bits := 16) (out := out) (readFrame_long e4)
  have hno := noErr_decodeChannel false (Lc3Config.new f d) dch 16 bytes out
  have hdec : ∃ r, decodeChannel checks (Lc3Config.new f d) dch 16 bytes out = .ok r := by
    rw [heq]
    cases e : decodeChannel false (Lc3Config.new f d) dch 16 bytes out with
    | ok r => exact ⟨r, rfl⟩
    | err => exact absurd e hno
    | panic => rw [e] at hsafe; exact hsafe.elim
  obtain ⟨⟨r, dch', o⟩, hdec⟩ := hdec
  have hinv := (decodeChannel_inv hd hdec).1
  have e := hdec
  unfold decodeChannel at e
  rw [if_neg (by simp)] at e
  obtain ⟨⟨lines, plc, info⟩, g1, e⟩ := bind_ok_inv e
  simp only at e
  rw [if_neg (by simp [hd.freq])] at e
  obtain ⟨⟨ola, fr⟩, g2, e⟩ := bind_ok_inv e
  obtain ⟨⟨lt, fr'⟩, g3, e⟩ := bind_ok_inv e
  simp only [Res.ok.injEq, Prod.mk.injEq] at e
  obtain ⟨rfl, rfl, rfl⟩ := e
  have hinfo : info = (expectedSide a.p q).ltpf := by
    unfold decodeSpectrum at g1
    rw [e4] at g1
    obtain ⟨l, -, g1⟩ := bind_ok_inv g1
    obtain ⟨pl, -, g1⟩ := bind_ok_inv g1
    simp only [Res.ok.injEq, Prod.mk.injEq] at g1
    exact g1.2.2.symm
  have hpitch : info.pitchIndex < 512 := by
    rw [hinfo]
    unfold expectedSide
    have := h1.pitch
    cases a.p.pitchPresent
    · simp
    · simpa using this
  have hact : info.isActive = false := by
    rw [hinfo]
    unfold expectedSide
    rcases hoff with hc | hc
    · simp [hc]
    · cases a.p.pitchPresent <;> simp [hc]
  obtain ⟨-, hfl⟩ := (safe_mdctDecRun hinv.spec hd.ola).of_ok g2
  obtain ⟨s', out', k1, k2, k3⟩ := ltpfRun_off hd.ltpf hpitch (bytes.length * 8) hfl hact
  rw [k1] at g3
  simp only [Res.ok.injEq, Prod.mk.injEq] at g3
  obtain ⟨rfl, rfl⟩ := g3
  exact ⟨ch', bytes, _, _, fr, e1, e2, hfreq, e3, hdec, hinv, g2, k2, fun hp => by rw [k3 hp]⟩

/-- the lines of the encoder's transform belong to the analysis -/
theorem analysis_transform {cfg : Lc3Config} {ch : EncChannel ℝ} {x : List Int} {n : Nat} {a : EncAnalysis ℝ}
    (h : encAnalyse cfg ch x n = .ok a) :
    ∃ L eb nn, mdctEncRun cfg ch.freq x = .ok (a.freq, L, eb, nn) ∧ a.mdct = L.take cfg.ne := by
  obtain ⟨freq, out, eb, nn, bwInd, nbitsBw, attack, det, sns, tns, ltpf, pf, quant, spec, res, nf, e1, -, -, -, -, -, -,
    -, -, -, rfl⟩ := encAnalyse_inv h
  exact ⟨out, eb, nn, e1, rfl⟩

theorem frame_length {cfg : Lc3Config} {freq freq' x : List Int} {L eb : List ℝ} {nn : Bool}
    (h : mdctEncRun cfg freq x = .ok (freq', L, eb, nn)) : x.length = cfg.nf := by
  by_contra hc
  unfold mdctEncRun at h
  rw [if_pos hc] at h
  cases h

/-- **C59** From samples to samples, in exact arithmetic: two consecutive frames of 16 bit samples are coded and decoded. If neither frame
switches on the post filter, every decoded sample of the second frame is the input sample `nf - 2 z` earlier, up to the rounding and
1.064 times the distance between the spectra the decoder synthesised and the spectra the encoder analysed (of this frame, and of the frame
before where they overlap). The states of encoder and decoder before the two frames are arbitrary. -/
theorem C59 {checks : Bool} {f : SamplingFrequency} {d : FrameDuration} {ch : EncChannel ℝ} {x0 : List Int} {buf0 : List Nat}
    {a0 : EncAnalysis ℝ} {s0 : EncSt} {t0 : Nat} (h0 : CodedFrame checks f d ch x0 buf0 a0 s0 t0) (off0 : FilterOff a0.p)
    {dch : DecChannel ℝ} (hd : ChInv f d dch) (out0 : List Int) :
    ∃ ch' bytes0 dch' o0 L0 eb0 nn0, encodeChannel (Lc3Config.new f d) ch x0 buf0 = .ok (ch', bytes0) ∧
      decodeChannel checks (Lc3Config.new f d) dch 16 bytes0 out0 = .ok (.ok, dch', o0) ∧
      mdctEncRun (Lc3Config.new f d) ch.freq x0 = .ok (ch'.freq, L0, eb0, nn0) ∧
      ∀ (x1 : List Int) (buf1 : List Nat) (a1 : EncAnalysis ℝ) (s1 : EncSt) (t1 : Nat) (out1 : List Int),
        CodedFrame checks f d ch' x1 buf1 a1 s1 t1 → FilterOff a1.p → out1.length = (Lc3Config.new f d).nf →
        (∀ v ∈ x0 ++ x1, -32768 ≤ v ∧ v ≤ 32767) →
        ∃ ch'' bytes1 dch'' o1 L1 eb1 nn1, encodeChannel (Lc3Config.new f d) ch' x1 buf1 = .ok (ch'', bytes1) ∧
          decodeChannel checks (Lc3Config.new f d) dch' 16 bytes1 out1 = .ok (.ok, dch'', o1) ∧
          mdctEncRun (Lc3Config.new f d) ch'.freq x1 = .ok (ch''.freq, L1, eb1, nn1) ∧ o1.length = (Lc3Config.new f d).nf ∧
          ∀ j, j < (Lc3Config.new f d).nf →
            |(o1.getD j 0 : ℝ) - ((x0 ++ x1).getD (j + 2 * (Lc3Config.new f d).z) 0 : ℝ)| ≤ 1 / 2 + 1 / 10 ^ 8
              + 133 / 125 * (lineDist (Lc3Config.new f d).nf dch''.specLines L1
                + if j < (Lc3Config.new f d).nf - (Lc3Config.new f d).z then lineDist (Lc3Config.new f d).nf dch'.specLines L0
                  else 0) := by
  obtain ⟨ch', bytes0, dch', o0, fr0, e1, e2, e3, -, e4, e5, e6, e7, -⟩ := frame_through h0 off0 hd out0
  obtain ⟨L0, eb0, nn0, l0, -⟩ := analysis_transform h0.analysed
  rw [← e3] at l0
  refine ⟨ch', bytes0, dch', o0, L0, eb0, nn0, e1, e4, l0, ?_⟩
  intro x1 buf1 a1 s1 t1 out1 h1 off1 ho hx
  obtain ⟨ch'', bytes1, dch'', o1, fr1, g1, g2, g3, -, g4, g5, g6, g7, g8⟩ := frame_through h1 off1 e5 out1
  obtain ⟨L1, eb1, nn1, l1, -⟩ := analysis_transform h1.analysed
  rw [← g3] at l1
  have hx0 := frame_length l0
  have hx1 := frame_length l1
  have hol := (decodeChannel_inv e5 g4).2
  obtain ⟨wn, hwin, hw, key⟩ := C58 f d
  obtain ⟨mem1, fr0', mem2, fr1', k1, k2, k3, err, k4, k5, -⟩ := key ch.freq ch'.freq ch''.freq x0 x1 L0 eb0 L1 eb1 nn0 nn1
    dch.memOla dch'.specLines dch''.specLines (by rw [h0.inv.freq, Nat.mul_comm]) hx0 hx1 l0 l1 hd.ola e5.spec g5.spec
  rw [e6] at k1
  simp only [Res.ok.injEq, Prod.mk.injEq] at k1
  obtain ⟨rfl, rfl⟩ := k1
  rw [g6] at k2
  simp only [Res.ok.injEq, Prod.mk.injEq] at k2
  obtain ⟨rfl, rfl⟩ := k2
  refine ⟨ch'', bytes1, dch'', o1, L1, eb1, nn1, g1, g4, l1, hol.trans ho, ?_⟩
  intro j hj
  have hz : 2 * (Lc3Config.new f d).z ≤ (Lc3Config.new f d).nf := by cases f <;> cases d <;> decide
  have hpos : 0 < (Lc3Config.new f d).nf := by omega
  have hwj := hw (((Lc3Config.new f d).z + j) % (Lc3Config.new f d).nf) (Nat.mod_lt _ hpos)
  have k4j := k4 j hj
  have k5j := k5 j hj
  rw [g8 e7]
  generalize Lc3Config.new f d = cfg at *
  rw [scaleAndRound_getD _ _ _ (by omega) (by omega)]
  have hmem : (x0 ++ x1).getD (j + 2 * cfg.z) 0 ∈ x0 ++ x1 := by
    rw [getD_of_lt (by rw [List.length_append]; omega)]
    exact List.getElem_mem _
  obtain ⟨u1, u2⟩ := hx _ hmem
  generalize (x0 ++ x1).getD (j + 2 * cfg.z) 0 = u at *
  refine (roundSample_near u1 u2).trans ?_
  have hw' : |((Overlap.weight wn cfg.nf ((cfg.z + j) % cfg.nf) : ℚ) : ℝ) - 1| ≤ 1 / 10 ^ 13 := by
    have := (Rat.cast_le (K := ℝ)).2 hwj
    push_cast at this
    exact this
  generalize ((Overlap.weight wn cfg.nf ((cfg.z + j) % cfg.nf) : ℚ) : ℝ) = w at *
  have hu : |(u : ℝ)| ≤ 32768 := by
    rw [abs_le]
    exact ⟨by exact_mod_cast u1, by exact_mod_cast u2.trans (by norm_num)⟩
  have hwu : |(w - 1) * u| ≤ 1 / 10 ^ 8 := by
    rw [abs_mul]
    calc _ ≤ 1 / 10 ^ 13 * (32768 : ℝ) := mul_le_mul hw' hu (abs_nonneg _) (by positivity)
      _ ≤ _ := by norm_num
  have : |fr1.getD j 0 - u| ≤ |(w - 1) * u| + |err j| := by
    rw [k4j, show w * (u : ℝ) + err j - u = (w - 1) * u + err j by ring]
    exact abs_add_le _ _
  linarith

/-- at a high bit rate the encoder never switches on the post filter -/
theorem filterOff_of_rate {α : Type} [Scalar α] {f : SamplingFrequency} {d : FrameDuration} {ch : EncChannel α} {x : List Int} {n : Nat}
    {a : EncAnalysis α}
    (h : encAnalyse (Lc3Config.new f d) ch x n = .ok a)
    (hr : 560 + (Lc3Config.new f d).fsInd * 80 ≤ ltpfTNbits (Lc3Config.new f d).nMs (n * 8)) : FilterOff a.p := by
  obtain ⟨freq, out, eb, nn, bwInd, nbitsBw, attack, det, sns, tns, ltpf, pf, quant, spec, res, nf, -, -, -, -, -, -, e7,
    -, -, -, rfl⟩ := encAnalyse_inv h
  right
  unfold EncLtpf.run at e7
  split at e7
  · cases e7
  · obtain ⟨_, -, e7⟩ := bind_ok_inv e7
    obtain ⟨_, -, e7⟩ := bind_ok_inv e7
    obtain ⟨_, -, e7⟩ := bind_ok_inv e7
    simp only at e7
    obtain ⟨⟨_, _, _⟩, -, e7⟩ := bind_ok_inv e7
    obtain ⟨⟨_, _, _⟩, -, e7⟩ := bind_ok_inv e7
    obtain ⟨⟨act, _, _⟩, e8, e7⟩ := bind_ok_inv e7
    simp only [Res.ok.injEq, Prod.mk.injEq] at e7
    obtain ⟨-, rfl⟩ := e7
    unfold activationBit at e8
    obtain ⟨_, -, e8⟩ := bind_ok_inv e8
    simp only [Res.ok.injEq, Prod.mk.injEq] at e8
    rw [decide_eq_false (by omega)] at e8
    simpa using e8.1.symm

/-! ### Concrete cases -/

/-- C58 applies at 16 kHz to any two frames and to decoded spectra that are all zero (everything was lost): then the error of a sample is
at most 1.064 times the norms of the two spectra. -/
example (x0 x1 : List Int) (h0 : x0.length = 160) (h1 : x1.length = 160) (freq : List Int) (hf : freq.length = 320)
    (mem : List ℝ) (hm : mem.length = 100) :
    ∃ freq1 freq2 L0 eb0 nn0 L1 eb1 nn1 mem1 out0 mem2 out1,
      mdctEncRun (α := ℝ) (Lc3Config.new .hz16000 .tenMs) freq x0 = .ok (freq1, L0, eb0, nn0) ∧
      mdctEncRun (α := ℝ) (Lc3Config.new .hz16000 .tenMs) freq1 x1 = .ok (freq2, L1, eb1, nn1) ∧
      mdctDecRun (Lc3Config.new .hz16000 .tenMs) mem (List.replicate 160 0) = .ok (mem1, out0) ∧
      mdctDecRun (Lc3Config.new .hz16000 .tenMs) mem1 (List.replicate 160 0) = .ok (mem2, out1) ∧
      ∃ c : ℚ, |c - 1| ≤ 1 / 10 ^ 13 ∧ |out1.getD 40 0 - (c : ℝ) * ((x0 ++ x1).getD 160 0 : ℝ)|
        ≤ 133 / 125 * (lineDist 160 (List.replicate 160 0) L1 + lineDist 160 (List.replicate 160 0) L0) := by
  have e1 : (Lc3Config.new .hz16000 .tenMs).nf = 160 := by decide
  have e2 : (Lc3Config.new .hz16000 .tenMs).ne = 160 := by decide
  have e3 : (Lc3Config.new .hz16000 .tenMs).z = 60 := by decide
  have hl : freq.length = 2 * (Lc3Config.new .hz16000 .tenMs).nf := by rw [e1]; exact hf
  obtain ⟨freq1, eb0, nn0, L0, wn, g0, -, u0, -, -⟩ := mdctEncRun_ok (f := .hz16000) (d := .tenMs) hl (x := x0) (by rw [e1]; exact h0)
  have hl1 := (mdctUpdate_ok (cfg := Lc3Config.new .hz16000 .tenMs) (by rw [e1, e3]; omega) hl u0).2.1
  obtain ⟨freq2, eb1, nn1, L1, wn', g1, -, -, -, -⟩ := mdctEncRun_ok (f := .hz16000) (d := .tenMs) hl1 (x := x1) (by rw [e1]; exact h1)
  obtain ⟨wn, -, hw, key⟩ := C58 .hz16000 .tenMs
  obtain ⟨mem1, out0, mem2, out1, d0, d1, -, err, k1, k2, -⟩ := key freq freq1 freq2 x0 x1 L0 eb0 L1 eb1 nn0 nn1 mem
    (List.replicate 160 0) (List.replicate 160 0) hl (by rw [e1]; exact h0) (by rw [e1]; exact h1) g0 g1 (by rw [e1, e3]; exact hm)
    (by rw [e2, List.length_replicate]) (by rw [e2, List.length_replicate])
  have k1 := k1 40 (by rw [e1]; omega)
  have k2 := k2 40 (by rw [e1]; omega)
  have hw := hw 100 (by rw [e1]; omega)
  rw [e1, e3, if_pos (by omega)] at k2
  rw [e1, e3] at k1
  rw [e1] at hw
  refine ⟨freq1, freq2, L0, eb0, nn0, L1, eb1, nn1, mem1, out0, mem2, out1, g0, g1, d0, d1, _, hw, ?_⟩
  rw [show out1.getD 40 0 - ((Overlap.weight wn 160 100 : ℚ) : ℝ) * (((x0 ++ x1).getD 160 0 : ℤ) : ℝ) = err 40 by
    rw [k1]; ring_nf]
  exact k2

/-- C59 applies to two frames of silence in 120 bytes at 48 kHz. -/
example (checks : Bool) : ∃ (ch : EncChannel ℝ) (a0 : EncAnalysis ℝ) (s0 : EncSt) (t0 : Nat),
    CodedFrame checks .hz48000 .tenMs ch (List.replicate 480 0) (List.replicate 120 0) a0 s0 t0 ∧ FilterOff a0.p ∧
    ∃ ch' bytes a1 s1 t1, encodeChannel (Lc3Config.new .hz48000 .tenMs) ch (List.replicate 480 0) (List.replicate 120 0) = .ok (ch', bytes) ∧
      CodedFrame checks .hz48000 .tenMs ch' (List.replicate 480 0) (List.replicate 120 0) a1 s1 t1 ∧ FilterOff a1.p := by
  obtain ⟨ch, hi, h0⟩ := newChannel_48 .tenMs
  obtain ⟨a0, s0, t0, h, hz0, -⟩ := silence_coded checks hi h0 (x := List.replicate 480 0) List.length_replicate (AllZero.replicate _)
    (buf := List.replicate 120 0) (by simp) (by simp)
  have hr : 560 + (Lc3Config.new .hz48000 .tenMs).fsInd * 80
      ≤ ltpfTNbits (Lc3Config.new .hz48000 .tenMs).nMs ((List.replicate 120 0).length * 8) := by
    rw [List.length_replicate]; decide
  obtain ⟨q, h1, h2, -⟩ := C46 h.inv h.len h.analysed h.range h.inside
  obtain ⟨ch', bytes, bits, e1, e2, -⟩ := h.read h1 h2
  have hz : AllZero ch'.freq := by rw [encodeChannel_freq h.analysed e1]; exact hz0
  obtain ⟨a1, s1, t1, h', -⟩ := silence_coded checks e2 hz (x := List.replicate 480 0) List.length_replicate (AllZero.replicate _)
    (buf := List.replicate 120 0) (by simp) (by simp)
  exact ⟨ch, a0, s0, t0, h, filterOff_of_rate h.analysed hr, ch', bytes, a1, s1, t1, e1, h', filterOff_of_rate h'.analysed hr⟩

end Lc3
