import Verif.Lemmas.TimeErr32
import Verif.Lemmas.FinDecoder
import Verif.Lemmas.F32Eval
import Verif.Props.Concealment
import Verif.Props.EncoderFrame32
import Verif.Props.Finite
import Verif.Props.Resync
import Verif.Props.Silence32
/-!
# C103: from samples to samples in binary32

`C58` and `C59` for the arithmetic the code uses: what the decoder puts out is what went into the encoder, delayed, up to the
distance of the two spectra and the rounding errors of both transforms.
-/

namespace Lc3
open Scalar Spec Finset
namespace F32
variable {el : Elem}

/-- one sample of the second frame -/
theorem sample_near {f : SamplingFrequency} {d : FrameDuration} {wn : List Rat}
    (H : MdctOk (Lc3Config.new f d) ((Lc3Config.new f d).nf / 2) wn)
    (hwt : ∀ i, i < (Lc3Config.new f d).nf → |Overlap.weight wn (Lc3Config.new f d).nf i - 1| ≤ 1 / 10 ^ 13)
    {A : ℕ} (hA1 : 1 ≤ A) (hA : A ≤ 2 ^ 15) {freq1 freq2 x0 x1 : List Int} (hl1 : freq1.length = 2 * (Lc3Config.new f d).nf)
    (hx0 : x0.length = (Lc3Config.new f d).nf)
    (hnew : ∀ p, p < (Lc3Config.new f d).nf →
      freq1.getD ((Lc3Config.new f d).nf - (Lc3Config.new f d).z + p) 0 = x0.getD p 0)
    (hu : mdctUpdate (Lc3Config.new f d) freq1 x1 = .ok freq2) (hf : ∀ v ∈ freq2, |v| ≤ A) {m t : F32} {j : ℕ}
    (hj : j < (Lc3Config.new f d).nf) {E1 E0 : ℝ} (ht : IsFin t)
    (h1 : |val t - aliasAt (Lc3Config.new f d).nf freq2 wn ((Lc3Config.new f d).z + j)| ≤ E1) (hE1 : E1 ≤ 2 ^ 40)
    (h0 : j < (Lc3Config.new f d).nf - (Lc3Config.new f d).z → IsFin m ∧
      |val m - aliasAt (Lc3Config.new f d).nf freq1 wn ((Lc3Config.new f d).nf + (Lc3Config.new f d).z + j)| ≤ E0 ∧ E0 ≤ 2 ^ 40) :
    IsFin (if j < (Lc3Config.new f d).nf - (Lc3Config.new f d).z then add m t else t) ∧
      |val (if j < (Lc3Config.new f d).nf - (Lc3Config.new f d).z then add m t else t)
        - ((x0 ++ x1).getD (j + 2 * (Lc3Config.new f d).z) 0 : ℝ)|
        ≤ (1 + 1 / 2 ^ 24) * ((if j < (Lc3Config.new f d).nf - (Lc3Config.new f d).z then E0 else 0) + E1) + 61 / 10 ^ 9 * A := by
  have hc := alias_cancel H hl1 hu hj
  have hs := mdctUpdate_stream H.z hl1 hx0 hnew hu hj []
  rw [List.append_nil] at hs
  rw [← hs]
  have hpos : 0 < (Lc3Config.new f d).nf := by omega
  have hwj := hwt (((Lc3Config.new f d).z + j) % (Lc3Config.new f d).nf) (Nat.mod_lt _ hpos)
  have hv : |(freq2.getD ((Lc3Config.new f d).z + j) 0 : ℝ)| ≤ A := by exact_mod_cast getD_bound hf ((Lc3Config.new f d).z + j)
  generalize Lc3Config.new f d = cfg at *
  have hw1 : |((Overlap.weight wn cfg.nf ((cfg.z + j) % cfg.nf) : ℚ) : ℝ) - 1| ≤ 1 / 10 ^ 13 := by
    have h2 := (Rat.cast_le (K := ℝ)).2 hwj
    push_cast at h2
    exact h2
  have hA2 : (A : ℝ) ≤ 2 ^ 15 := by exact_mod_cast hA
  have hA0 : (1 : ℝ) ≤ A := by exact_mod_cast hA1
  generalize ((Overlap.weight wn cfg.nf ((cfg.z + j) % cfg.nf) : ℚ) : ℝ) = w at *
  generalize (freq2.getD (cfg.z + j) 0 : ℝ) = u at *
  have hdiff : |w * u - u| ≤ 1 / 10 ^ 13 * A := by
    have e : w * u - u = (w - 1) * u := by ring
    rw [e, abs_mul]
    gcongr
  have hwv : |w * u| ≤ (1 + 1 / 10 ^ 13) * A := by
    have := abs_sub_abs_le_abs_sub (w * u) u
    linarith
  by_cases hc' : j < cfg.nf - cfg.z
  · obtain ⟨m1, m2, m3⟩ := h0 hc'
    simp only [if_pos hc'] at hc ⊢
    obtain ⟨o1, o2⟩ := overlap_near (a := aliasAt cfg.nf freq1 wn (cfg.nf + cfg.z + j)) (b := aliasAt cfg.nf freq2 wn (cfg.z + j))
      m1 ht (by rw [hc]; refine hwv.trans ?_; linarith) (m2.trans m3) (h1.trans hE1)
    refine ⟨o1, ?_⟩
    rw [hc] at o2
    have e := abs_sub_le (val (add m t)) (w * u) u
    generalize |val (add m t) - w * u| = P at *
    generalize |w * u - u| = R at *
    generalize |w * u| = W at *
    norm_num at o2 hdiff hwv ⊢
    linarith
  · simp only [if_neg hc', zero_add] at hc ⊢
    refine ⟨ht, ?_⟩
    rw [hc] at h1
    have e := abs_sub_le (val t) (w * u) u
    have : 0 ≤ E1 := (abs_nonneg _).trans h1
    generalize |val t - w * u| = P at *
    generalize |w * u - u| = R at *
    norm_num at hdiff ⊢
    linarith

end F32

open F32

/-- **C103** (transforms) In binary32, every configuration: two consecutive frames of samples up to the amplitude `A` (at most 32768) go
through the encoder's transform, starting with any time buffer, and *any* two finite spectra are given to the decoder's transform,
starting with any overlap memory. If the spectra are at most `2 ^ 38` away from the encoder's, every sample of the second frame is finite
and is the input sample `nf - 2 z` earlier, up to 1.065 times the distance of the spectra of this frame, and of the frame before where
the frames overlap, and `A sqrt nf / 8192`. The root mean square error of the frame is at most `A / 8192` and 1.506 times the distances
over `sqrt nf`. -/
theorem C103 {el : Elem} (hel : Accurate el) (f : SamplingFrequency) (d : FrameDuration) {A : ℕ} (hA1 : 1 ≤ A) (hA : A ≤ 2 ^ 15)
    {freq freq1 freq2 x0 x1 : List Int} (hl : freq.length = 2 * (Lc3Config.new f d).nf) (hfb : ∀ v ∈ freq, |v| ≤ A)
    (hx0 : ∀ v ∈ x0, |v| ≤ A) (hx1 : ∀ v ∈ x1, |v| ≤ A) {L0 eb0 L1 eb1 : List F32} {nn0 nn1 : Bool}
    (e0 : @mdctEncRun F32 (scalar el) (Lc3Config.new f d) freq x0 = .ok (freq1, L0, eb0, nn0))
    (e1 : @mdctEncRun F32 (scalar el) (Lc3Config.new f d) freq1 x1 = .ok (freq2, L1, eb1, nn1)) {mem S0 S1 : List F32}
    (hm : mem.length = (Lc3Config.new f d).nf - (Lc3Config.new f d).z) (h0 : S0.length = (Lc3Config.new f d).ne)
    (h1 : S1.length = (Lc3Config.new f d).ne) (f0 : ∀ v ∈ S0, IsFin v) (f1 : ∀ v ∈ S1, IsFin v) {D0 D1 : ℝ}
    (hD0 : D0 = lineDist (Lc3Config.new f d).nf (S0.map val) (L0.map val))
    (hD1 : D1 = lineDist (Lc3Config.new f d).nf (S1.map val) (L1.map val)) (b0 : D0 ≤ 2 ^ 38) (b1 : D1 ≤ 2 ^ 38) :
    ∃ mem1 out0 mem2 out1, @mdctDecRun F32 (scalar el) (Lc3Config.new f d) mem S0 = .ok (mem1, out0) ∧
      @mdctDecRun F32 (scalar el) (Lc3Config.new f d) mem1 S1 = .ok (mem2, out1) ∧ out1.length = (Lc3Config.new f d).nf ∧
      (∀ v ∈ out1, IsFin v) ∧
      (∀ j, j < (Lc3Config.new f d).nf →
        |val (out1.getD j (fin 0)) - ((x0 ++ x1).getD (j + 2 * (Lc3Config.new f d).z) 0 : ℝ)|
          ≤ 1065 / 1000 * (D1 + if j < (Lc3Config.new f d).nf - (Lc3Config.new f d).z then D0 else 0)
            + A / 8192 * Real.sqrt (Lc3Config.new f d).nf) ∧
      l2 (Lc3Config.new f d).nf
        (fun j => |val (out1.getD j (fin 0)) - ((x0 ++ x1).getD (j + 2 * (Lc3Config.new f d).z) 0 : ℝ)|)
        ≤ 1506 / 1000 * (D1 + D0) + A / 8192 * Real.sqrt (Lc3Config.new f d).nf := by
  obtain ⟨wn, H, hwt⟩ := mdctOk_config f d
  obtain ⟨Q, hQ⟩ : ∃ Q, Q = A * Real.sqrt (Lc3Config.new f d).nf := ⟨_, rfl⟩
  obtain ⟨lx0, u0, fb1, T0, t01, t02, t03, t04, t05⟩ := doubleFrame_near hel H hA1 hA hl hfb hx0 e0 h0 f0 hD0 hQ (b0.trans (by norm_num))
  obtain ⟨-, hl1, -, hnew⟩ := mdctUpdate_ok H.z hl u0
  obtain ⟨lx1, u1, fb2, T1, t11, t12, t13, t14, t15⟩ := doubleFrame_near hel H hA1 hA hl1 fb1 hx1 e1 h1 f1 hD1 hQ (b1.trans (by norm_num))
  have hD0' : 0 ≤ D0 := by rw [hD0]; exact lineDist_nonneg _ _ _
  have hD1' : 0 ≤ D1 := by rw [hD1]; exact lineDist_nonneg _ _ _
  have hnf0 : 1 ≤ (Lc3Config.new f d).nf := by cases f <;> cases d <;> decide
  have hnf1 : (Lc3Config.new f d).nf ≤ 2 ^ 10 := by cases f <;> cases d <;> decide
  obtain ⟨R, hR⟩ : ∃ R, R = Real.sqrt ((Lc3Config.new f d).nf : ℝ) := ⟨_, rfl⟩
  have hR1 : 1 ≤ R := by rw [hR, Real.one_le_sqrt]; exact_mod_cast hnf0
  have hR2 : R ≤ 2 ^ 5 := by
    rw [hR, Real.sqrt_le_iff]
    refine ⟨by norm_num, ?_⟩
    have : ((Lc3Config.new f d).nf : ℝ) ≤ ((2 ^ 10 : ℕ) : ℝ) := by exact_mod_cast hnf1
    refine this.trans ?_
    norm_num
  have hA' : (1 : ℝ) ≤ A := by exact_mod_cast hA1
  have hA2 : (A : ℝ) ≤ 2 ^ 15 := by exact_mod_cast hA
  have hAQ : (A : ℝ) ≤ Q := by rw [hQ, ← hR]; nlinarith
  have hQ2 : Q ≤ 2 ^ 20 := by
    rw [hQ, ← hR]
    calc (A : ℝ) * R ≤ 2 ^ 15 * 2 ^ 5 := by gcongr
      _ = 2 ^ 20 := by norm_num
  have hQ8 : (A : ℝ) / 8192 * R = 1 / 8192 * Q := by rw [hQ, ← hR]; ring
  have hz := H.z
  have hstep := fun (j : ℕ) (m t : F32) (E1 E0 : ℝ) hj => sample_near H hwt hA1 hA hl1 lx0 hnew u1 fb2 (m := m) (t := t) (j := j) hj (E1 := E1) (E0 := E0)
  have hrun0 := t01 mem hm
  have hrun1 := t11 ((List.range ((Lc3Config.new f d).nf - (Lc3Config.new f d).z)).map
    fun j => T0 ((Lc3Config.new f d).nf + (Lc3Config.new f d).z + j)) (by simp)
  refine ⟨_, _, _, _, hrun0, hrun1, by simp, ?_, ?_, ?_⟩
  all_goals
    generalize Lc3Config.new f d = cfg at *
  · intro v hv
    obtain ⟨j, hj, rfl⟩ := List.mem_map.1 hv
    have hj := List.mem_range.1 hj
    refine (hstep j _ _ _ (10641 / 10000 * D0 + 52 / 10 ^ 6 * Q) hj (t12 _ (by omega)) (t14 _ (by omega)) (by norm_num at b1 hQ2 ⊢; linarith) ?_).1
    intro hc
    rw [getD_of_lt (by simpa using hc), List.getElem_map, List.getElem_range]
    exact ⟨t02 _ (by omega), t04 _ (by omega), by norm_num at b0 hQ2 ⊢; linarith⟩
  · intro j hj
    rw [getD_of_lt (by simpa using hj), List.getElem_map, List.getElem_range]
    refine (hstep j _ _ _ (10641 / 10000 * D0 + 52 / 10 ^ 6 * Q) hj (t12 _ (by omega)) (t14 _ (by omega)) (by norm_num at b1 hQ2 ⊢; linarith) ?_).2.trans ?_
    · intro hc
      rw [getD_of_lt (by simpa using hc), List.getElem_map, List.getElem_range]
      exact ⟨t02 _ (by omega), t04 _ (by omega), by norm_num at b0 hQ2 ⊢; linarith⟩
    · rw [← hR, hQ8]
      split <;> norm_num <;> linarith
  · obtain ⟨G0, hG0⟩ : ∃ G0 : ℕ → ℝ, G0 = fun p => |val (T0 p) - aliasAt cfg.nf freq1 wn p| := ⟨_, rfl⟩
    obtain ⟨G1, hG1⟩ : ∃ G1 : ℕ → ℝ, G1 = fun p => |val (T1 p) - aliasAt cfg.nf freq2 wn p| := ⟨_, rfl⟩
    rw [← hG0] at t05
    rw [← hG1] at t15
    have key : ∀ j, j < cfg.nf → |val (((List.range cfg.nf).map fun j => if j < cfg.nf - cfg.z then
          add (((List.range (cfg.nf - cfg.z)).map fun j => T0 (cfg.nf + cfg.z + j)).getD j (fin 0)) (T1 (cfg.z + j))
          else T1 (cfg.z + j)).getD j (fin 0)) - ((x0 ++ x1).getD (j + 2 * cfg.z) 0 : ℝ)|
        ≤ (1 + 1 / 2 ^ 24) * ((if j < cfg.nf - cfg.z then G0 (cfg.nf + cfg.z + j) else 0) + G1 (cfg.z + j)) + 61 / 10 ^ 9 * A := by
      intro j hj
      rw [getD_of_lt (by simpa using hj), List.getElem_map, List.getElem_range]
      have q1 := t14 (cfg.z + j) (by omega)
      refine (hstep j _ _ (G1 (cfg.z + j)) (G0 (cfg.nf + cfg.z + j)) hj (t12 _ (by omega)) (by rw [hG1]) ?_ ?_).2
      · rw [hG1]
        exact q1.trans (by norm_num at b1 hQ2 ⊢; linarith)
      · intro hc
        have q0 := t04 (cfg.nf + cfg.z + j) (by omega)
        rw [getD_of_lt (by simpa using hc), List.getElem_map, List.getElem_range, hG0]
        exact ⟨t02 _ (by omega), le_refl _, q0.trans (by norm_num at b0 hQ2 ⊢; linarith)⟩
    have s1 := l2_mono (fun _ _ => abs_nonneg _) key
    have s2 := l2_add_le cfg.nf (fun j => (1 + 1 / 2 ^ 24) * ((if j < cfg.nf - cfg.z then G0 (cfg.nf + cfg.z + j) else 0) + G1 (cfg.z + j)))
      (fun _ => 61 / 10 ^ 9 * (A : ℝ))
    rw [l2_const _ (by positivity), l2_smul cfg.nf (1 + 1 / 2 ^ 24) (by norm_num)
      (fun j => (if j < cfg.nf - cfg.z then G0 (cfg.nf + cfg.z + j) else 0) + G1 (cfg.z + j)), ← hR] at s2
    have s3 := l2_add_le cfg.nf (fun j => if j < cfg.nf - cfg.z then G0 (cfg.nf + cfg.z + j) else 0) (fun j => G1 (cfg.z + j))
    rw [l2_ite (by omega) (fun j => G0 (cfg.nf + cfg.z + j))] at s3
    have s4 := (l2_shift (n := cfg.nf) (m := 2 * cfg.nf) (a := cfg.z) (by omega) G1).trans t15
    have s5 := (l2_shift (n := cfg.nf - cfg.z) (m := 2 * cfg.nf) (a := cfg.nf + cfg.z) (by omega) G0).trans t05
    have s6 : R * (61 / 10 ^ 9 * (A : ℝ)) = 61 / 10 ^ 9 * Q := by rw [hQ, ← hR]; ring
    rw [s6] at s2
    refine s1.trans (s2.trans ?_)
    rw [← hR, hQ8]
    norm_num at s3 s4 s5 ⊢
    linarith

namespace F32

/-- the value next above -1/2 is written as -1 -/
theorem roundSample_special (el : Elem) : @roundSample F32 (scalar el) (fin (-(1 / 2 - 1 / 2 ^ 25))) = -1 := by
  have hpos : @pos F32 (scalar el) (fin (-(1 / 2 - 1 / 2 ^ 25))) = false := by
    show F32.lt (rnd 0) (fin _) = _
    rw [rnd_zero]; show decide (_ < _) = false
    norm_num
  unfold roundSample
  rw [hpos]
  simp only [Bool.false_eq_true, if_false]
  change max (min (F32.toI32 (F32.sub (fin (-(1 / 2 - 1 / 2 ^ 25))) (rnd (1 / 2)))) 32767) (-32768) = -1
  rw [rnd_half]
  change max (min (F32.toI32 (rnd (-(1 / 2 - 1 / 2 ^ 25) + -(1 / 2)))) 32767) (-32768) = -1
  rw [← rndK_eq]
  decide +kernel

/-- rounding and clipping of one sample in binary32, compared with any 16 bit value -/
theorem roundSample32_near (el : Elem) {a : F32} (ha : IsFin a) (hr : IsF32 a) {u : Int} (h1 : -32768 ≤ u) (h2 : u ≤ 32767) :
    |((@roundSample F32 (scalar el) a : Int) : ℝ) - u| ≤ 1 / 2 + 1 / 2 ^ 24 + |val a - u| := by
  obtain ⟨q, rfl⟩ := ha
  have hrep := hr q rfl
  show |((@roundSample F32 (scalar el) (fin q) : Int) : ℝ) - u| ≤ 1 / 2 + 1 / 2 ^ 24 + |(q : ℝ) - u|
  have tri : ∀ t : Int, |(t : ℝ) - q| ≤ 1 / 2 + 1 / 2 ^ 24 → |((t : Int) : ℝ) - u| ≤ 1 / 2 + 1 / 2 ^ 24 + |(q : ℝ) - u| := by
    intro t ht
    have := abs_sub_le (t : ℝ) (q : ℝ) (u : ℝ)
    linarith
  by_cases c1 : q = 1 / 2 - 1 / 2 ^ 25
  · rw [c1]
    rw [(C09_round_fails el).2.1, ← c1]
    refine tri 1 ?_
    rw [c1]
    norm_num [abs_le]
  by_cases c2 : q = -(1 / 2 - 1 / 2 ^ 25)
  · have hm : @roundSample F32 (scalar el) (fin q) = -1 := by
      rw [c2]
      exact roundSample_special el
    rw [hm]
    refine tri (-1) ?_
    rw [c2]
    norm_num [abs_le]
  rw [C09_round_partial el q hrep c1 c2]
  have hc : |clamp16 (roundHalfAway q) - u| ≤ |roundHalfAway q - u| := by
    unfold clamp16
    split
    · rw [abs_of_nonpos (by omega), abs_of_nonpos (by omega)]; omega
    · split
      · rw [abs_of_nonneg (by omega), abs_of_nonneg (by omega)]; omega
      · exact le_refl _
  have hc' : |((clamp16 (roundHalfAway q) : Int) : ℝ) - u| ≤ |((roundHalfAway q : Int) : ℝ) - u| := by exact_mod_cast hc
  refine hc'.trans (tri _ ?_)
  have hq : |((roundHalfAway q : Int) : ℚ) - q| ≤ 1 / 2 := by
    unfold roundHalfAway
    split
    · have f1 := Int.floor_le (q + 1 / 2)
      have f2 := Int.lt_floor_add_one (q + 1 / 2)
      rw [abs_le]; constructor <;> linarith
    · have f1 := Int.floor_le (-q + 1 / 2)
      have f2 := Int.lt_floor_add_one (-q + 1 / 2)
      push_cast
      rw [abs_le]; constructor <;> linarith
  have hq' : |((roundHalfAway q : Int) : ℝ) - q| ≤ 1 / 2 := by
    have := (Rat.cast_le (K := ℝ)).2 hq
    push_cast at this
    exact this
  have : (0 : ℝ) < 1 / 2 ^ 24 := by positivity
  linarith

theorem scaleAndRound32_getD (el : Elem) : ∀ (v : List F32) (out : List Int) (j : Nat), j < v.length → j < out.length →
    (@scaleAndRound F32 (scalar el) v out).getD j 0 = @roundSample F32 (scalar el) (v.getD j (fin 0))
  | [], _, _, h, _ => by simp at h
  | _ :: _, [], _, _, h => by simp at h
  | x :: xs, _ :: out, 0, _, _ => by
    letI := scalar el
    simp [scaleAndRound]
  | x :: xs, _ :: out, j + 1, h, h' => by
    letI := scalar el
    rw [scaleAndRound, List.getD_cons_succ, List.getD_cons_succ]
    exact scaleAndRound32_getD el xs out j (by simpa using h) (by simpa using h')

/-- one frame through the encoder and the decoder -/
theorem frame_through32 {checks : Bool} {el : Elem} {f : SamplingFrequency} {d : FrameDuration} {ch : EncChannel F32} {x : List Int}
    {buf : List Nat} {a : EncAnalysis F32} {s : EncSt} {t : Nat} (h : CodedFrame32 checks el f d ch x buf a s t) (hoff : FilterOff a.p)
    {dch : DecChannel F32} (hd : ChInv f d dch) (out : List Int) :
    ∃ ch' bytes dch' o fr, @encodeChannel F32 (scalar el) (Lc3Config.new f d) ch x buf = .ok (ch', bytes) ∧ ch'.Inv (Lc3Config.new f d) ∧
      ch'.freq = a.freq ∧ bytes.length = buf.length ∧
      @decodeChannel F32 (scalar el) checks (Lc3Config.new f d) dch 16 bytes out = .ok (.ok, dch', o) ∧ ChInv f d dch' ∧
      @mdctDecRun F32 (scalar el) (Lc3Config.new f d) dch.memOla dch'.specLines = .ok (dch'.memOla, fr) ∧
      dch'.ltpf.activePrev = false ∧
      (dch.ltpf.activePrev = false → o = @scaleAndRound F32 (scalar el) fr out) := by
  letI := scalar el
  obtain ⟨q, ch', bytes, bits, e1, e2, e3, e4, -, -⟩ := C96 h
  have hfreq : ch'.freq = a.freq := by
    have e := e1
    unfold encodeChannel at e
    rw [h.analysed, Res.bind_ok] at e
    obtain ⟨_, -, e⟩ := bind_ok_inv e
    simp only [Res.ok.injEq, Prod.mk.injEq] at e
    obtain ⟨rfl, -⟩ := e
    rfl
  have hread : readFrame checks (Lc3Config.new f d) bytes = readFrame false (Lc3Config.new f d) bytes := by
    cases checks with
    | false => rfl
    | true =>
      rcases readFrame_checks (Lc3Config.new f d) bytes with hc | hc
      · rw [hc] at e4; cases e4
      · exact hc
  have heq : decodeChannel checks (Lc3Config.new f d) dch 16 bytes out = decodeChannel false (Lc3Config.new f d) dch 16 bytes out := by
    unfold decodeChannel decodeSpectrum
    rw [hread]
  have hsafe := safe_decodeChannel hd (bits := 16) (out := out) (readFrame_long e4)
  have hno := noErr_decodeChannel false (Lc3Config.new f d) dch 16 bytes out
  have hdec : ∃ r, decodeChannel checks (Lc3Config.new f d) dch 16 bytes out = .ok r := by
    rw [heq]
    cases e : decodeChannel false (Lc3Config.new f d) dch 16 bytes out with
    | ok r => exact ⟨r, rfl⟩
    | err => exact absurd e hno
    | panic => rw [e] at hsafe; exact hsafe.elim
  obtain ⟨⟨r, dch', o⟩, hdec⟩ := hdec
  have hinv := (decodeChannel_inv hd hdec).1
  have e := hdec
  unfold decodeChannel at e
  rw [if_neg (by simp)] at e
  obtain ⟨⟨lines, plc, info⟩, g1, e⟩ := bind_ok_inv e
  simp only at e
  rw [if_neg (by simp [hd.freq])] at e
  obtain ⟨⟨ola, fr⟩, g2, e⟩ := bind_ok_inv e
  obtain ⟨⟨lt, fr'⟩, g3, e⟩ := bind_ok_inv e
  simp only [Res.ok.injEq, Prod.mk.injEq] at e
  obtain ⟨rfl, rfl, rfl⟩ := e
  have hinfo : info = (expectedSide a.p q).ltpf := by
    unfold decodeSpectrum at g1
    rw [e4] at g1
    obtain ⟨l, -, g1⟩ := bind_ok_inv g1
    obtain ⟨pl, -, g1⟩ := bind_ok_inv g1
    simp only [Res.ok.injEq, Prod.mk.injEq] at g1
    exact g1.2.2.symm
  have hact : info.isActive = false := by
    rw [hinfo]
    unfold expectedSide
    rcases hoff with hc | hc
    · simp [hc]
    · cases a.p.pitchPresent <;> simp [hc]
  have hst := ltpfRun_state g3
  refine ⟨ch', bytes, _, _, fr, e1, e2, hfreq, e3, hdec, hinv, g2, hst.1.trans hact, fun hp => ?_⟩
  rw [ltpf_off_out hd.ltpf hact hp g3]

end F32

/-- **C103** (encoder and decoder) From samples to samples in binary32: two consecutive frames of 16 bit samples up to the amplitude `A`
are coded and decoded. If neither frame switches on the post filter, every decoded sample of the second frame is the input sample
`nf - 2 z` earlier, up to the rounding to integers, `A sqrt nf / 8192`, and 1.065 times the distance between the spectra the
decoder synthesised and the spectra the encoder analysed (of this frame, and of the frame before where they overlap). The state of the
encoder is arbitrary, that of the decoder is any state in which all numbers are finite (`C93`: every decoder). -/
theorem C103_frames {checks : Bool} {el : Elem} (hel : Tame el) {f : SamplingFrequency} {d : FrameDuration} {ch : EncChannel F32}
    {x0 : List Int} {buf0 : List Nat} {a0 : EncAnalysis F32} {s0 : EncSt} {t0 : Nat} (h0 : CodedFrame32 checks el f d ch x0 buf0 a0 s0 t0)
    (off0 : FilterOff a0.p) {dch : DecChannel F32} (hd : ChFin f d dch) (out0 : List Int) :
    ∃ ch' bytes0 dch' o0 L0 eb0 nn0, @encodeChannel F32 (scalar el) (Lc3Config.new f d) ch x0 buf0 = .ok (ch', bytes0) ∧
      @decodeChannel F32 (scalar el) checks (Lc3Config.new f d) dch 16 bytes0 out0 = .ok (.ok, dch', o0) ∧
      @mdctEncRun F32 (scalar el) (Lc3Config.new f d) ch.freq x0 = .ok (ch'.freq, L0, eb0, nn0) ∧
      ∀ (x1 : List Int) (buf1 : List Nat) (a1 : EncAnalysis F32) (s1 : EncSt) (t1 : Nat) (out1 : List Int) (A : ℕ),
        CodedFrame32 checks el f d ch' x1 buf1 a1 s1 t1 → FilterOff a1.p → out1.length = (Lc3Config.new f d).nf →
        (∀ v ∈ x0 ++ x1, -32768 ≤ v ∧ v ≤ 32767) → 1 ≤ A → A ≤ 2 ^ 15 → (∀ v ∈ ch.freq ++ (x0 ++ x1), |v| ≤ A) →
        ∃ ch'' bytes1 dch'' o1 L1 eb1 nn1, @encodeChannel F32 (scalar el) (Lc3Config.new f d) ch' x1 buf1 = .ok (ch'', bytes1) ∧
          @decodeChannel F32 (scalar el) checks (Lc3Config.new f d) dch' 16 bytes1 out1 = .ok (.ok, dch'', o1) ∧
          @mdctEncRun F32 (scalar el) (Lc3Config.new f d) ch'.freq x1 = .ok (ch''.freq, L1, eb1, nn1) ∧
          Finite dch'.specLines ∧ Finite dch''.specLines ∧ Finite L0 ∧ Finite L1 ∧ o1.length = (Lc3Config.new f d).nf ∧
          ∀ j, j < (Lc3Config.new f d).nf →
            |(o1.getD j 0 : ℝ) - ((x0 ++ x1).getD (j + 2 * (Lc3Config.new f d).z) 0 : ℝ)| ≤ 1 / 2 + 1 / 2 ^ 24
              + A / 8192 * Real.sqrt (Lc3Config.new f d).nf
              + 1065 / 1000 * (lineDist (Lc3Config.new f d).nf (dch''.specLines.map val) (L1.map val)
                + if j < (Lc3Config.new f d).nf - (Lc3Config.new f d).z then
                    lineDist (Lc3Config.new f d).nf (dch'.specLines.map val) (L0.map val) else 0) := by
  letI := scalar el
  obtain ⟨ch', bytes0, dch', o0, fr0, e1, e2, e3, e3', e4, e5, e6, e7, -⟩ := frame_through32 h0 off0 hd.inv out0
  obtain ⟨freq, L0, eb0, nn0, bwInd, nbitsBw, attack, det, sns, tns, ltpf, pf, quant, spec, res, nf, l0, -, -, -, -, -, -,
    -, -, -, ha0⟩ := encAnalyse_inv h0.analysed
  have hfr0 : a0.freq = freq := by rw [ha0]
  rw [← hfr0, ← e3] at l0
  have hfin' := bd_decodeChannel hel hd (by rw [e3']; have := h0.len; omega) e4
  refine ⟨ch', bytes0, dch', o0, L0, eb0, nn0, e1, e4, l0, ?_⟩
  intro x1 buf1 a1 s1 t1 out1 A h1 off1 ho hx hA1 hA hb
  obtain ⟨ch'', bytes1, dch'', o1, fr1, g1, g2, g3, g3', g4, g5, g6, g7, g8⟩ := frame_through32 h1 off1 e5 out1
  obtain ⟨freq', L1, eb1, nn1, bwInd', nbitsBw', attack', det', sns', tns', ltpf', pf', quant', spec', res', nf', l1, -, -, -, -, -, -,
    -, -, -, ha1⟩ := encAnalyse_inv h1.analysed
  have hfr1 : a1.freq = freq' := by rw [ha1]
  rw [← hfr1, ← g3] at l1
  have hfin'' := bd_decodeChannel hel hfin' (by rw [g3']; have := h1.len; omega) g4
  have hol := (decodeChannel_inv e5 g4).2
  have S0f : Finite dch'.specLines := fun v hv => (hfin'.spec v hv).1
  have S1f : Finite dch''.specLines := fun v hv => (hfin''.spec v hv).1
  have hl : ch.freq.length = 2 * (Lc3Config.new f d).nf := by rw [h0.inv.freq, Nat.mul_comm]
  have hl' : ch'.freq.length = 2 * (Lc3Config.new f d).nf := by rw [e2.freq, Nat.mul_comm]
  have hlen : ∀ {fr fr' y : List Int} {L eb : List F32} {nn : Bool},
      mdctEncRun (Lc3Config.new f d) fr y = .ok (fr', L, eb, nn) → y.length = (Lc3Config.new f d).nf := by
    intro fr fr' y L eb nn hh
    by_contra hc
    unfold mdctEncRun at hh
    rw [if_pos hc] at hh
    cases hh
  have hx0 := hlen l0
  have hx1 := hlen l1
  have b0 : ∀ v ∈ ch.freq, |v| ≤ A := fun v hv => hb v (by simp [hv])
  have b1 : ∀ v ∈ x0, |v| ≤ A := fun v hv => hb v (by simp [hv])
  have b2 : ∀ v ∈ x1, |v| ≤ A := fun v hv => hb v (by simp [hv])
  obtain ⟨wn, H, hwt⟩ := mdctOk_config f d
  -- the exact buffers
  obtain ⟨fr1', l', eb', nn', c, eb'', nn'', r1, r2, r3, r4, r5⟩ := C90 hel.toAccurate f d hA1 hA hl hx0 b0 b1
  rw [l0] at r2
  simp only [Res.ok.injEq, Prod.mk.injEq] at r2
  obtain ⟨rfl, rfl, rfl, rfl⟩ := r2
  obtain ⟨fq, eb3, nn3, l3, wn', k0, hwn, u0, -, -⟩ := mdctEncRun_ok hl hx0
  rw [H.win] at hwn
  cases hwn
  rw [r1] at k0
  cases k0
  obtain ⟨-, -, -, hnew⟩ := mdctUpdate_ok H.z hl u0
  have b3 := mdctUpdate_bound u0 b0 b1
  obtain ⟨fr2', l'2, eb'2, nn'2, c2, eb''2, nn''2, w1, w2, w3, w4, w5⟩ := C90 hel.toAccurate f d hA1 hA hl' hx1 b3 b2
  rw [l1] at w2
  simp only [Res.ok.injEq, Prod.mk.injEq] at w2
  obtain ⟨rfl, rfl, rfl, rfl⟩ := w2
  refine ⟨ch'', bytes1, dch'', o1, L1, eb1, nn1, g1, g4, l1, S0f, S1f, r4, w4, hol.trans ho, ?_⟩
  intro j hj
  have hz := H.z
  have hmem : (x0 ++ x1).getD (j + 2 * (Lc3Config.new f d).z) 0 ∈ x0 ++ x1 := by
    rw [getD_of_lt (by rw [List.length_append]; omega)]
    exact List.getElem_mem _
  obtain ⟨u1, u2⟩ := hx _ hmem
  obtain ⟨D0, hD0⟩ : ∃ D, D = lineDist (Lc3Config.new f d).nf (dch'.specLines.map val) (L0.map val) := ⟨_, rfl⟩
  obtain ⟨D1, hD1⟩ : ∃ D, D = lineDist (Lc3Config.new f d).nf (dch''.specLines.map val) (L1.map val) := ⟨_, rfl⟩
  obtain ⟨Q, hQ⟩ : ∃ Q, Q = A * Real.sqrt (Lc3Config.new f d).nf := ⟨_, rfl⟩
  have hD0' : 0 ≤ D0 := by rw [hD0]; exact lineDist_nonneg _ _ _
  have hD1' : 0 ≤ D1 := by rw [hD1]; exact lineDist_nonneg _ _ _
  have hR1 : 1 ≤ Real.sqrt ((Lc3Config.new f d).nf : ℝ) := by
    rw [Real.one_le_sqrt]; exact_mod_cast (by omega : 1 ≤ (Lc3Config.new f d).nf)
  have hA' : (1 : ℝ) ≤ A := by exact_mod_cast hA1
  have hA2 : (A : ℝ) ≤ 2 ^ 15 := by exact_mod_cast hA
  have hAQ : (A : ℝ) ≤ Q := by rw [hQ]; nlinarith
  have hQ2 : Q ≤ 2 ^ 20 := by
    rw [hQ]
    have h2 : Real.sqrt ((Lc3Config.new f d).nf : ℝ) ≤ 2 ^ 5 := by
      rw [Real.sqrt_le_iff]
      refine ⟨by norm_num, ?_⟩
      have hnf1 : (Lc3Config.new f d).nf ≤ 2 ^ 10 := by cases f <;> cases d <;> decide
      have : ((Lc3Config.new f d).nf : ℝ) ≤ ((2 ^ 10 : ℕ) : ℝ) := by exact_mod_cast hnf1
      refine this.trans ?_
      norm_num
    calc (A : ℝ) * Real.sqrt ((Lc3Config.new f d).nf : ℝ) ≤ 2 ^ 15 * 2 ^ 5 := by gcongr
      _ = 2 ^ 20 := by norm_num
  have hQ8 : (A : ℝ) / 8192 * Real.sqrt (Lc3Config.new f d).nf = 1 / 8192 * Q := by rw [hQ]; ring
  rw [hQ8, ← hD0, ← hD1]
  have hfl : fr1.length = (Lc3Config.new f d).nf := ((safe_mdctDecRun g5.spec e5.ola).of_ok g6).2
  rw [g8 e7, scaleAndRound32_getD el _ _ _ (by omega) (by omega)]
  -- far away spectra
  by_cases hfar : 2 ^ 38 < D1 + if j < (Lc3Config.new f d).nf - (Lc3Config.new f d).z then D0 else 0
  · have hr := roundSample_range (fr1.getD j (fin 0))
    have hbig : |((roundSample (fr1.getD j (fin 0)) : Int) : ℝ) - ((x0 ++ x1).getD (j + 2 * (Lc3Config.new f d).z) 0 : ℝ)| ≤ 2 ^ 17 := by
      generalize roundSample (fr1.getD j (fin 0)) = r at *
      generalize (x0 ++ x1).getD (j + 2 * (Lc3Config.new f d).z) 0 = u at *
      have : |r - u| ≤ 2 ^ 17 := by rw [abs_le]; omega
      exact_mod_cast this
    refine hbig.trans ?_
    generalize (D1 + if j < (Lc3Config.new f d).nf - (Lc3Config.new f d).z then D0 else 0) = D at *
    norm_num at hfar ⊢
    linarith
  have hfar := not_lt.1 hfar
  have n1 : D1 ≤ 2 ^ 38 := by
    refine le_trans ?_ hfar
    split <;> linarith
  obtain ⟨-, v1, c1, T1, t11, t12, t13, t14, -⟩ := doubleFrame_near hel.toAccurate H hA1 hA hl' b3 b2 l1 g5.spec S1f hD1 hQ (n1.trans (by norm_num))
  have hrun := t11 dch'.memOla e5.ola
  rw [g6] at hrun
  simp only [Res.ok.injEq, Prod.mk.injEq] at hrun
  have hout : fr1.getD j (fin 0) = if j < (Lc3Config.new f d).nf - (Lc3Config.new f d).z then
      F32.add (dch'.memOla.getD j (fin 0)) (T1 ((Lc3Config.new f d).z + j)) else T1 ((Lc3Config.new f d).z + j) := by
    rw [hrun.2, getD_of_lt (by simpa using hj), List.getElem_map, List.getElem_range]
  have hmemj : j < (Lc3Config.new f d).nf - (Lc3Config.new f d).z → IsFin (dch'.memOla.getD j (fin 0)) ∧
      |val (dch'.memOla.getD j (fin 0)) - aliasAt (Lc3Config.new f d).nf ch'.freq wn ((Lc3Config.new f d).nf + (Lc3Config.new f d).z + j)|
        ≤ 10641 / 10000 * D0 + 52 / 10 ^ 6 * Q ∧ 10641 / 10000 * D0 + 52 / 10 ^ 6 * Q ≤ 2 ^ 40 := by
    intro hc
    rw [if_pos hc] at hfar
    have n0 : D0 ≤ 2 ^ 38 := by linarith
    obtain ⟨-, -, -, T0, t01, t02, t03, t04, -⟩ := doubleFrame_near hel.toAccurate H hA1 hA hl b0 b1 l0 e5.spec S0f hD0 hQ (n0.trans (by norm_num))
    have hrun0 := t01 dch.memOla hd.inv.ola
    rw [e6] at hrun0
    simp only [Res.ok.injEq, Prod.mk.injEq] at hrun0
    rw [hrun0.1, getD_of_lt (by simpa using hc), List.getElem_map, List.getElem_range]
    exact ⟨t02 _ (by omega), t04 _ (by omega), by norm_num at n0 hQ2 ⊢; linarith⟩
  obtain ⟨q1, q2⟩ := sample_near H hwt hA1 hA hl' hx0 hnew v1 c1 hj (t12 _ (by omega)) (t14 _ (by omega))
    (by norm_num at n1 hQ2 ⊢; linarith) hmemj
  have hrep : IsF32 (if j < (Lc3Config.new f d).nf - (Lc3Config.new f d).z then
      F32.add (dch'.memOla.getD j (fin 0)) (T1 ((Lc3Config.new f d).z + j)) else T1 ((Lc3Config.new f d).z + j)) := by
    split
    · exact isF32_add _ _
    · exact t13 _
  rw [← hout] at q1 q2 hrep
  refine (roundSample32_near el q1 hrep u1 u2).trans ?_
  generalize |val (fr1.getD j (fin 0)) - ((x0 ++ x1).getD (j + 2 * (Lc3Config.new f d).z) 0 : ℝ)| = P at *
  by_cases hc : j < (Lc3Config.new f d).nf - (Lc3Config.new f d).z
  · rw [if_pos hc] at q2 ⊢
    norm_num at q2 ⊢
    linarith
  · rw [if_neg hc] at q2 ⊢
    norm_num at q2 ⊢
    linarith

/-! ### Concrete cases -/

/-- C103 applies at 16 kHz to the encoder's own lines, any two frames of samples up to 1000 after any such buffer: no sample is off by
more than 2. -/
example (x0 x1 freq : List Int) (l0 : x0.length = 160) (l1 : x1.length = 160) (hf : freq.length = 320)
    (hb : ∀ v ∈ freq ++ (x0 ++ x1), |v| ≤ 1000) (mem : List F32) (hm : mem.length = 100) :
    ∃ (el : Elem) (freq1 freq2 : List Int) (L0 eb0 : List F32) (nn0 : Bool) (L1 eb1 : List F32) (nn1 : Bool) (mem1 out0 mem2 out1 : List F32),
      @mdctEncRun F32 (scalar el) (Lc3Config.new .hz16000 .tenMs) freq x0 = .ok (freq1, L0, eb0, nn0) ∧
      @mdctEncRun F32 (scalar el) (Lc3Config.new .hz16000 .tenMs) freq1 x1 = .ok (freq2, L1, eb1, nn1) ∧
      @mdctDecRun F32 (scalar el) (Lc3Config.new .hz16000 .tenMs) mem L0 = .ok (mem1, out0) ∧
      @mdctDecRun F32 (scalar el) (Lc3Config.new .hz16000 .tenMs) mem1 L1 = .ok (mem2, out1) ∧
      ∀ j, j < 160 → |val (out1.getD j (fin 0)) - ((x0 ++ x1).getD (j + 120) 0 : ℝ)| ≤ 2 := by
  obtain ⟨el, hel⟩ := exists_accurate
  have e1 : (Lc3Config.new .hz16000 .tenMs).nf = 160 := by decide
  have e2 : (Lc3Config.new .hz16000 .tenMs).ne = 160 := by decide
  have e3 : (Lc3Config.new .hz16000 .tenMs).z = 60 := by decide
  have hl : freq.length = 2 * (Lc3Config.new .hz16000 .tenMs).nf := by rw [e1]; exact hf
  have b0 : ∀ v ∈ freq, |v| ≤ (1000 : ℕ) := fun v hv => hb v (by simp [hv])
  have b1 : ∀ v ∈ x0, |v| ≤ (1000 : ℕ) := fun v hv => hb v (by simp [hv])
  have b2 : ∀ v ∈ x1, |v| ≤ (1000 : ℕ) := fun v hv => hb v (by simp [hv])
  obtain ⟨freq1, l, eb, nn, L0, eb0, nn0, r1, r2, r3, r4, -⟩ := C90 hel .hz16000 .tenMs (by norm_num) (by norm_num) hl (x := x0)
    (by rw [e1]; exact l0) b0 b1
  obtain ⟨fq, eb', nn', l', wn', k0, -, u0, -, -⟩ := mdctEncRun_ok (f := .hz16000) (d := .tenMs) hl (x := x0) (by rw [e1]; exact l0)
  rw [r1] at k0
  cases k0
  have hl1 := (mdctUpdate_ok (cfg := Lc3Config.new .hz16000 .tenMs) (by rw [e1, e3]; omega) hl u0).2.1
  have b3 := mdctUpdate_bound u0 b0 b1
  obtain ⟨freq2, _, _, _, L1, eb1, nn1, -, w2, w3, w4, -⟩ := C90 hel .hz16000 .tenMs (by norm_num) (by norm_num) hl1 (x := x1)
    (by rw [e1]; exact l1) b3 b2
  have hself : ∀ L : List F32, lineDist (Lc3Config.new .hz16000 .tenMs).nf (L.map val) (L.map val) = 0 := by
    intro L
    unfold lineDist lineEnergy
    simp
  obtain ⟨mem1, out0, mem2, out1, d0, d1, -, -, key, -⟩ := C103 hel .hz16000 .tenMs (A := 1000) (by norm_num) (by norm_num) hl b0 b1 b2 r2 w2
    (mem := mem) (S0 := L0) (S1 := L1) (by rw [e1, e3]; exact hm) (by rw [r3, e1, e2]) (by rw [w3, e1, e2]) r4 w4 rfl rfl
    (by rw [hself]; norm_num) (by rw [hself]; norm_num)
  refine ⟨el, freq1, freq2, L0, eb0, nn0, L1, eb1, nn1, mem1, out0, mem2, out1, r2, w2, d0, d1, ?_⟩
  intro j hj
  have := key j (by rw [e1]; exact hj)
  rw [hself, hself, e1, e3] at this
  refine this.trans ?_
  have hs : Real.sqrt ((160 : ℕ) : ℝ) ≤ 13 := by
    rw [Real.sqrt_le_iff]; norm_num
  have : (0 + if j < 160 - 60 then (0 : ℝ) else 0) = 0 := by simp
  rw [this]
  generalize Real.sqrt ((160 : ℕ) : ℝ) = r at *
  norm_num
  linarith

/-- C103 applies to two frames of silence in 120 bytes at 48 kHz and to a new decoder. -/
example (checks : Bool) : ∃ (el : Elem) (ch : EncChannel F32) (a0 : EncAnalysis F32) (s0 : EncSt) (t0 : Nat) (dch : DecChannel F32),
    Tame el ∧ ChFin .hz48000 .tenMs dch ∧
    CodedFrame32 checks el .hz48000 .tenMs ch (List.replicate 480 0) (List.replicate 120 0) a0 s0 t0 ∧ FilterOff a0.p ∧
    (∀ v ∈ ch.freq, |v| ≤ 1) ∧
    ∃ ch' bytes a1 s1 t1,
      @encodeChannel F32 (scalar el) (Lc3Config.new .hz48000 .tenMs) ch (List.replicate 480 0) (List.replicate 120 0) = .ok (ch', bytes) ∧
      CodedFrame32 checks el .hz48000 .tenMs ch' (List.replicate 480 0) (List.replicate 120 0) a1 s1 t1 ∧ FilterOff a1.p := by
  obtain ⟨el, he, hlg⟩ := exists_logFunctions
  letI := scalar el
  obtain ⟨ch, hi, h0⟩ := newChannel32_48 el .tenMs
  obtain ⟨a0, s0, t0, h, hz0, -⟩ := silence_coded32 he hlg checks hi h0 (x := List.replicate 480 0) List.length_replicate (AllZero.replicate _)
    (buf := List.replicate 120 0) (by simp) (by simp)
  have hr : 560 + (Lc3Config.new .hz48000 .tenMs).fsInd * 80
      ≤ ltpfTNbits (Lc3Config.new .hz48000 .tenMs).nMs ((List.replicate 120 0).length * 8) := by
    rw [List.length_replicate]; decide
  obtain ⟨q, ch', bytes, bits, e1, e2, -⟩ := C96 h
  have hz : AllZero ch'.freq := by
    have e := e1
    unfold encodeChannel at e
    rw [h.analysed, Res.bind_ok] at e
    obtain ⟨_, -, e⟩ := bind_ok_inv e
    simp only [Res.ok.injEq, Prod.mk.injEq] at e
    obtain ⟨rfl, -⟩ := e
    exact hz0
  obtain ⟨a1, s1, t1, h', -⟩ := silence_coded32 he hlg checks e2 hz (x := List.replicate 480 0) List.length_replicate (AllZero.replicate _)
    (buf := List.replicate 120 0) (by simp) (by simp)
  obtain ⟨dch, e', -⟩ := decChannelNew_ok (α := F32) (f := .hz48000) (d := .tenMs)
    (sb := List.replicate (chanScalars (Lc3Config.new .hz48000 .tenMs)) (fin 0))
    (cb := List.replicate (chanComplex (Lc3Config.new .hz48000 .tenMs)) ⟨fin 0, fin 0⟩)
    (by rw [List.length_replicate]) (by rw [List.length_replicate])
  refine ⟨el, ch, a0, s0, t0, dch, he.toTame, ?_, h, filterOff_of_rate h.analysed hr, ?_, ch', bytes, a1, s1, t1, e1, h',
    filterOff_of_rate h'.analysed hr⟩
  · refine (bd_decChannelNew (fun v hv => ?_) e').1
    rw [List.eq_of_mem_replicate hv]
    exact ⟨⟨0, rfl⟩, by show |((0 : ℚ) : ℝ)| ≤ _; simp⟩
  · intro v hv
    rw [h0 v hv]
    norm_num

end Lc3
