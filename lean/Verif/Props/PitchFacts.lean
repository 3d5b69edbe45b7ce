import Verif.Props.Pitch
import Verif.Lemmas.PitchFacts
/-!
# C78, C79: consequences of the specification of the pitch analysis: loudness and leading silence
-/

namespace Lc3
open Scalar Tables Finset Spec

/-- the results of the analysis of some frames from zeroed buffers of the least lengths on -/
noncomputable def pitchResults (f : SamplingFrequency) (d : FrameDuration) (fs : List (List Int × Bool × Nat)) : Res (List EncLtpfResult) := do
  let (s, _, _) ← EncLtpf.new (Lc3Config.new f d) (List.replicate (encLtpfBufLens (Lc3Config.new f d)).2 (0 : ℝ))
    (List.replicate (encLtpfBufLens (Lc3Config.new f d)).1 0)
  let (_, rs) ← s.runAll (Lc3Config.new f d) fs
  .ok rs

/-- C77 in terms of `pitchResults` -/
theorem pitchResults_spec (f : SamplingFrequency) (d : FrameDuration) (fs : List (List Int × Bool × Nat))
    (hl : ∀ x ∈ fs, x.1.length = (Lc3Config.new f d).nf) :
    ∃ rs, pitchResults f d fs = .ok rs ∧ rs.length = fs.length ∧
      ∃ mem : ℕ → PitchMem, mem 0 = PitchMem.start ∧ ∀ k (hk : k < fs.length) (hk' : k < rs.length),
        PitchFrame (at6k4 (analysed (Lc3Config.new f d).fs d (inputSignal (fs.map (·.1)))))
          (analysed (Lc3Config.new f d).fs d (inputSignal (fs.map (·.1)))) d k
          (ltpfTNbits d fs[k].2.2 < 560 + (Lc3Config.new f d).fsInd * 80 ∧ fs[k].2.1 = false)
          (mem k) (mem (k + 1)) rs[k].pitchIndex rs[k].pitchPresent rs[k].ltpfActive ∧
        rs[k].nbitsLtpf = if rs[k].pitchPresent then 11 else 1 := by
  obtain ⟨s0, ib, sb, s, rs, h0, hr, hlen, hmem⟩ := C77 f d fs hl _ _ (le_refl _) (le_refl _)
  refine ⟨rs, ?_, hlen, hmem⟩
  unfold pitchResults
  rw [h0]; simp only [Res.bind_ok]
  rw [hr]; simp only [Res.bind_ok]

/-- two sequences of results with the same signals and conditions are equal -/
theorem pitch_sequence_unique {w x : ℤ → ℝ} {d : FrameDuration} (al : ℕ → Prop) (n : ℕ) (mem mem' : ℕ → PitchMem)
    (rs rs' : List EncLtpfResult) (h0 : mem 0 = mem' 0) (hn : rs.length = n) (hn' : rs'.length = n)
    (h : ∀ k (hk : k < rs.length), PitchFrame w x d k (al k) (mem k) (mem (k + 1)) rs[k].pitchIndex rs[k].pitchPresent rs[k].ltpfActive ∧
      rs[k].nbitsLtpf = if rs[k].pitchPresent then 11 else 1)
    (h' : ∀ k (hk : k < rs'.length), PitchFrame w x d k (al k) (mem' k) (mem' (k + 1)) rs'[k].pitchIndex rs'[k].pitchPresent rs'[k].ltpfActive ∧
      rs'[k].nbitsLtpf = if rs'[k].pitchPresent then 11 else 1) : rs = rs' := by
  have hm : ∀ k, k ≤ n → mem k = mem' k := by
    intro k
    induction k with
    | zero => exact fun _ => h0
    | succ k ih =>
      intro hk
      have a := (h k (by omega)).1
      rw [ih (by omega)] at a
      exact (a.unique (h' k (by omega)).1).1
  apply List.ext_getElem (by omega)
  intro k hk hk'
  obtain ⟨a, b⟩ := h k hk
  obtain ⟨a', b'⟩ := h' k hk'
  rw [hm k (by omega)] at a
  obtain ⟨-, e1, e2, e3⟩ := a.unique a'
  generalize rs[k] = r at *
  generalize rs'[k] = r' at *
  obtain ⟨i, p, c, nb⟩ := r
  obtain ⟨i', p', c', nb'⟩ := r'
  dsimp only at e1 e2 e3 b b'
  subst e1 e2 e3
  rw [b, b']

/-- the condition on the bit rate and on energy near the Nyquist frequency, for frame `k` -/
def ltpfAllowed (f : SamplingFrequency) (d : FrameDuration) (fs : List (List Int × Bool × Nat)) (k : ℕ) : Prop :=
  ∃ hk : k < fs.length, ltpfTNbits d fs[k].2.2 < 560 + (Lc3Config.new f d).fsInd * 80 ∧ fs[k].2.1 = false

theorem ltpfAllowed_eq {f : SamplingFrequency} {d : FrameDuration} {fs : List (List Int × Bool × Nat)} {k : ℕ} (hk : k < fs.length) :
    (ltpfTNbits d fs[k].2.2 < 560 + (Lc3Config.new f d).fsInd * 80 ∧ fs[k].2.1 = false) = ltpfAllowed f d fs k :=
  propext ⟨fun h => ⟨hk, h⟩, fun h => h.2⟩

theorem flatten_map_mul (c : ℤ) (fs : List (List ℤ)) : (fs.map (fun x => x.map (c * ·))).flatten = fs.flatten.map (c * ·) := by
  rw [List.map_flatten]

/-- C78: the results of the pitch analysis do not depend on the loudness: multiplying all samples by the same positive number changes
none of them (in exact arithmetic). -/
theorem C78 (f : SamplingFrequency) (d : FrameDuration) (fs : List (List Int × Bool × Nat))
    (hl : ∀ x ∈ fs, x.1.length = (Lc3Config.new f d).nf) (c : ℤ) (hc : 0 < c) :
    ∃ rs, pitchResults f d fs = .ok rs ∧ pitchResults f d (fs.map fun x => (x.1.map (c * ·), x.2)) = .ok rs := by
  obtain ⟨rs, hr, hlen, mem, hm, hall⟩ := pitchResults_spec f d fs hl
  obtain ⟨rs', hr', hlen', mem', hm', hall'⟩ := pitchResults_spec f d (fs.map fun x => (x.1.map (c * ·), x.2)) (fun x hx => by
    obtain ⟨y, hy, rfl⟩ := List.mem_map.1 hx
    simpa using hl y hy)
  have hc' : (0 : ℝ) < c := by exact_mod_cast hc
  have hsig : inputSignal ((fs.map fun x => (x.1.map (c * ·), x.2)).map (·.1)) = fun t => (c : ℝ) * inputSignal (fs.map (·.1)) t := by
    funext t
    unfold inputSignal
    rw [List.map_map, show ((fun x : List Int × Bool × Nat => x.1) ∘ fun x => (x.1.map (c * ·), x.2))
      = (fun x : List ℤ => x.map (c * ·)) ∘ (fun x : List Int × Bool × Nat => x.1) from rfl, ← List.map_map, flatten_map_mul]
    split
    · rw [List.getD_eq_getElem?_getD, List.getD_eq_getElem?_getD, List.getElem?_map]
      cases (fs.map (·.1)).flatten[t.toNat]? <;> simp
    · ring
  rw [hsig, analysed_scale, at6k4_scale] at hall'
  rw [List.length_map] at hlen'
  refine ⟨rs, hr, ?_⟩
  rw [hr']
  congr 1
  refine (pitch_sequence_unique (ltpfAllowed f d fs) fs.length
    (w := fun n => (c : ℝ) * at6k4 (analysed (Lc3Config.new f d).fs d (inputSignal (fs.map (·.1)))) n)
    (x := fun n => (c : ℝ) * analysed (Lc3Config.new f d).fs d (inputSignal (fs.map (·.1))) n) (d := d) mem mem' rs rs' (hm.trans hm'.symm) hlen hlen'
    (fun k hk => ?_) (fun k hk => ?_)).symm
  · obtain ⟨a, b⟩ := hall k (by omega) hk
    rw [ltpfAllowed_eq] at a
    refine ⟨?_, b⟩
    exact a.scale hc'
  · obtain ⟨a, b⟩ := hall' k (by rw [List.length_map]; omega) hk
    refine ⟨?_, b⟩
    rw [← ltpfAllowed_eq (by omega)]
    simpa using a

theorem pitch_spacing (f : SamplingFrequency) (d : FrameDuration) : spacing (Lc3Config.new f d).fs ∣ 120 ∧
    15 * frame12k8 d = spacing (Lc3Config.new f d).fs * (Lc3Config.new f d).nf := by
  cases f <;> cases d <;> decide

/-- C79: a silent frame before the first one only delays the results: it gives no pitch and no post filter, and the frames after it give the
results they give without it. -/
theorem C79 (f : SamplingFrequency) (d : FrameDuration) (fs : List (List Int × Bool × Nat))
    (hl : ∀ x ∈ fs, x.1.length = (Lc3Config.new f d).nf) (nn : Bool) (nbits : ℕ) :
    ∃ rs, pitchResults f d fs = .ok rs ∧
      pitchResults f d ((List.replicate (Lc3Config.new f d).nf 0, nn, nbits) :: fs) = .ok (⟨0, false, false, 1⟩ :: rs) := by
  obtain ⟨rs, hr, hlen, mem, hm, hall⟩ := pitchResults_spec f d fs hl
  obtain ⟨rs', hr', hlen', mem', hm', hall'⟩ := pitchResults_spec f d ((List.replicate (Lc3Config.new f d).nf 0, nn, nbits) :: fs) (fun x hx => by
    rcases List.mem_cons.1 hx with rfl | hx
    · simp
    · exact hl x hx)
  obtain ⟨hP, hL⟩ := pitch_spacing f d
  have hneg : ∀ n < 0, inputSignal (fs.map (·.1)) n = 0 := fun n hn => if_neg (by omega)
  have hsig : inputSignal (((List.replicate (Lc3Config.new f d).nf 0, nn, nbits) :: fs).map (·.1))
      = fun t => inputSignal (fs.map (·.1)) (t - (Lc3Config.new f d).nf) := by
    funext t
    unfold inputSignal
    rw [List.map_cons, List.flatten_cons]
    dsimp only
    generalize (Lc3Config.new f d).nf = nf
    by_cases h1 : 0 ≤ t
    · rw [if_pos h1]
      by_cases h2 : 0 ≤ t - nf
      · rw [if_pos h2, List.getD_append_right _ _ _ _ (by rw [List.length_replicate]; omega), List.length_replicate,
          show t.toNat - nf = (t - nf).toNat by omega]
      · rw [if_neg h2, List.getD_append _ _ _ _ (by rw [List.length_replicate]; omega), List.getD_eq_getElem?_getD, List.getElem?_replicate]
        split <;> simp
    · rw [if_neg h1, if_neg (by omega)]
  have h8 : frame12k8 d = 2 * (frame12k8 d / 2) := (pitch_cfg f d).2.2.2.2.2.2.2.1
  have hD : 2 ≤ analysisDelay d := by cases d <;> decide
  have hz : ∀ n : ℤ, n < analysisDelay d → analysed (Lc3Config.new f d).fs d (inputSignal (fs.map (·.1))) n = 0 := by
    intro n hn
    unfold analysed highPassed polesZ
    rw [if_neg (by omega), if_neg (by omega), if_neg (by omega)]; ring
  have h6 : at6k4 (fun n => analysed (Lc3Config.new f d).fs d (inputSignal (fs.map (·.1))) (n - frame12k8 d))
      = fun n => at6k4 (analysed (Lc3Config.new f d).fs d (inputSignal (fs.map (·.1)))) (n - (frame12k8 d / 2 : ℕ)) := by
    have := at6k4_delay (analysed (Lc3Config.new f d).fs d (inputSignal (fs.map (·.1)))) (frame12k8 d / 2)
    rw [← h8] at this
    exact this
  rw [hsig, analysed_delay _ _ _ _ _ hneg hP hL, h6] at hall'
  have hlen'' : rs'.length = fs.length + 1 := by simpa using hlen'
  obtain ⟨r0, rt, rfl⟩ : ∃ r0 rt, rs' = r0 :: rt := by
    cases rs' with
    | nil => simp at hlen''
    | cons r0 rt => exact ⟨r0, rt, rfl⟩
  obtain ⟨a0, b0⟩ := hall' 0 (by simp) (by simp)
  rw [hm'] at a0
  obtain ⟨m1, i1, p1, c1⟩ := a0.silent (by
    intro n hn
    unfold at6k4
    beta_reduce
    rw [hz _ (by omega), hz _ (by omega), hz _ (by omega), hz _ (by omega), hz _ (by omega)]; ring) (by
    intro n hn
    beta_reduce
    rw [hz _ (by omega)])
  refine ⟨rs, hr, ?_⟩
  rw [hr']
  have e0 : r0 = ⟨0, false, false, 1⟩ := by
    obtain ⟨i, p, c, nb⟩ := r0
    simp only [List.getElem_cons_zero] at i1 p1 c1 b0
    subst i1 p1 c1
    simp only [b0, Bool.false_eq_true, if_false]
  have e1 : rt = rs := by
    refine (pitch_sequence_unique (ltpfAllowed f d fs) fs.length
      (w := fun n => at6k4 (analysed (Lc3Config.new f d).fs d (inputSignal (fs.map (·.1)))) n)
      (x := fun n => analysed (Lc3Config.new f d).fs d (inputSignal (fs.map (·.1))) n) (d := d)
      mem (fun k => mem' (k + 1)) rs rt (hm.trans m1.symm) hlen (by simpa using hlen'') (fun k hk => ?_) (fun k hk => ?_)).symm
    · obtain ⟨a, b⟩ := hall k (by omega) hk
      rw [ltpfAllowed_eq] at a
      refine ⟨?_, b⟩
      exact a
    · have hk2 : k < fs.length := by simp only [List.length_cons] at hlen''; omega
      obtain ⟨a, b⟩ := hall' (k + 1) (by simp only [List.length_cons]; omega) (by simp only [List.length_cons]; omega)
      refine ⟨?_, b⟩
      rw [← ltpfAllowed_eq hk2]
      exact pitchFrame_delay.1 a
  rw [e0, e1]

/-- two frames of 8 kHz with a pulse in each -/
def twoPulses : List (List Int × Bool × Nat) :=
  [((List.range 80).map fun i => if i = 10 then 10000 else 0, false, 320), ((List.range 80).map fun i => if i = 30 then 10000 else 0, false, 320)]

theorem twoPulses_length : ∀ x ∈ twoPulses, x.1.length = (Lc3Config.new .hz8000 .tenMs).nf := by decide

/-- the hypotheses of C76 and C77 hold for two frames with pulses, which are not silent -/
example : twoPulses.map (·.1) ≠ List.replicate 2 (List.replicate 80 0) ∧
    ∃ s0 ib sb s rs, EncLtpf.new (Lc3Config.new .hz8000 .tenMs) (List.replicate 562 (0 : ℝ)) (List.replicate 90 0) = .ok (s0, sb, ib) ∧
      s0.runAll (Lc3Config.new .hz8000 .tenMs) twoPulses = .ok (s, rs) ∧ rs.length = 2 := by
  refine ⟨by decide, ?_⟩
  obtain ⟨s0, ib, sb, s, rs, h0, hr, hl, -⟩ := C77 .hz8000 .tenMs twoPulses twoPulses_length 562 90 (by decide) (by decide)
  exact ⟨s0, ib, sb, s, rs, h0, hr, hl⟩

/-- C78 and C79 for these frames -/
example : pitchResults .hz8000 .tenMs (twoPulses.map fun x => (x.1.map (3 * ·), x.2)) = pitchResults .hz8000 .tenMs twoPulses := by
  obtain ⟨rs, h1, h2⟩ := C78 .hz8000 .tenMs twoPulses twoPulses_length 3 (by norm_num)
  rw [h1, h2]

example : ∃ rs, pitchResults .hz8000 .tenMs twoPulses = .ok rs ∧
    pitchResults .hz8000 .tenMs ((List.replicate 80 0, false, 320) :: twoPulses) = .ok (⟨0, false, false, 1⟩ :: rs) :=
  C79 .hz8000 .tenMs twoPulses twoPulses_length false 320

end Lc3
