import Verif.Lemmas.MdctWindow
/-!
# Property C37: analysis followed by synthesis reconstructs the signal

Exact arithmetic, no quantisation: the lines computed by the encoder's transform are given to the decoder's transform. The
statement is about any sequence of frames and any initial contents of the buffers.
-/

namespace Lc3
open Scalar

/-- the encoder's transform run over a sequence of frames, starting with the time buffer `freq`: the lines of every frame -/
noncomputable def analyse (cfg : Lc3Config) : List Int → List (List Int) → Res (List (List ℝ))
  | _, [] => .ok []
  | freq, x :: xs => do
    let (freq, lines, _, _) ← mdctEncRun cfg freq x
    let r ← analyse cfg freq xs
    .ok (lines :: r)

/-- the decoder's transform run over the lines of a sequence of frames, starting with the overlap memory `mem`: the time
samples of every frame -/
noncomputable def synthesise (cfg : Lc3Config) : List ℝ → List (List ℝ) → Res (List (List ℝ))
  | _, [] => .ok []
  | mem, l :: ls => do
    let (mem, out) ← mdctDecRun cfg mem l
    let r ← synthesise cfg mem ls
    .ok (out :: r)

theorem analyse_cons {cfg : Lc3Config} {freq freq' x : List Int} {xs : List (List Int)} {l eb : List ℝ} {nn : Bool}
    {ls : List (List ℝ)} (h : mdctEncRun cfg freq x = .ok (freq', l, eb, nn)) (h' : analyse cfg freq' xs = .ok ls) :
    analyse cfg freq (x :: xs) = .ok (l :: ls) := by
  rw [analyse, h, Res.bind_ok]
  simp only [h', Res.bind_ok]

theorem synthesise_cons {cfg : Lc3Config} {mem mem' l out : List ℝ} {ls outs : List (List ℝ)}
    (h : mdctDecRun cfg mem l = .ok (mem', out)) (h' : synthesise cfg mem' ls = .ok outs) :
    synthesise cfg mem (l :: ls) = .ok (out :: outs) := by
  rw [synthesise, h, Res.bind_ok]
  simp only [h', Res.bind_ok]

/-- the frames after a frame whose buffer is `freq` -/
theorem synth_stream {f : SamplingFrequency} {d : FrameDuration} {wn : List Rat}
    (H : MdctOk (Lc3Config.new f d) ((Lc3Config.new f d).nf / 2) wn) : ∀ (frames : List (List Int)) (freq past : List Int)
    (mem : List ℝ) (lines : List (List ℝ)), (∀ x ∈ frames, x.length = (Lc3Config.new f d).nf) →
    freq.length = 2 * (Lc3Config.new f d).nf → past.length = (Lc3Config.new f d).nf →
    (∀ p, p < (Lc3Config.new f d).nf →
      freq.getD ((Lc3Config.new f d).nf - (Lc3Config.new f d).z + p) 0 = past.getD p 0) →
    (mem = (List.range ((Lc3Config.new f d).nf - (Lc3Config.new f d).z)).map fun j =>
      aliasAt (Lc3Config.new f d).nf freq wn ((Lc3Config.new f d).nf + (Lc3Config.new f d).z + j)) →
    analyse (Lc3Config.new f d) freq frames = .ok lines →
    (∀ l ∈ lines, ∀ v ∈ l.drop (Lc3Config.new f d).ne, v = 0) →
    ∃ outs, synthesise (Lc3Config.new f d) mem (lines.map (·.take (Lc3Config.new f d).ne)) = .ok outs ∧
      outs.flatten = (List.range (frames.length * (Lc3Config.new f d).nf)).map fun i =>
        (Overlap.weight wn (Lc3Config.new f d).nf (((Lc3Config.new f d).z + i) % (Lc3Config.new f d).nf) : ℝ) *
          ((past ++ frames.flatten).getD (i + 2 * (Lc3Config.new f d).z) 0 : ℝ)
  | [], freq, past, mem, lines, _, _, _, _, _, h, _ => by
    cases h
    exact ⟨[], rfl, by simp⟩
  | x :: xs, freq, past, mem, lines, hx, hl, hp, hpast, hmem, h, hzero => by
    obtain ⟨freq', eb, nn, l, wn', he, hwn, hu, ha, hal⟩ := mdctEncRun_ok hl (hx x (by simp))
    have hxl := hx x (by simp)
    have hxs : ∀ y ∈ xs, y.length = (Lc3Config.new f d).nf := fun y hy => hx y (by simp [hy])
    rw [H.win] at hwn
    cases hwn
    rw [analyse, he, Res.bind_ok] at h
    obtain ⟨r, hr, h⟩ := Res.bind_eq_ok.mp h
    cases h
    have hz := H.z
    obtain ⟨-, hl', -, hnew⟩ := mdctUpdate_ok hz hl hu
    have hzl := hzero l (by simp)
    have hd := mdctDecRun_ok H hl' ha hzl (mem := mem) (by rw [hmem]; simp)
    obtain ⟨outs, ho, hof⟩ := synth_stream H xs freq' x _ r hxs hl' hxl hnew rfl hr (fun k hk => hzero k (by simp [hk]))
    generalize Lc3Config.new f d = cfg at *
    refine ⟨_, synthesise_cons hd ho, ?_⟩
    rw [List.flatten_cons, hof, List.length_cons, Nat.add_mul, Nat.one_mul, Nat.add_comm, List.range_add, List.map_append,
      List.map_map]
    congr 1
    · refine List.map_congr_left fun j hj => ?_
      have hj := List.mem_range.mp hj
      rw [List.flatten_cons, ← mdctUpdate_stream hz hl hp hpast hu hj, ← alias_cancel H hl hu hj]
      by_cases hc : j < cfg.nf - cfg.z
      · rw [if_pos hc, if_pos hc, hmem]
        simp [hc]
      · rw [if_neg hc, if_neg hc]
    · refine List.map_congr_left fun i hi => ?_
      simp only [Function.comp]
      rw [show cfg.z + (cfg.nf + i) = (cfg.z + i) + cfg.nf by omega, Nat.add_mod_right, List.flatten_cons]
      congr 2
      simp only [List.getD_eq_getElem?_getD]
      conv_rhs => rw [List.getElem?_append_right (by omega), hp]
      congr 2
      omega

/-- the encoder's transform does not fail on frames of the right length -/
theorem C37_analysis (f : SamplingFrequency) (d : FrameDuration) : ∀ (frames : List (List Int)) (freq : List Int),
    (∀ x ∈ frames, x.length = (Lc3Config.new f d).nf) → freq.length = 2 * (Lc3Config.new f d).nf →
    ∃ lines, analyse (Lc3Config.new f d) freq frames = .ok lines ∧ lines.length = frames.length ∧
      ∀ l ∈ lines, l.length = (Lc3Config.new f d).nf
  | [], _, _, _ => ⟨[], rfl, rfl, by simp⟩
  | x :: xs, freq, hx, hl => by
    obtain ⟨freq', eb, nn, l, wn', he, hwn, hu, ha, hal⟩ := mdctEncRun_ok hl (hx x (by simp))
    obtain ⟨wn, H, -⟩ := mdctOk_config f d
    obtain ⟨-, hl', -, -⟩ := mdctUpdate_ok H.z hl hu
    obtain ⟨r, hr, hr1, hr2⟩ := C37_analysis f d xs freq' (fun y hy => hx y (by simp [hy])) hl'
    refine ⟨l :: r, analyse_cons he hr, by simp [hr1], ?_⟩
    intro k hk
    rcases List.mem_cons.mp hk with rfl | hk
    · exact hal
    · exact hr2 k hk

/-- **C37.** Any sequence of frames goes through the encoder's transform, starting with any time buffer, and, when the lines the
bit stream does not carry (those from `ne` on) are zero, through the decoder's transform, starting with any overlap memory. In exact
arithmetic, from the second frame on every output sample is the input sample `nf - 2 z` earlier, times the weight of its
position in the window; nothing else of the signal is left (the aliasing cancels). The window is the one of the tables, its weights
differ from one by at most `10 ^ -13`. -/
theorem C37 (f : SamplingFrequency) (d : FrameDuration) :
    ∃ wn, windowOf (Lc3Config.new f d).nMs (Lc3Config.new f d).nf = .ok wn ∧
      (∀ i, i < (Lc3Config.new f d).nf → |Overlap.weight wn (Lc3Config.new f d).nf i - 1| ≤ 1 / 10 ^ 13) ∧
      ∀ (frames : List (List Int)) (freq : List Int) (mem : List ℝ) (lines : List (List ℝ)),
        (∀ x ∈ frames, x.length = (Lc3Config.new f d).nf) → freq.length = 2 * (Lc3Config.new f d).nf →
        mem.length = (Lc3Config.new f d).nf - (Lc3Config.new f d).z →
        analyse (Lc3Config.new f d) freq frames = .ok lines →
        (∀ l ∈ lines, ∀ v ∈ l.drop (Lc3Config.new f d).ne, v = 0) →
        ∃ outs, synthesise (Lc3Config.new f d) mem (lines.map (·.take (Lc3Config.new f d).ne)) = .ok outs ∧
          outs.flatten.length = frames.flatten.length ∧
          ∀ i, (Lc3Config.new f d).nf ≤ i → i < frames.flatten.length →
            outs.flatten.getD i 0 = (Overlap.weight wn (Lc3Config.new f d).nf (((Lc3Config.new f d).z + i) % (Lc3Config.new f d).nf) : ℝ) *
              (frames.flatten.getD (i - ((Lc3Config.new f d).nf - 2 * (Lc3Config.new f d).z)) 0 : ℝ) := by
  obtain ⟨wn, H, hw⟩ := mdctOk_config f d
  refine ⟨wn, H.win, hw, ?_⟩
  intro frames freq mem lines hx hl hm ha hzero
  rcases frames with _ | ⟨x, xs⟩
  · cases ha
    exact ⟨[], rfl, rfl, by simp⟩
  · obtain ⟨freq', eb, nn, l, wn', he, hwn, hu, hap, hal⟩ := mdctEncRun_ok hl (hx x (by simp))
    have hxl := hx x (by simp)
    have hxs : ∀ y ∈ xs, y.length = (Lc3Config.new f d).nf := fun y hy => hx y (by simp [hy])
    rw [H.win] at hwn
    cases hwn
    rw [analyse, he, Res.bind_ok] at ha
    obtain ⟨r, hr, h⟩ := Res.bind_eq_ok.mp ha
    cases h
    have hz := H.z
    obtain ⟨-, hl', -, hnew⟩ := mdctUpdate_ok hz hl hu
    have hd := mdctDecRun_ok H hl' hap (hzero l (by simp)) hm
    obtain ⟨outs, ho, hof⟩ := synth_stream H xs freq' x _ r hxs hl' hxl hnew rfl hr (fun k hk => hzero k (by simp [hk]))
    have hfl : xs.flatten.length = xs.length * (Lc3Config.new f d).nf := flatten_length_const hxs
    generalize Lc3Config.new f d = cfg at *
    refine ⟨_, synthesise_cons hd ho, ?_, ?_⟩
    · rw [List.flatten_cons, List.flatten_cons, List.length_append, List.length_append, hof, hfl, hxl]
      simp
    · intro i hi hi'
      rw [List.flatten_cons, List.length_append, hxl, hfl] at hi'
      rw [List.flatten_cons, hof, List.flatten_cons]
      simp only [List.getD_eq_getElem?_getD]
      rw [List.getElem?_append_right (by simpa using hi)]
      simp only [List.length_map, List.length_range, List.getElem?_map]
      rw [List.getElem?_range (by omega)]
      simp only [Option.map_some, Option.getD_some]
      rw [show i - cfg.nf + 2 * cfg.z = i - (cfg.nf - 2 * cfg.z) by omega]
      congr 3
      conv_rhs => rw [show cfg.z + i = (cfg.z + (i - cfg.nf)) + cfg.nf by omega, Nat.add_mod_right]

/-- **C37**, the first frame: when both buffers start with zeros, the whole output is the input delayed by `nf - 2 z` samples
(times the weights), preceded by zeros. -/
theorem C37_start (f : SamplingFrequency) (d : FrameDuration) :
    ∃ wn, windowOf (Lc3Config.new f d).nMs (Lc3Config.new f d).nf = .ok wn ∧
      ∀ (frames : List (List Int)) (lines : List (List ℝ)),
        (∀ x ∈ frames, x.length = (Lc3Config.new f d).nf) →
        analyse (Lc3Config.new f d) (List.replicate (2 * (Lc3Config.new f d).nf) 0) frames = .ok lines →
        (∀ l ∈ lines, ∀ v ∈ l.drop (Lc3Config.new f d).ne, v = 0) →
        ∃ outs, synthesise (Lc3Config.new f d) (List.replicate ((Lc3Config.new f d).nf - (Lc3Config.new f d).z) 0)
            (lines.map (·.take (Lc3Config.new f d).ne)) = .ok outs ∧
          outs.flatten.length = frames.flatten.length ∧
          ∀ i, i < frames.flatten.length →
            outs.flatten.getD i 0 = if i < (Lc3Config.new f d).nf - 2 * (Lc3Config.new f d).z then 0 else
              (Overlap.weight wn (Lc3Config.new f d).nf (((Lc3Config.new f d).z + i) % (Lc3Config.new f d).nf) : ℝ) *
                (frames.flatten.getD (i - ((Lc3Config.new f d).nf - 2 * (Lc3Config.new f d).z)) 0 : ℝ) := by
  obtain ⟨wn, H, hw⟩ := mdctOk_config f d
  refine ⟨wn, H.win, ?_⟩
  intro frames lines hx ha hzero
  have h0 : ∀ (n p : Nat), (List.replicate n (0 : Int)).getD p 0 = 0 := by
    intro n p
    rw [List.getD_eq_getElem?_getD, List.getElem?_replicate]
    split <;> rfl
  have hal : ∀ p, aliasAt (Lc3Config.new f d).nf (List.replicate (2 * (Lc3Config.new f d).nf) 0) wn p = 0 := by
    intro p
    unfold aliasAt wsample
    rw [h0, h0, h0]
    simp
  obtain ⟨outs, ho, hof⟩ := synth_stream H frames (List.replicate (2 * (Lc3Config.new f d).nf) 0)
    (List.replicate (Lc3Config.new f d).nf 0) (List.replicate ((Lc3Config.new f d).nf - (Lc3Config.new f d).z) 0) lines hx
    (by simp) (by simp) (by intro p _; rw [h0, h0]) (by
      refine eq_map_range (by simp) fun i hi => ?_
      rw [List.getElem_replicate, hal]) ha hzero
  have hfl : frames.flatten.length = frames.length * (Lc3Config.new f d).nf := flatten_length_const hx
  have hz := H.z
  generalize Lc3Config.new f d = cfg at *
  refine ⟨outs, ho, by rw [hof, hfl]; simp, ?_⟩
  intro i hi
  rw [hof]
  rw [getD_of_lt (by simpa [← hfl] using hi), List.getElem_map, List.getElem_range]
  by_cases hc : i < cfg.nf - 2 * cfg.z
  · rw [if_pos hc]
    have : (List.replicate cfg.nf (0 : Int) ++ frames.flatten).getD (i + 2 * cfg.z) 0 = 0 := by
      rw [List.getD_eq_getElem?_getD, List.getElem?_append_left (by simp; omega), ← List.getD_eq_getElem?_getD, h0]
    rw [this]
    simp
  · rw [if_neg hc]
    congr 2
    simp only [List.getD_eq_getElem?_getD]
    rw [List.getElem?_append_right (by simp; omega)]
    congr 2
    rw [List.length_replicate]
    omega

/-- the hypothesis on the dropped lines holds for every signal when no line is dropped, that is below 44.1 kHz -/
theorem C37_all_lines {f : SamplingFrequency} {d : FrameDuration} (hf : f ≠ .hz44100 ∧ f ≠ .hz48000) {lines : List (List ℝ)}
    (h : ∀ l ∈ lines, l.length = (Lc3Config.new f d).nf) : ∀ l ∈ lines, ∀ v ∈ l.drop (Lc3Config.new f d).ne, v = 0 := by
  have : (Lc3Config.new f d).ne = (Lc3Config.new f d).nf := by
    cases f <;> cases d <;> first | rfl | exact absurd rfl hf.1 | exact absurd rfl hf.2
  intro l hl v hv
  rw [this, List.drop_eq_nil_of_le (by rw [h l hl])] at hv
  cases hv

/-- non-trivial instance: at 16 kHz with 10 ms frames any two frames satisfy all hypotheses, and sample 200 of the output (in
the second frame) is sample 160 of the input up to a factor within `10 ^ -13` of one -/
example (x0 x1 : List Int) (h0 : x0.length = 160) (h1 : x1.length = 160) (freq : List Int) (hf : freq.length = 320)
    (mem : List ℝ) (hm : mem.length = 100) :
    ∃ lines outs, analyse (Lc3Config.new .hz16000 .tenMs) freq [x0, x1] = .ok lines ∧
      synthesise (Lc3Config.new .hz16000 .tenMs) mem (lines.map (·.take 160)) = .ok outs ∧
      ∃ c : ℚ, |c - 1| ≤ 1 / 10 ^ 13 ∧ outs.flatten.getD 200 0 = (c : ℝ) * ((x0 ++ x1).getD 160 0 : ℝ) := by
  obtain ⟨wn, -, hw, key⟩ := C37 .hz16000 .tenMs
  have e1 : (Lc3Config.new .hz16000 .tenMs).nf = 160 := by decide
  have e2 : (Lc3Config.new .hz16000 .tenMs).ne = 160 := by decide
  have e3 : (Lc3Config.new .hz16000 .tenMs).z = 60 := by decide
  have hx : ∀ x ∈ [x0, x1], x.length = (Lc3Config.new .hz16000 .tenMs).nf := by
    rw [e1]; intro x hx
    rcases List.mem_cons.mp hx with rfl | hx
    · exact h0
    · rw [List.mem_singleton.mp hx]; exact h1
  obtain ⟨lines, ha, -, hl⟩ := C37_analysis .hz16000 .tenMs [x0, x1] freq hx (by rw [e1]; exact hf)
  have hz := C37_all_lines (f := .hz16000) ⟨by decide, by decide⟩ hl
  obtain ⟨outs, ho, -, h⟩ := key [x0, x1] freq mem lines hx (by rw [e1]; exact hf) (by rw [e1, e3]; exact hm) ha hz
  have := h 200 (by rw [e1]; omega) (by simp [h0, h1])
  rw [e1] at hw
  rw [e1, e3] at this
  rw [e2] at ho
  refine ⟨lines, outs, ha, ho, _, hw 100 (by omega), this.trans ?_⟩
  simp

end Lc3
