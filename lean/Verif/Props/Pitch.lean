import Verif.Lemmas.PitchSearch
import Verif.Props.EncLtpfRun
/-!
# C76, C77: the pitch analysis of the encoder, in exact arithmetic, is the one of the specification on whole signals

The encoder works frame by frame on four buffers of old samples. The theorems say that, from zeroed buffers on, the buffers hold the
signals of `Spec/Pitch.lean` and every frame gives the results of `PitchFrame`.
-/

namespace Lc3
open Scalar Tables Finset Spec

/-- the signal at 12.8 kHz of the input `s` -/
noncomputable def sig12 (f : SamplingFrequency) (d : FrameDuration) (s : ℤ → ℝ) : ℤ → ℝ := analysed (Lc3Config.new f d).fs d s

/-- the buffers before frame `t` -/
structure EncLtpf.Stream (f : SamplingFrequency) (d : FrameDuration) (sg : ℤ → ℝ) (t : ℕ) (s : EncLtpf ℝ) : Prop where
  inv : s.Inv (Lc3Config.new f d)
  xs : ∀ j < 240 / spacing (Lc3Config.new f d).fs, ((s.xs.getD (s.xs.length - 240 / spacing (Lc3Config.new f d).fs + j) 0 : ℤ) : ℝ)
    = sg ((t * (Lc3Config.new f d).nf : ℕ) - (240 / spacing (Lc3Config.new f d).fs : ℕ) + j)
  xt : ∀ j < s.xt.length, s.xt.getD j 0 = sig12 f d sg ((t * frame12k8 d : ℕ) - frame12k8 d - 232 + j)
  x6 : ∀ j < 114 + frame12k8 d / 2, s.x6.getD j 0 = at6k4 (sig12 f d sg) ((t * (frame12k8 d / 2) : ℕ) - (frame12k8 d / 2 : ℕ) - 114 + j)
  h1 : s.h1 = polesZ (at12k8 (Lc3Config.new f d).fs sg) ((t * frame12k8 d : ℕ) - 1)
  h2 : s.h2 = polesZ (at12k8 (Lc3Config.new f d).fs sg) ((t * frame12k8 d : ℕ) - 2)

theorem pitch_cfg (f : SamplingFrequency) (d : FrameDuration) :
    240 / spacing (Lc3Config.new f d).fs + (Lc3Config.new f d).nf = xsExtLen (Lc3Config.new f d) ∧
    len12p8Of (Lc3Config.new f d).nMs = frame12k8 d ∧ len6p4Of (Lc3Config.new f d).nMs = frame12k8 d / 2 ∧
    delayLtpfOf (Lc3Config.new f d).nMs = analysisDelay d ∧ (Lc3Config.new f d).nMs = d ∧ len12p8Of d = frame12k8 d ∧
    xtExtLen (Lc3Config.new f d) = frame12k8 d + analysisDelay d + 232 ∧ frame12k8 d = 2 * (frame12k8 d / 2) ∧ frame12k8 d / 2 ≤ 64 := by
  cases f <;> cases d <;> decide

/-- the list after `copy_within` -/
theorem shiftDown_getD {β : Type} {l : List β} {a : ℕ} (z : β) (h : a ≤ l.length) :
    ∃ r, shiftDown l a = .ok r ∧ r.length = l.length ∧ ∀ j, j + a < l.length → r.getD j z = l.getD (j + a) z := by
  refine ⟨_, if_pos h, ?_, ?_⟩
  · rw [List.length_append, List.length_drop, List.length_drop]; omega
  · intro j hj
    rw [List.getD_append _ _ _ _ (by rw [List.length_drop]; omega)]
    simp [List.getD_eq_getElem?_getD, List.getElem?_drop, Nat.add_comm]

/-- one frame -/
theorem EncLtpf.Stream.step {f : SamplingFrequency} {d : FrameDuration} {sg : ℤ → ℝ} {t : ℕ} {s : EncLtpf ℝ} (h : s.Stream f d sg t)
    (x : List Int) (hx : x.length = (Lc3Config.new f d).nf)
    (hsg : ∀ j < x.length, ((x.getD j 0 : ℤ) : ℝ) = sg ((t * (Lc3Config.new f d).nf : ℕ) + j)) (nn : Bool) (nbits : ℕ) :
    ∃ s' r, s.run (Lc3Config.new f d) x nn nbits = .ok (s', r) ∧ s'.Stream f d sg (t + 1) ∧
      PitchFrame (at6k4 (sig12 f d sg)) (sig12 f d sg) d t (ltpfTNbits d nbits < 560 + (Lc3Config.new f d).fsInd * 80 ∧ nn = false)
        s.mem s'.mem r.pitchIndex r.pitchPresent r.ltpfActive ∧ r.nbitsLtpf = if r.pitchPresent then 11 else 1 := by
  obtain ⟨⟨hxs, hxt, hx6, hlo, hhi⟩, sxs, sxt, sx6, sh1, sh2⟩ := h
  obtain ⟨c1, c2, c3, c4, c5, c6, c7, c8, c9⟩ := pitch_cfg f d
  obtain ⟨u1, u2, -⟩ := spacing_eq f d
  have e0 : NMEM_12P8D = 232 := rfl
  have e3 : x6ExtLen = 178 := rfl
  -- shifting
  obtain ⟨a, ha, hal, hav⟩ := shiftDown_getD (l := s.xs) (a := s.xs.length - 240 / spacing (Lc3Config.new f d).fs) 0 (Nat.sub_le _ _)
  obtain ⟨b, hb, hbl, hbv⟩ := shiftDown_getD (l := s.xt) (a := frame12k8 d) 0 (by omega)
  obtain ⟨c, hc, hcl, hcv⟩ := shiftDown_getD (l := s.x6) (a := frame12k8 d / 2) 0 (by omega)
  have hshift : ltpfShift (Lc3Config.new f d) s x
      = .ok { s with xs := a.take (240 / spacing (Lc3Config.new f d).fs) ++ x, xt := b, x6 := c } := by
    unfold ltpfShift
    dsimp only
    rw [u1, c2, c3, usub_of_le (by omega)]; simp only [Res.bind_ok]
    rw [ha]; simp only [Res.bind_ok]
    rw [if_pos ⟨by omega, by omega⟩, hb, hc]; simp only [Res.bind_ok]
  -- samples
  have hal' : (a.take (240 / spacing (Lc3Config.new f d).fs) ++ x).length = xsExtLen (Lc3Config.new f d) := by
    rw [List.length_append, List.length_take]; omega
  have hav' : ∀ j < (a.take (240 / spacing (Lc3Config.new f d).fs) ++ x).length,
      (((a.take (240 / spacing (Lc3Config.new f d).fs) ++ x).getD j 0 : ℤ) : ℝ)
        = sg ((t * (Lc3Config.new f d).nf : ℕ) - (240 / spacing (Lc3Config.new f d).fs : ℕ) + j) := by
    intro j hj
    by_cases hj1 : j < 240 / spacing (Lc3Config.new f d).fs
    · rw [List.getD_append _ _ _ _ (by rw [List.length_take]; omega)]
      rw [← sxs j hj1, show s.xs.length - 240 / spacing (Lc3Config.new f d).fs + j = j + (s.xs.length - 240 / spacing (Lc3Config.new f d).fs)
        by omega, ← hav j (by omega)]
      simp [List.getD_eq_getElem?_getD, hj1]
    · rw [List.getD_append_right _ _ _ _ (by rw [List.length_take]; omega), List.length_take,
        show min (240 / spacing (Lc3Config.new f d).fs) a.length = 240 / spacing (Lc3Config.new f d).fs by omega, hsg _ (by omega)]
      congr 1
      rw [Nat.cast_sub (by omega)]; ring
  generalize hxs' : a.take (240 / spacing (Lc3Config.new f d).fs) ++ x = xs' at hal' hav' hshift
  -- resampling and high pass
  obtain ⟨y, hy, hyl, hyv⟩ := resampleAll_real f d xs' sg t hal' hav' (len12p8Of d) 0 (by omega)
  rw [c6] at hy hyl hyv
  obtain ⟨hz1, hz2⟩ := highPass50_real (at12k8 (Lc3Config.new f d).fs sg) y ((t * frame12k8 d : ℕ) : ℤ) (by omega) (fun j hj => by
    rw [hyv j (by omega)]; simp)
  have hzl := highPass50_length y s.h1 s.h2
  rw [← sh1, ← sh2] at hz1 hz2
  rcases hz : highPass50 y s.h1 s.h2 with ⟨z, z1, z2⟩
  rw [hz] at hz1 hz2 hzl
  dsimp only at hz1 hz2 hzl
  rw [Prod.mk.injEq, hyl] at hz2
  -- the signal at 12.8 kHz
  have hxl : (b.take (analysisDelay d + 232) ++ z ++ b.drop (analysisDelay d + 232 + frame12k8 d)).length = xtExtLen (Lc3Config.new f d) := by
    rw [List.length_append, List.length_append, List.length_take, List.length_drop]; omega
  have hxv : ∀ j < (b.take (analysisDelay d + 232) ++ z ++ b.drop (analysisDelay d + 232 + frame12k8 d)).length,
      (b.take (analysisDelay d + 232) ++ z ++ b.drop (analysisDelay d + 232 + frame12k8 d)).getD j 0
        = sig12 f d sg ((t * frame12k8 d : ℕ) - 232 + j) := by
    intro j hj
    rw [hxl, c7] at hj
    rw [List.append_assoc]
    by_cases hj1 : j < analysisDelay d + 232
    · rw [List.getD_append _ _ _ _ (by rw [List.length_take]; omega)]
      have := hbv j (by omega)
      rw [sxt _ (by omega)] at this
      rw [show (t * frame12k8 d : ℕ) - (232 : ℤ) + j = (t * frame12k8 d : ℕ) - (frame12k8 d : ℤ) - 232 + (j + frame12k8 d : ℕ) by push_cast; ring,
        ← this]
      simp [List.getD_eq_getElem?_getD, hj1]
    · rw [List.getD_append_right _ _ _ _ (by rw [List.length_take]; omega), List.length_take,
        show min (analysisDelay d + 232) b.length = analysisDelay d + 232 by omega, List.getD_append _ _ _ _ (by omega), hz1 _ (by omega)]
      unfold sig12 analysed
      congr 1
      rw [Nat.cast_sub (by omega)]; push_cast; ring
  generalize hxt' : b.take (analysisDelay d + 232) ++ z ++ b.drop (analysisDelay d + 232 + frame12k8 d) = xt' at hxl hxv
  -- the searches
  have h6v : ∀ j < 114, c.getD j 0 = at6k4 (sig12 f d sg) (((t * (frame12k8 d / 2) : ℕ) : ℤ) - 114 + j) := by
    intro j hj
    rw [hcv j (by omega), sx6 _ (by omega)]
    congr 1; push_cast; ring
  obtain ⟨T, present, y6, hpd, hy6l, hy6v, t1, t2, hol, hpr⟩ := pitchDetection_real (Lc3Config.new f d) s.tPrev xt' c (sig12 f d sg)
    ((t * (frame12k8 d / 2) : ℕ) : ℤ) hlo hhi (fun j hj => by
      rw [hxv j hj]; congr 1
      have : ((frame12k8 d : ℕ) : ℤ) = 2 * (frame12k8 d / 2 : ℕ) := by exact_mod_cast c8
      rw [Nat.cast_mul, Nat.cast_mul, this]; ring) (by rw [c3]; omega) (by omega) h6v
  rw [c3] at hol hpr hy6v
  obtain ⟨p, e, q, hpl, hq, hq2, hcl, hfr⟩ := pitchLagParameter_real (Lc3Config.new f d) xt' (sig12 f d sg) ((t * frame12k8 d : ℕ) : ℤ) T t1 t2
    ⟨by rw [c2]; omega, fun j hj => by rw [hxv j (by omega)]⟩
  obtain ⟨active, hac, hact⟩ := activationBit_real (Lc3Config.new f d)
    { s with xs := xs', xt := xt', h1 := z1, h2 := z2, x6 := y6 } (sig12 f d sg) ((t * frame12k8 d : ℕ) : ℤ) hxv hxl q hq2 nn
    (decide (ltpfTNbits (Lc3Config.new f d).nMs nbits < 560 + (Lc3Config.new f d).fsInd * 80))
  have hrun := EncLtpf.run_eq (s := s) (nn := nn) (nbits := nbits) hx hshift (by rw [c4, e0, c2]; dsimp only; omega) (by rw [c2]; exact hy) hz
    (by rw [c4, e0, c2]; exact hxt') hpd hpl hac
  refine ⟨_, _, hrun, ?_, ?_, rfl⟩
  · refine ⟨⟨hal', hxl, hy6l, t1, t2⟩, ?_, ?_, ?_, ?_, ?_⟩
    · intro j hj
      dsimp only
      rw [hav' _ (by omega)]
      congr 1
      rw [hal', Nat.cast_add, Nat.cast_sub (by omega), ← c1]; push_cast; ring
    · intro j hj
      rw [hxv j hj]
      congr 1; push_cast; ring
    · intro j hj
      rw [hy6v j hj]
      congr 1; push_cast; ring
    · dsimp only
      rw [hz2.1]; congr 1; push_cast; ring
    · dsimp only
      rw [hz2.2]; congr 1; push_cast; ring
  · rw [c2] at hcl hfr
    rw [c2, c5, decide_eq_true_eq] at hact
    refine ⟨T, p, e, hol, hpr, hcl, hfr, q, hq, rfl, hact, ?_⟩
    unfold EncLtpf.mem
    rw [c2]
    dsimp only
    split <;> simp [real_zero]

/-- the state after `new` with zeroed buffers -/
theorem EncLtpf.Stream.start (f : SamplingFrequency) (d : FrameDuration) (sg : ℤ → ℝ) (hsg : ∀ n < 0, sg n = 0) (ns ni : ℕ)
    (hs : (encLtpfBufLens (Lc3Config.new f d)).2 ≤ ns) (hi : (encLtpfBufLens (Lc3Config.new f d)).1 ≤ ni) :
    ∃ s, EncLtpf.new (Lc3Config.new f d) (List.replicate ns (0 : ℝ)) (List.replicate ni 0)
        = .ok (s, List.replicate (ns - (encLtpfBufLens (Lc3Config.new f d)).2) 0, List.replicate (ni - (encLtpfBufLens (Lc3Config.new f d)).1) 0) ∧
      s.mem = PitchMem.start ∧ s.Stream f d sg 0 := by
  obtain ⟨c1, c2, c3, c4, c5, c6, c7, c8, c9⟩ := pitch_cfg f d
  have e3 : x6ExtLen = 178 := rfl
  unfold encLtpfBufLens at hs hi ⊢
  dsimp only at hs hi ⊢
  have hneg : ∀ n : ℤ, n < analysisDelay d → sig12 f d sg n = 0 := by
    intro n hn
    unfold sig12 analysed highPassed polesZ
    rw [if_neg (by omega), if_neg (by omega), if_neg (by omega)]; ring
  have hD : 2 ≤ analysisDelay d := by cases d <;> decide
  unfold EncLtpf.new splitAt
  rw [if_pos (by simpa using hi)]; simp only [Res.bind_ok]
  rw [if_pos (by rw [List.length_replicate]; omega)]; simp only [Res.bind_ok]
  rw [if_pos (by rw [List.length_drop, List.length_replicate]; omega)]; simp only [Res.bind_ok]
  simp only [List.take_replicate, List.drop_replicate, real_zero]
  refine ⟨_, by rw [Nat.sub_sub], rfl, ⟨⟨?_, ?_, ?_, by show 17 ≤ K_MIN; decide, by show K_MIN ≤ 114; decide⟩, ?_, ?_, ?_, ?_, ?_⟩⟩
  · simp only [List.length_replicate]; omega
  · simp only [List.length_replicate]; omega
  · simp only [List.length_replicate]; omega
  · intro j hj
    rw [hsg _ (by rw [Nat.zero_mul]; generalize 240 / spacing (Lc3Config.new f d).fs = z at hj; omega)]
    dsimp only
    rw [List.getD_eq_getElem?_getD, List.getElem?_replicate]
    split <;> simp
  · intro j hj
    rw [List.length_replicate] at hj
    rw [hneg _ (by push_cast; omega)]
    dsimp only
    rw [List.getD_eq_getElem?_getD, List.getElem?_replicate]
    split <;> simp
  · intro j hj
    unfold at6k4
    have := c9
    generalize frame12k8 d / 2 = l6 at *
    rw [hneg _ (by push_cast; omega), hneg _ (by push_cast; omega), hneg _ (by push_cast; omega), hneg _ (by push_cast; omega),
      hneg _ (by push_cast; omega)]
    dsimp only
    rw [List.getD_eq_getElem?_getD, List.getElem?_replicate]
    split <;> simp
  · unfold polesZ; rw [if_neg (by push_cast; omega)]
  · unfold polesZ; rw [if_neg (by push_cast; omega)]

/-- a sequence of frames -/
theorem EncLtpf.Stream.runAll {f : SamplingFrequency} {d : FrameDuration} {sg : ℤ → ℝ} : ∀ (fs : List (List Int × Bool × Nat)) (t : ℕ)
    (s : EncLtpf ℝ), s.Stream f d sg t → (∀ x ∈ fs, x.1.length = (Lc3Config.new f d).nf) →
    (∀ k (hk : k < fs.length), ∀ j < (Lc3Config.new f d).nf, ((fs[k].1.getD j 0 : ℤ) : ℝ) = sg (((t + k) * (Lc3Config.new f d).nf : ℕ) + j)) →
    ∃ (s' : EncLtpf ℝ) (rs : List EncLtpfResult) (mem : ℕ → PitchMem), s.runAll (Lc3Config.new f d) fs = .ok (s', rs) ∧
      s'.Stream f d sg (t + fs.length) ∧ mem 0 = s.mem ∧ rs.length = fs.length ∧
      ∀ k (hk : k < fs.length) (hk' : k < rs.length), PitchFrame (at6k4 (sig12 f d sg)) (sig12 f d sg) d (t + k)
        (ltpfTNbits d fs[k].2.2 < 560 + (Lc3Config.new f d).fsInd * 80 ∧ fs[k].2.1 = false)
        (mem k) (mem (k + 1)) rs[k].pitchIndex rs[k].pitchPresent rs[k].ltpfActive ∧
        rs[k].nbitsLtpf = if rs[k].pitchPresent then 11 else 1 := by
  intro fs
  induction fs with
  | nil =>
    intro t s h _ _
    exact ⟨s, [], fun _ => s.mem, rfl, h, rfl, rfl, fun k hk => absurd hk (by simp)⟩
  | cons x fs ih =>
    intro t s h hl hv
    obtain ⟨x, nn, nbits⟩ := x
    have hxl : x.length = (Lc3Config.new f d).nf := hl (x, nn, nbits) (by simp)
    obtain ⟨s1, r, hr, hs1, hp, hn⟩ := h.step x hxl (fun j hj => by
      have := hv 0 (by simp) j (by omega)
      simpa using this) nn nbits
    obtain ⟨s', rs, mem, hrs, hs', hm, hlen, hall⟩ := ih (t + 1) s1 hs1 (fun y hy => hl y (by simp [hy])) (fun k hk j hj => by
      have := hv (k + 1) (by simpa using hk) j hj
      rw [show t + 1 + k = t + (k + 1) by omega]
      simpa using this)
    refine ⟨s', r :: rs, fun k => if k = 0 then s.mem else mem (k - 1), ?_, ?_, rfl, by simp [hlen], ?_⟩
    · simp only [EncLtpf.runAll]
      rw [hr]; simp only [Res.bind_ok]
      rw [hrs]; simp only [Res.bind_ok]
    · rw [List.length_cons, show t + (fs.length + 1) = t + 1 + fs.length by omega]; exact hs'
    · intro k hk hk'
      cases k with
      | zero =>
        refine ⟨?_, hn⟩
        simp only [List.getElem_cons_zero, Nat.add_zero, if_true, Nat.zero_add, Nat.one_ne_zero, if_false, Nat.sub_self, hm]
        exact hp
      | succ k =>
        have := hall k (by simpa using hk) (by simpa using hk')
        simp only [List.getElem_cons_succ, Nat.add_one_ne_zero, if_false, Nat.add_sub_cancel]
        rw [show t + (k + 1) = t + 1 + k by omega]
        exact this

theorem flatten_getD {nf : ℕ} : ∀ (fs : List (List Int)), (∀ x ∈ fs, x.length = nf) → ∀ k (hk : k < fs.length) (j : ℕ), j < nf →
    fs.flatten.getD (k * nf + j) 0 = fs[k].getD j 0 := by
  intro fs
  induction fs with
  | nil => intro _ k hk; exact absurd hk (by simp)
  | cons x fs ih =>
    intro hl k hk j hj
    have hx : x.length = nf := hl x (by simp)
    rw [List.flatten_cons]
    cases k with
    | zero =>
      rw [Nat.zero_mul, Nat.zero_add, List.getD_append _ _ _ _ (by omega)]; rfl
    | succ k =>
      rw [List.getD_append_right _ _ _ _ (by rw [hx, Nat.succ_mul]; omega), hx,
        show (k + 1) * nf + j - nf = k * nf + j by rw [Nat.succ_mul]; omega]
      exact ih (fun y hy => hl y (by simp [hy])) k (by simpa using hk) j hj

/-- C76: started with zeroed buffers, the encoder's pitch analysis holds, after any number of frames, the latest 232 + 24 (or 44) + one frame
of samples of the analysed signal at 12.8 kHz and the latest 114 samples and one frame of the signal at 6.4 kHz: the whole input,
resampled, high passed and decimated as one signal, without any trace of the frames. -/
theorem C76 (f : SamplingFrequency) (d : FrameDuration) (fs : List (List Int × Bool × Nat))
    (hl : ∀ x ∈ fs, x.1.length = (Lc3Config.new f d).nf) (ns ni : ℕ)
    (hs : (encLtpfBufLens (Lc3Config.new f d)).2 ≤ ns) (hi : (encLtpfBufLens (Lc3Config.new f d)).1 ≤ ni) :
    ∃ s0 ib sb s rs, EncLtpf.new (Lc3Config.new f d) (List.replicate ns (0 : ℝ)) (List.replicate ni 0) = .ok (s0, sb, ib) ∧
      s0.runAll (Lc3Config.new f d) fs = .ok (s, rs) ∧
      s.xt.length = 232 + analysisDelay d + frame12k8 d ∧
      (∀ j < 232 + analysisDelay d + frame12k8 d, s.xt.getD j 0 = analysed (Lc3Config.new f d).fs d (inputSignal (fs.map (·.1)))
        ((fs.length * frame12k8 d : ℕ) - frame12k8 d - 232 + j)) ∧
      ∀ j < 114 + frame12k8 d / 2, s.x6.getD j 0 = at6k4 (analysed (Lc3Config.new f d).fs d (inputSignal (fs.map (·.1))))
        ((fs.length * (frame12k8 d / 2) : ℕ) - (frame12k8 d / 2 : ℕ) - 114 + j) := by
  obtain ⟨s0, h0, -, hst⟩ := EncLtpf.Stream.start f d (inputSignal (fs.map (·.1))) (fun n hn => if_neg (by omega)) ns ni hs hi
  obtain ⟨s, rs, mem, hr, hst', -, -, -⟩ := hst.runAll fs 0 s0 hl (fun k hk j hj => by
    unfold inputSignal
    rw [if_pos (by omega)]
    rw [show (((0 + k) * (Lc3Config.new f d).nf : ℕ) + (j : ℤ)).toNat = k * (Lc3Config.new f d).nf + j by rw [Nat.zero_add]; omega,
      flatten_getD (fs.map (·.1)) (fun x hx => by
        obtain ⟨y, hy, rfl⟩ := List.mem_map.1 hx
        exact hl y hy) k (by simpa using hk) j hj]
    simp)
  obtain ⟨-, -, -, -, -, -, c7, -, -⟩ := pitch_cfg f d
  rw [Nat.zero_add] at hst'
  have hxl : s.xt.length = 232 + analysisDelay d + frame12k8 d := by rw [hst'.inv.xt, c7]; omega
  exact ⟨s0, _, _, s, rs, h0, hr, hxl, fun j hj => hst'.xt j (by omega), hst'.x6⟩

/-- C77: started with zeroed buffers, every frame of the encoder's pitch analysis gives the results of the specification on the whole
signal: the open loop lag, the presence of a pitch, the lag in quarters of a sample and its index, and the activation of the post
filter with its memory of the last two frames. -/
theorem C77 (f : SamplingFrequency) (d : FrameDuration) (fs : List (List Int × Bool × Nat))
    (hl : ∀ x ∈ fs, x.1.length = (Lc3Config.new f d).nf) (ns ni : ℕ)
    (hs : (encLtpfBufLens (Lc3Config.new f d)).2 ≤ ns) (hi : (encLtpfBufLens (Lc3Config.new f d)).1 ≤ ni) :
    ∃ s0 ib sb s rs, EncLtpf.new (Lc3Config.new f d) (List.replicate ns (0 : ℝ)) (List.replicate ni 0) = .ok (s0, sb, ib) ∧
      s0.runAll (Lc3Config.new f d) fs = .ok (s, rs) ∧ rs.length = fs.length ∧
      ∃ mem : ℕ → PitchMem, mem 0 = PitchMem.start ∧ ∀ k (hk : k < fs.length) (hk' : k < rs.length),
        PitchFrame (at6k4 (analysed (Lc3Config.new f d).fs d (inputSignal (fs.map (·.1)))))
          (analysed (Lc3Config.new f d).fs d (inputSignal (fs.map (·.1)))) d k
          (ltpfTNbits d fs[k].2.2 < 560 + (Lc3Config.new f d).fsInd * 80 ∧ fs[k].2.1 = false)
          (mem k) (mem (k + 1)) rs[k].pitchIndex rs[k].pitchPresent rs[k].ltpfActive ∧
        rs[k].nbitsLtpf = if rs[k].pitchPresent then 11 else 1 := by
  obtain ⟨s0, h0, hm, hst⟩ := EncLtpf.Stream.start f d (inputSignal (fs.map (·.1))) (fun n hn => if_neg (by omega)) ns ni hs hi
  obtain ⟨s, rs, mem, hr, -, hm0, hlen, hall⟩ := hst.runAll fs 0 s0 hl (fun k hk j hj => by
    unfold inputSignal
    rw [if_pos (by omega)]
    rw [show (((0 + k) * (Lc3Config.new f d).nf : ℕ) + (j : ℤ)).toNat = k * (Lc3Config.new f d).nf + j by rw [Nat.zero_add]; omega,
      flatten_getD (fs.map (·.1)) (fun x hx => by
        obtain ⟨y, hy, rfl⟩ := List.mem_map.1 hx
        exact hl y hy) k (by simpa using hk) j hj]
    simp)
  refine ⟨s0, _, _, s, rs, h0, hr, hlen, mem, hm0.trans hm, fun k hk hk' => ?_⟩
  have := hall k hk hk'
  rw [Nat.zero_add] at this
  exact this

end Lc3
