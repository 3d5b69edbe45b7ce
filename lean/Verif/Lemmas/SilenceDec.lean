import Verif.Lemmas.SilenceFront
import Verif.Lemmas.SafeDecoder
import Verif.Lemmas.NoErr
/-! # Digital silence: the stages of the decoder -/

namespace Lc3
open Scalar Tables Spec

/-- the memories of a decoder channel that reach the output are zero -/
structure DecChannel.Silent (ch : DecChannel ℝ) : Prop where
  good : AllZero ch.plc.lastGood
  ola : AllZero ch.memOla
  x : AllZero ch.ltpf.xMem
  y : AllZero ch.ltpf.yMem

theorem AllZero.idx {β : Type} [Zero β] {l : List β} (h : AllZero l) {i : Nat} {v : β} (e : Lc3.idx l i = .ok v) : v = 0 := by
  unfold Lc3.idx at e
  cases hg : l[i]? with
  | none => rw [hg] at e; cases e
  | some w => rw [hg] at e; cases e; exact h _ (List.mem_of_getElem? hg)

theorem AllZero.setIdx {β : Type} [Zero β] {l : List β} (h : AllZero l) {i : Nat} {l' : List β} (e : Lc3.setIdx l i 0 = .ok l') : AllZero l' := by
  unfold Lc3.setIdx at e
  split at e
  · cases e
    intro v hv
    rcases List.mem_or_eq_of_mem_set hv with hv | hv
    · exact h v hv
    · exact hv
  · cases e

theorem ringRead_zero {mem : List ℝ} (h : AllZero mem) {ring : Nat} {i : Int} {v : ℝ} (e : ringRead mem ring i = .ok v) : v = 0 := by
  unfold ringRead at e
  split at e
  · split at e
    · cases e
    · exact h.idx e
  · exact h.idx e

theorem firAdd_zero {mem : List ℝ} (h : AllZero mem) (ring : Nat) : ∀ (c : List ℝ) (i : Int) (acc v : ℝ), firAdd mem ring c i acc = .ok v → v = acc := by
  intro c
  induction c with
  | nil => intro i acc v e; cases e; rfl
  | cons a c ih =>
    intro i acc v e
    rw [firAdd] at e
    obtain ⟨w, hw, e⟩ := bind_ok_inv e
    rw [ih _ _ _ e, ringRead_zero h hw, mul_zero, add_zero]

theorem firSub_zero {mem : List ℝ} (h : AllZero mem) (ring : Nat) : ∀ (c : List ℝ) (i : Int) (acc v : ℝ), firSub mem ring c i acc = .ok v → v = acc := by
  intro c
  induction c with
  | nil => intro i acc v e; cases e; rfl
  | cons a c ih =>
    intro i acc v e
    rw [firSub] at e
    obtain ⟨w, hw, e⟩ := bind_ok_inv e
    rw [ih _ _ _ e, ringRead_zero h hw, mul_zero, sub_zero]

theorem real_zero : (zero : ℝ) = 0 := Rat.cast_zero

theorem computeFilter_zero {ring start pitch : Nat} {cNum cDen xMem yMem : List ℝ} {v : ℝ} (hx : AllZero xMem) (hy : AllZero yMem)
    (e : computeFilter ring cNum cDen xMem yMem start pitch = .ok v) : v = 0 := by
  unfold computeFilter at e
  obtain ⟨a, ha, e⟩ := bind_ok_inv e
  rw [firSub_zero hy _ _ _ _ _ e, firAdd_zero hx _ _ _ _ _ ha, real_zero]

theorem forRange_zero {F : Nat → List ℝ → Res (List ℝ)} (hF : ∀ n y y', AllZero y → F n y = .ok y' → AllZero y') :
    ∀ (n a : Nat) (y y' : List ℝ), AllZero y → forRange F a n y = .ok y' → AllZero y' := by
  intro n
  induction n with
  | zero => intro a y y' h e; cases e; exact h
  | succ n ih =>
    intro a y y' h e
    rw [forRange] at e
    obtain ⟨z, hz, e⟩ := bind_ok_inv e
    exact ih _ _ _ (hF _ _ _ h hz) e

theorem ltpfSample_zero {ring blk pitch : Nat} {cNum cDen xMem : List ℝ} {scale : Nat → ℝ → ℝ} (hs : ∀ n, scale n 0 = 0) (hx : AllZero xMem)
    (n : Nat) (y y' : List ℝ) (hy : AllZero y) (e : ltpfSample ring cNum cDen xMem blk pitch scale n y = .ok y') : AllZero y' := by
  unfold ltpfSample at e
  obtain ⟨x, e1, e⟩ := bind_ok_inv e
  obtain ⟨y1, e2, e⟩ := bind_ok_inv e
  obtain ⟨f, e3, e⟩ := bind_ok_inv e
  obtain ⟨v, e4, e⟩ := bind_ok_inv e
  rw [hx.idx e1] at e2
  have h1 := hy.setIdx e2
  rw [computeFilter_zero hx h1 e3, hs, h1.idx e4, sub_zero] at e
  exact h1.setIdx e

theorem ltpfCopy_zero {blk : Nat} {xMem : List ℝ} (hx : AllZero xMem) (n : Nat) (y y' : List ℝ) (hy : AllZero y)
    (e : (do let x ← idx xMem (blk + n); setIdx y (blk + n) x) = Res.ok y') : AllZero y' := by
  obtain ⟨x, e1, e⟩ := bind_ok_inv e
  rw [hx.idx e1] at e
  exact hy.setIdx e

theorem fadeIn_zero (norm n : Nat) : fadeIn norm n (0 : ℝ) = 0 := zero_mul _
theorem fadeOut_zero (norm n : Nat) : fadeOut norm n (0 : ℝ) = 0 := zero_mul _

theorem ltpfScratch_zero {ring norm lNum blk : Nat} {y s : List ℝ} (hy : AllZero y) (e : ltpfScratch ring norm lNum blk y = .ok s) : AllZero s := by
  unfold ltpfScratch at e
  split at e
  · obtain ⟨st, -, e⟩ := bind_ok_inv e
    split at e
    · cases e
    · cases e
      exact ((hy.drop _).take _).append (hy.take _)
  · split at e
    · cases e
    · cases e
      exact (hy.take _).drop _

theorem ltpfSampleFromMem_zero {ring norm blk pitch lNum : Nat} {cNum cDen scratch : List ℝ} (hs : AllZero scratch)
    (n : Nat) (y y' : List ℝ) (hy : AllZero y) (e : ltpfSampleFromMem ring norm cNum cDen scratch blk pitch lNum n y = .ok y') : AllZero y' := by
  unfold ltpfSampleFromMem at e
  obtain ⟨x, e1, e⟩ := bind_ok_inv e
  obtain ⟨y1, e2, e⟩ := bind_ok_inv e
  obtain ⟨a, e3, e⟩ := bind_ok_inv e
  obtain ⟨f, e5, e⟩ := bind_ok_inv e
  obtain ⟨v, e4, e⟩ := bind_ok_inv e
  rw [hs.idx e1] at e2
  have h1 := hy.setIdx e2
  have hf : f = 0 := by rw [firSub_zero h1 _ _ _ _ _ e5, firAdd_zero hs _ _ _ _ _ e3, real_zero]
  rw [hf, fadeIn_zero, h1.idx e4, sub_zero] at e
  exact h1.setIdx e

theorem ltpfTransition_zero {cfg : Lc3Config} {s : Ltpf ℝ} {active : Bool} {pitch pitchFr : Nat} {cNum cDen xMem y : List ℝ}
    (hx : AllZero xMem) (hy : AllZero s.yMem) (e : ltpfTransition cfg s active pitch pitchFr cNum cDen xMem = .ok y) : AllZero y := by
  unfold ltpfTransition at e
  simp only at e
  split at e
  · exact forRange_zero (ltpfCopy_zero hx) _ _ _ _ hy e
  split at e
  · obtain ⟨y1, e1, e⟩ := bind_ok_inv e
    exact forRange_zero (ltpfSample_zero (fun _ => rfl) hx) _ _ _ _ (forRange_zero (ltpfSample_zero (fadeIn_zero _) hx) _ _ _ _ hy e1) e
  split at e
  · obtain ⟨y1, e1, e⟩ := bind_ok_inv e
    exact forRange_zero (ltpfCopy_zero hx) _ _ _ _ (forRange_zero (ltpfSample_zero (fadeOut_zero _) hx) _ _ _ _ hy e1) e
  split at e
  · exact forRange_zero (ltpfSample_zero (fun _ => rfl) hx) _ _ _ _ hy e
  · obtain ⟨y1, e1, e⟩ := bind_ok_inv e
    obtain ⟨l, -, e⟩ := bind_ok_inv e
    obtain ⟨sc, e2, e⟩ := bind_ok_inv e
    obtain ⟨y2, e3, e⟩ := bind_ok_inv e
    have h1 := forRange_zero (ltpfSample_zero (fadeOut_zero _) hx) _ _ _ _ hy e1
    have h2 := forRange_zero (ltpfSampleFromMem_zero (ltpfScratch_zero h1 e2)) _ _ _ _ h1 e3
    exact forRange_zero (ltpfSample_zero (fun _ => rfl) hx) _ _ _ _ h2 e

/-- the post filter maps silence to silence, whatever its parameters are -/
theorem ltpfRun_zero {cfg : Lc3Config} {s s' : Ltpf ℝ} {info : LtpfInfo} {nbits : Nat} {x out : List ℝ} (h1 : AllZero s.xMem)
    (h2 : AllZero s.yMem) (hx : AllZero x) (e : ltpfRun cfg s info nbits x = .ok (s', out)) :
    AllZero s'.xMem ∧ AllZero s'.yMem ∧ AllZero out := by
  unfold ltpfRun at e
  obtain ⟨⟨p, pf⟩, -, e⟩ := bind_ok_inv e
  obtain ⟨⟨cn, cd⟩, -, e⟩ := bind_ok_inv e
  simp only at e
  split at e
  · cases e
  obtain ⟨y, e3, e⟩ := bind_ok_inv e
  split at e
  · cases e
  simp only [Res.ok.injEq, Prod.mk.injEq] at e
  obtain ⟨rfl, rfl⟩ := e
  have hx' : AllZero (s.xMem.take s.blockStart ++ x ++ s.xMem.drop (s.blockStart + cfg.nf)) := ((h1.take _).append hx).append (h1.drop _)
  have hy := ltpfTransition_zero hx' h2 e3
  exact ⟨hx', hy, (hy.take _).drop _⟩

theorem AllZero.zipWith {l m : List ℝ} {F : ℝ → ℝ → ℝ} (hF : F 0 0 = 0) (h : AllZero l) (h' : AllZero m) : AllZero (List.zipWith F l m) := by
  intro v hv
  rw [← List.map_uncurry_zip_eq_zipWith] at hv
  obtain ⟨⟨a, b⟩, hab, rfl⟩ := List.mem_map.1 hv
  have := List.of_mem_zip hab
  simp only [Function.uncurry, h a this.1, h' b this.2, hF]

/-- the inverse transform of silence -/
theorem mdctDecRun_zero {f : SamplingFrequency} {d : FrameDuration} {ola lines ola' out : List ℝ} (h1 : AllZero ola) (h2 : AllZero lines)
    (e : mdctDecRun (Lc3Config.new f d) ola lines = .ok (ola', out)) : AllZero ola' ∧ AllZero out := by
  obtain ⟨wn', H, -⟩ := mdctOk_config f d
  obtain ⟨hnf, ⟨fac, hfac, hok⟩, hz, hne, -, -, -⟩ := H
  unfold mdctDecRun at e
  split at e
  · cases e
  rename_i hl
  obtain ⟨wn, -, e⟩ := bind_ok_inv e
  obtain ⟨pad, hpad, e⟩ := bind_ok_inv e
  obtain ⟨t, ht, e⟩ := bind_ok_inv e
  obtain ⟨n, -, e⟩ := bind_ok_inv e
  split at e
  · cases e
  simp only [Res.ok.injEq, Prod.mk.injEq] at e
  obtain ⟨rfl, rfl⟩ := e
  have hin : lines ++ List.replicate pad (zero : ℝ) = (List.range (2 * ((Lc3Config.new f d).nf / 2))).map fun _ => (0 : ℝ) := by
    have : AllZero (lines ++ List.replicate pad (zero : ℝ)) := h2.append (by rw [real_zero]; exact AllZero.replicate _)
    rw [this.eq, List.map_const', List.length_range, ← hnf]
    congr 1
    rw [usub_of_le hne] at hpad
    cases hpad
    rw [List.length_append, List.length_replicate]
    have := not_not.1 hl
    omega
  have ht0 : AllZero t := by
    rw [hin] at ht
    generalize (Lc3Config.new f d).nf = nf at *
    generalize hh : nf / 2 = hf at *
    subst hnf
    rw [mdctUnfold_ok hfac hok] at ht
    cases ht
    intro v hv
    obtain ⟨k, -, rfl⟩ := List.mem_map.1 hv
    have : unfoldAt hf (fun k => 2 * Fourier.dct4 (2 * hf) (fun _ => 0) k) k = 0 := by
      unfold unfoldAt
      simp [Fourier.dct4]
    rw [this, zero_mul]
  have ht1 : AllZero (List.zipWith (fun (x : ℝ) w => x * ofRat w) t wn.reverse) := by
    intro v hv
    rw [← List.map_uncurry_zip_eq_zipWith] at hv
    obtain ⟨⟨a, b⟩, hab, rfl⟩ := List.mem_map.1 hv
    have := List.of_mem_zip hab
    simp only [Function.uncurry, ht0 a this.1, zero_mul]
  exact ⟨(ht1.take _).drop _, (AllZero.zipWith (add_zero _) (h1.take _) ((ht1.take _).drop _)).append ((ht1.take _).drop _)⟩

theorem residualLoop_zero : ∀ (l : List ℝ) (bits : List Bool), AllZero l → residualLoop bits l = l := by
  intro l
  induction l with
  | nil => intro bits _; cases bits <;> rfl
  | cons a l ih =>
    intro bits h
    have ha : a = 0 := h a (by simp)
    have he : (eq a (zero : ℝ)) = true := by rw [ha, real_zero]; exact decide_eq_true rfl
    rw [residualLoop.eq_def]
    simp only [he, Bool.not_true, Bool.false_eq_true, if_false]
    rw [ih bits fun v hv => h v (by simp [hv])]

/-- The spectrum of a frame that holds no line is zero. -/
theorem specFromFrame_zero {cfg : Lc3Config} {spec lines : List ℝ} {si : SideInfo} {ad : ArithmeticData} {x : List Int}
    (hsp : spec.length = cfg.ne) (hx : AllZero x) (hz : ad.isZeroFrame = true) (ho : ∀ o ∈ ad.rcOrder, o = 0)
    (e : specFromFrame cfg spec si ad x = .ok lines) : AllZero lines := by
  unfold specFromFrame at e
  obtain ⟨l1, e1, e⟩ := bind_ok_inv e
  obtain ⟨l2, e2, e⟩ := bind_ok_inv e
  have h1 : AllZero l1 := by
    unfold dequantise at e1
    split at e1
    · cases e1
    rename_i hlen
    rw [hz] at e1
    have h0 : AllZero (zipInto spec ((x.take cfg.ne).map (ofInt : Int → ℝ))) := by
      unfold zipInto
      refine AllZero.append (AllZero.take ?_ _) ?_
      · intro v hv
        obtain ⟨k, hk, rfl⟩ := List.mem_map.1 hv
        rw [hx k (List.mem_of_mem_take hk)]
        exact (Rat.cast_zero : ((0 : ℚ) : ℝ) = 0) ▸ (by unfold ofInt; norm_num [Scalar.ofRat])
      · rw [List.length_map, List.length_take, List.drop_eq_nil_of_le (by omega)]
        intro v hv; cases hv
    have h0' : AllZero (residualDecode si.lsbMode ad.residualBits (zipInto spec ((x.take cfg.ne).map (ofInt : Int → ℝ)))) := by
      unfold residualDecode
      split
      · rw [residualLoop_zero _ _ h0]; exact h0
      · exact h0
    simp only [noiseFilling, Bool.not_true, Bool.false_eq_true, if_false, Res.bind_ok, Res.ok.injEq] at e1
    rw [← e1]
    intro v hv
    unfold globalGain at hv
    obtain ⟨w, hw, rfl⟩ := List.mem_map.1 hv
    rw [h0' w hw, zero_mul]
  have h2 : AllZero l2 := by
    unfold tnsDecode at e2
    simp only at e2
    split at e2
    · cases e2
    split at e2
    · cases e2
    have key : ∀ (bands : List (Nat × Nat)) (orders : List Nat) (k : Nat) (st : List ℝ), (∀ o ∈ orders, o = 0) →
        tnsLoop (rcQuant ad.rcInts) k bands orders l1 st = .ok l1 := by
      intro bands
      induction bands with
      | nil => intro orders k st _; rw [tnsLoop.eq_def]
      | cons b bands ih =>
        intro orders k st ho
        cases orders with
        | nil => rw [tnsLoop.eq_def]
        | cons o orders =>
          rw [tnsLoop, if_neg (by rw [ho o (by simp)]; omega)]
          exact ih _ _ _ fun v hv => ho v (by simp [hv])
    rw [key _ _ _ _ fun o h => ho o (List.mem_of_mem_take h)] at e2
    cases e2
    exact h1
  unfold snsDecode at e
  obtain ⟨g, -, e⟩ := bind_ok_inv e
  obtain ⟨tab, -, e⟩ := bind_ok_inv e
  exact shapeLoop_zero tab g 0 l2 lines h2 e

theorem roundSample_zero : roundSample (0 : ℝ) = 0 := by
  unfold roundSample
  have hp : pos (0 : ℝ) = false := by
    unfold pos
    rw [real_zero]
    exact decide_eq_false (lt_irrefl 0)
  simp only [hp, Bool.false_eq_true, if_false]
  have : toI32 ((0 : ℝ) - ofRat (1 / 2)) = 0 := by
    show realToI32 _ = 0
    unfold realToI32
    norm_num [Scalar.ofRat]
  rw [this]
  decide

theorem scaleAndRound_zero : ∀ (x : List ℝ) (out : List Int), AllZero x → x.length = out.length → scaleAndRound x out = List.replicate out.length 0 := by
  intro x
  induction x with
  | nil => intro out _ h; cases out with
    | nil => rfl
    | cons a o => simp at h
  | cons a x ih =>
    intro out h0 h
    cases out with
    | nil => simp at h
    | cons b out =>
      rw [scaleAndRound, h0 a (by simp), roundSample_zero, ih out (fun v hv => h0 v (by simp [hv])) (by simpa using h)]
      rfl

theorem plcLoop_zero (al : ℝ) : ∀ (cur good : List ℝ) (seed : Nat), AllZero good → cur.length = good.length → AllZero (plcLoop al seed cur good).1 := by
  intro cur
  induction cur with
  | nil => intro good seed _ _ v hv; simp [plcLoop] at hv
  | cons c cur ih =>
    intro good seed h hl
    cases good with
    | nil => simp at hl
    | cons g good =>
      rw [plcLoop]
      simp only
      intro v hv
      rcases List.mem_cons.1 hv with rfl | hv
      · rw [h g (by simp)]; split <;> simp
      · exact ih good _ (fun v hv => h v (by simp [hv])) (by simpa using hl) v hv

/-- A decoded frame that holds no line, or a lost frame, leaves a silent channel silent. -/
theorem decodeChannel_zero {f : SamplingFrequency} {d : FrameDuration} {checks : Bool} {ch ch' : DecChannel ℝ} {buf : List Nat} {out out' : List Int} {r : DecResult}
    (hi : ChInv f d ch) (hs : ch.Silent) (hout : out.length = (Lc3Config.new f d).nf)
    (hr : ∀ si ad x, readFrame checks (Lc3Config.new f d) buf = .ok (si, ad, x) → AllZero x ∧ ad.isZeroFrame = true ∧ ∀ o ∈ ad.rcOrder, o = 0)
    (e : decodeChannel checks (Lc3Config.new f d) ch 16 buf out = .ok (r, ch', out')) :
    r = .ok ∧ ch'.Silent ∧ out' = List.replicate (Lc3Config.new f d).nf 0 := by
  unfold decodeChannel at e
  rw [if_neg (by omega)] at e
  obtain ⟨⟨lines, plc, info⟩, e1, e⟩ := bind_ok_inv e
  simp only at e
  split at e
  · cases e
  obtain ⟨⟨ola, fr⟩, e2, e⟩ := bind_ok_inv e
  obtain ⟨⟨lt, fr2⟩, e3, e⟩ := bind_ok_inv e
  simp only [Res.ok.injEq, Prod.mk.injEq] at e
  obtain ⟨rfl, rfl, rfl⟩ := e
  have h1 : AllZero lines ∧ AllZero plc.lastGood := by
    unfold decodeSpectrum at e1
    split at e1
    · rename_i si ad x hrd
      obtain ⟨l, e4, e1⟩ := bind_ok_inv e1
      obtain ⟨p, e5, e1⟩ := bind_ok_inv e1
      simp only [Res.ok.injEq, Prod.mk.injEq] at e1
      obtain ⟨rfl, rfl, rfl⟩ := e1
      obtain ⟨a1, a2, a3⟩ := hr si ad x hrd
      have hl := specFromFrame_zero hi.spec a1 a2 a3 e4
      refine ⟨hl, ?_⟩
      unfold Plc.save at e5
      split at e5
      · cases e5
      · cases e5
        exact (hl.take _).append (hs.good.drop _)
    · simp only [Res.ok.injEq, Prod.mk.injEq] at e1
      obtain ⟨rfl, rfl, rfl⟩ := e1
      exact ⟨plcLoop_zero _ _ _ _ hs.good (by rw [hi.spec, hi.plcLen]), hs.good⟩
    · cases e1
  obtain ⟨z1, z2⟩ := mdctDecRun_zero hs.ola h1.1 e2
  obtain ⟨z3, z4, z5⟩ := ltpfRun_zero hs.x hs.y z2 e3
  refine ⟨rfl, ⟨h1.2, z1, z3, z4⟩, ?_⟩
  have hl : fr2.length = out.length := by
    unfold ltpfRun at e3
    obtain ⟨⟨p, pf⟩, -, e3⟩ := bind_ok_inv e3
    obtain ⟨⟨cn, cd⟩, -, e3⟩ := bind_ok_inv e3
    simp only at e3
    split at e3
    · cases e3
    obtain ⟨y, -, e3⟩ := bind_ok_inv e3
    split at e3
    · cases e3
    simp only [Res.ok.injEq, Prod.mk.injEq] at e3
    obtain ⟨-, rfl⟩ := e3
    rw [List.length_drop, List.length_take, hout]
    omega
  rw [scaleAndRound_zero _ _ z5 hl, hout]

/-- A lost frame is concealed, whatever the frame was. -/
theorem decodeChannel_lost {f : SamplingFrequency} {d : FrameDuration} {checks : Bool} {ch : DecChannel ℝ} (h : ChInv f d ch) {buf : List Nat}
    (out : List Int) (hr : readFrame checks (Lc3Config.new f d) buf = .err) :
    ∃ r, decodeChannel checks (Lc3Config.new f d) ch 16 buf out = .ok r := by
  have hl : (ch.plc.loadInto ch.specLines).2.length = (Lc3Config.new f d).ne := by
    simp [Plc.loadInto, plcLoop_length, h.spec]
  have hm := safe_mdctDecRun hl h.ola
  have hn := noErr_mdctDecRun (Lc3Config.new f d) ch.memOla (ch.plc.loadInto ch.specLines).2
  unfold decodeChannel decodeSpectrum
  rw [if_neg (by omega), hr]
  simp only [Res.bind_ok]
  rw [if_neg (by simp [h.freq])]
  cases e : mdctDecRun (Lc3Config.new f d) ch.memOla (ch.plc.loadInto ch.specLines).2 with
  | panic => rw [e] at hm; exact hm.elim
  | err => exact absurd e hn
  | ok p =>
    obtain ⟨ola, freq⟩ := p
    rw [e] at hm
    obtain ⟨s', o, e2, -, -⟩ := ltpfRun_inv h.ltpf (info := lostLtpfInfo) (by decide) (buf.length * 8) hm.2
    simp only [Res.bind_ok]
    rw [e2]
    exact ⟨_, rfl⟩

theorem splitAt_zero {β : Type} [Zero β] {l a b : List β} {n : Nat} (h : AllZero l) (e : splitAt l n = .ok (a, b)) : AllZero a ∧ AllZero b := by
  unfold splitAt at e
  split at e
  · simp only [Res.ok.injEq, Prod.mk.injEq] at e
    obtain ⟨rfl, rfl⟩ := e
    exact ⟨h.take _, h.drop _⟩
  · cases e

theorem decChannelNew_silent {cfg : Lc3Config} {sb sb' : List ℝ} {cb cb' : List (Cx ℝ)} {ch : DecChannel ℝ} (h : AllZero sb)
    (e : decChannelNew cfg sb cb = .ok (ch, sb', cb')) : ch.Silent ∧ AllZero sb' := by
  unfold decChannelNew at e
  obtain ⟨⟨sp, s1⟩, e1, e⟩ := bind_ok_inv e
  obtain ⟨⟨pl, s2⟩, e2, e⟩ := bind_ok_inv e
  obtain ⟨⟨ola, s3, c3⟩, e3, e⟩ := bind_ok_inv e
  obtain ⟨⟨lt, s4⟩, e4, e⟩ := bind_ok_inv e
  obtain ⟨⟨fr, s5⟩, e5, e⟩ := bind_ok_inv e
  simp only [Res.ok.injEq, Prod.mk.injEq] at e
  obtain ⟨rfl, rfl, rfl⟩ := e
  have z1 := (splitAt_zero h e1).2
  have z2 : AllZero pl.lastGood ∧ AllZero s2 := by
    unfold Plc.new at e2
    obtain ⟨⟨l, s⟩, g1, e2⟩ := bind_ok_inv e2
    simp only [Res.ok.injEq, Prod.mk.injEq] at e2
    obtain ⟨rfl, rfl⟩ := e2
    exact splitAt_zero z1 g1
  have z3 : AllZero ola ∧ AllZero s3 := by
    unfold mdctDecNew at e3
    obtain ⟨_, -, e3⟩ := bind_ok_inv e3
    obtain ⟨_, -, e3⟩ := bind_ok_inv e3
    obtain ⟨⟨_, _⟩, g1, e3⟩ := bind_ok_inv e3
    obtain ⟨⟨_, _⟩, g2, e3⟩ := bind_ok_inv e3
    obtain ⟨_, -, e3⟩ := bind_ok_inv e3
    obtain ⟨⟨_, _⟩, g3, e3⟩ := bind_ok_inv e3
    obtain ⟨⟨_, _⟩, g4, e3⟩ := bind_ok_inv e3
    obtain ⟨_, -, e3⟩ := bind_ok_inv e3
    simp only [Res.ok.injEq, Prod.mk.injEq] at e3
    obtain ⟨rfl, rfl, -⟩ := e3
    have a1 := splitAt_zero z2.2 g1
    have a2 := splitAt_zero a1.2 g2
    have a3 := splitAt_zero a2.2 g3
    exact ⟨a1.1, (splitAt_zero a3.2 g4).2⟩
  have z4 : AllZero lt.xMem ∧ AllZero lt.yMem ∧ AllZero s4 := by
    unfold Ltpf.new at e4
    obtain ⟨⟨_, _⟩, g1, e4⟩ := bind_ok_inv e4
    obtain ⟨⟨_, _⟩, g2, e4⟩ := bind_ok_inv e4
    obtain ⟨⟨_, _⟩, g3, e4⟩ := bind_ok_inv e4
    obtain ⟨⟨_, _⟩, g4, e4⟩ := bind_ok_inv e4
    obtain ⟨⟨_, _⟩, g5, e4⟩ := bind_ok_inv e4
    obtain ⟨⟨_, _⟩, g6, e4⟩ := bind_ok_inv e4
    obtain ⟨⟨_, _⟩, g7, e4⟩ := bind_ok_inv e4
    obtain ⟨⟨_, _⟩, g8, e4⟩ := bind_ok_inv e4
    simp only [Res.ok.injEq, Prod.mk.injEq] at e4
    obtain ⟨rfl, rfl⟩ := e4
    have a1 := splitAt_zero z3.2 g1
    have a2 := splitAt_zero a1.2 g2
    have a3 := splitAt_zero a2.2 g3
    have a4 := splitAt_zero a3.2 g4
    have a5 := splitAt_zero a4.2 g5
    have a6 := splitAt_zero a5.2 g6
    have a7 := splitAt_zero a6.2 g7
    exact ⟨a1.1, a2.1, (splitAt_zero a7.2 g8).2⟩
  exact ⟨⟨z2.1, z3.1, z4.1, z4.2.1⟩, (splitAt_zero z4.2.2 e5).2⟩

theorem decChannelsNew_silent {cfg : Lc3Config} : ∀ (n : Nat) {sb sb' : List ℝ} {cb cb' : List (Cx ℝ)} {chs : List (DecChannel ℝ)}, AllZero sb →
    decChannelsNew cfg n sb cb = .ok (chs, sb', cb') → ∀ ch ∈ chs, ch.Silent := by
  intro n
  induction n with
  | zero =>
    intro sb sb' cb cb' chs _ e
    rw [decChannelsNew] at e
    cases e
    intro ch hch
    cases hch
  | succ n ih =>
    intro sb sb' cb cb' chs h e
    rw [decChannelsNew] at e
    obtain ⟨⟨c, s1, c1⟩, e1, e⟩ := bind_ok_inv e
    obtain ⟨⟨cs, s2, c2⟩, e2, e⟩ := bind_ok_inv e
    simp only [Res.ok.injEq, Prod.mk.injEq] at e
    obtain ⟨rfl, rfl, rfl⟩ := e
    obtain ⟨z1, z2⟩ := decChannelNew_silent h e1
    intro ch hch
    rcases List.mem_cons.1 hch with rfl | hch
    · exact z1
    · exact ih z2 e2 ch hch

end Lc3
