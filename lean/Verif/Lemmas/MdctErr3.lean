import Verif.Lemmas.MdctErr2
import Verif.Props.Reconstruction
/-! Analysis followed by synthesis of a sequence of frames in binary32. -/

namespace Lc3
open Scalar Finset

section
variable {α : Type} [Scalar α]

/-- the encoder's transform run over a sequence of frames, in any arithmetic -/
def analyseS (cfg : Lc3Config) : List Int → List (List Int) → Res (List (List α))
  | _, [] => .ok []
  | freq, x :: xs => do
    let (freq, lines, _, _) ← mdctEncRun (α := α) cfg freq x
    let r ← analyseS cfg freq xs
    .ok (lines :: r)

/-- the decoder's transform run over the lines of a sequence of frames, in any arithmetic -/
def synthesiseS (cfg : Lc3Config) : List α → List (List α) → Res (List (List α))
  | _, [] => .ok []
  | mem, l :: ls => do
    let (mem, out) ← mdctDecRun cfg mem l
    let r ← synthesiseS cfg mem ls
    .ok (out :: r)

theorem analyseS_cons {cfg : Lc3Config} {freq freq' x : List Int} {xs : List (List Int)} {l eb : List α} {nn : Bool}
    {ls : List (List α)} (h : mdctEncRun cfg freq x = .ok (freq', l, eb, nn)) (h' : analyseS cfg freq' xs = .ok ls) :
    analyseS cfg freq (x :: xs) = .ok (l :: ls) := by
  rw [analyseS, h, Res.bind_ok]
  simp only [h', Res.bind_ok]

theorem synthesiseS_cons {cfg : Lc3Config} {mem mem' l out : List α} {ls outs : List (List α)}
    (h : mdctDecRun cfg mem l = .ok (mem', out)) (h' : synthesiseS cfg mem' ls = .ok outs) :
    synthesiseS cfg mem (l :: ls) = .ok (out :: outs) := by
  rw [synthesiseS, h, Res.bind_ok]
  simp only [h', Res.bind_ok]

theorem energyBands_gen {tab : List Nat} {nb ne : Nat} (ht : BandTab tab nb ne) {out : List α} (hl : ne ≤ out.length) :
    ∀ (n b : Nat), b + n ≤ nb → ∃ l, energyBands tab out b n = .ok l ∧ l.length = n
  | 0, _, _ => ⟨[], rfl, rfl⟩
  | n + 1, b, hb => by
    have hlen := ht.len
    have h0 : b < tab.length := by omega
    have h1 : b + 1 < tab.length := by omega
    have hm := ht.mono b (by omega)
    rw [getD_of_lt h0, getD_of_lt h1] at hm
    have hle : tab[b + 1] ≤ ne := ht.le _ (List.getElem_mem _)
    obtain ⟨l, hl1, hl2⟩ := energyBands_gen ht hl n (b + 1) (by omega)
    rw [energyBands, idx_eq_ok h0, Res.bind_ok, idx_eq_ok h1, Res.bind_ok, usub, if_pos hm.le, Res.bind_ok,
      sliceR_ok hm.le (by omega), Res.bind_ok, hl1, Res.bind_ok]
    exact ⟨_, rfl, by rw [List.length_cons, hl2]⟩

/-- the encoder's transform returns when its kernel does -/
theorem mdctEncRun_gen {f : SamplingFrequency} {d : FrameDuration} {freq freq' x : List Int} {wn : List Rat} {lines : List α}
    (hx : x.length = (Lc3Config.new f d).nf) (hwin : windowOf (Lc3Config.new f d).nMs (Lc3Config.new f d).nf = .ok wn)
    (hu : mdctUpdate (Lc3Config.new f d) freq x = .ok freq') (ha : mdctApply (Lc3Config.new f d).nf freq' wn = .ok lines)
    (hal : lines.length = (Lc3Config.new f d).nf) :
    ∃ eb nn, mdctEncRun (Lc3Config.new f d) freq x = .ok (freq', lines, eb, nn) := by
  obtain ⟨tab, htab, hb⟩ := bandTable_ok f d
  have hnb : 4 ≤ (Lc3Config.new f d).nb := by cases f <;> cases d <;> decide
  have hne : (Lc3Config.new f d).ne ≤ (Lc3Config.new f d).nf := by cases f <;> cases d <;> decide
  generalize Lc3Config.new f d = cfg at *
  obtain ⟨eb, he, -⟩ := energyBands_gen hb (out := lines) (by omega) cfg.nb 0 (by omega)
  have hny : ∃ nn, isNearNyquist cfg eb = .ok nn := by
    unfold isNearNyquist
    split
    · unfold usub
      split
      · rw [if_pos (by omega)]; exact ⟨_, rfl⟩
      · rw [if_pos (by omega)]; exact ⟨_, rfl⟩
    · exact ⟨_, rfl⟩
  obtain ⟨nn, hnn⟩ := hny
  refine ⟨eb, nn, ?_⟩
  unfold mdctEncRun
  rw [if_neg (by simpa using hx), hu, Res.bind_ok, hwin, Res.bind_ok, ha, Res.bind_ok, htab, Res.bind_ok, he, Res.bind_ok,
    hnn, Res.bind_ok]

end

theorem mdctUpdate_bound {cfg : Lc3Config} {freq x freq' : List Int} {A : ℕ} (h : mdctUpdate cfg freq x = .ok freq')
    (hf : ∀ v ∈ freq, |v| ≤ A) (hx : ∀ v ∈ x, |v| ≤ A) : ∀ v ∈ freq', |v| ≤ A := by
  unfold mdctUpdate at h
  obtain ⟨n, -, h⟩ := Res.bind_eq_ok.mp h
  split at h
  · cases h
  · cases h
    intro v hv
    rcases List.mem_append.1 hv with hv | hv
    · rcases List.mem_append.1 hv with hv | hv
      · exact hf v (List.mem_of_mem_drop (List.mem_of_mem_take hv))
      · exact hx v hv
    · exact hf v (List.mem_of_mem_drop hv)

theorem getD_bound {l : List Int} {A : ℕ} (h : ∀ v ∈ l, |v| ≤ A) (p : ℕ) : |l.getD p 0| ≤ A := by
  rcases Nat.lt_or_ge p l.length with hp | hp
  · rw [getD_of_lt hp]; exact h _ (List.getElem_mem hp)
  · rw [List.getD_eq_getElem?_getD, List.getElem?_eq_none hp]
    simp

theorem l2_ite {n m : ℕ} (h : m ≤ n) (g : ℕ → ℝ) : l2 n (fun j => if j < m then g j else 0) = l2 m g := by
  unfold l2
  congr 1
  obtain ⟨c, rfl⟩ := Nat.exists_eq_add_of_le h
  rw [Finset.sum_range_add]
  have h1 : ∑ x ∈ range c, (if m + x < m then g (m + x) else 0) ^ 2 = 0 := by
    refine Finset.sum_eq_zero fun x _ => ?_
    rw [if_neg (by omega)]
    norm_num
  rw [h1, add_zero]
  exact Finset.sum_congr rfl fun x hx => by beta_reduce; rw [if_pos (Finset.mem_range.mp hx)]

namespace F32
variable {el : Elem}

theorem kapSum_sizes : ∀ n ∈ fftSizes, ∀ fac, kfFactor n = .ok fac → kapSum fac ≤ 135 := by
  have h : (fftSizes.all fun n => match kfFactor n with | .ok fac => decide (kapSum fac ≤ 135) | _ => true) = true := by decide +kernel
  intro n hn fac hf
  have := List.all_eq_true.1 h n hn
  rw [hf] at this
  simpa using this

/-- the norm of the windowed samples -/
theorem l2_wsample {h : ℕ} {freq : List Int} {wn : List Rat} {A : ℕ} (hf : ∀ p, |freq.getD p 0| ≤ A)
    (hw : ∀ p, |((wn.getD p 0 : Rat) : ℝ)| ≤ 133 / 125) :
    Real.sqrt 2 * l2 (4 * h) (fun p => |wsample freq wn p|) ≤ 266 / 125 * (A * Real.sqrt ((2 * h : ℕ) : ℝ)) := by
  have h1 : l2 (4 * h) (fun p => |wsample freq wn p|) ≤ l2 (4 * h) (fun _ => (A : ℝ) * (133 / 125)) := by
    refine l2_mono (fun _ _ => abs_nonneg _) fun p _ => ?_
    unfold wsample
    rw [abs_mul]
    have : |(freq.getD p 0 : ℝ)| ≤ A := by exact_mod_cast hf p
    have := hw p
    gcongr
  rw [l2_const _ (by positivity)] at h1
  have h2 : Real.sqrt 2 * Real.sqrt ((4 * h : ℕ) : ℝ) = 2 * Real.sqrt ((2 * h : ℕ) : ℝ) := by
    rw [← Real.sqrt_mul (by norm_num), show (2 : ℝ) * ((4 * h : ℕ) : ℝ) = 2 ^ 2 * ((2 * h : ℕ) : ℝ) by push_cast; ring,
      Real.sqrt_mul (by norm_num), Real.sqrt_sq (by norm_num)]
  calc Real.sqrt 2 * l2 (4 * h) (fun p => |wsample freq wn p|)
      ≤ Real.sqrt 2 * (Real.sqrt ((4 * h : ℕ) : ℝ) * (A * (133 / 125))) := by gcongr
    _ = Real.sqrt 2 * Real.sqrt ((4 * h : ℕ) : ℝ) * (A * (133 / 125)) := by ring
    _ = _ := by rw [h2]; ring

/-- overlap-add of one sample -/
theorem overlap_near {m t : F32} {a b : ℝ} (hm : IsFin m) (ht : IsFin t) (h1 : |a + b| ≤ 2 ^ 20) (h2 : |val m - a| ≤ 2 ^ 40)
    (h3 : |val t - b| ≤ 2 ^ 40) :
    IsFin (add m t) ∧ |val (add m t) - (a + b)| ≤ (1 + 1 / 2 ^ 24) * (|val m - a| + |val t - b|) + |a + b| / 2 ^ 24 + 1 / 2 ^ 150 := by
  have e1 : |(val m + val t) - (a + b)| ≤ |val m - a| + |val t - b| := by
    have e : (val m + val t) - (a + b) = (val m - a) + (val t - b) := by ring
    rw [e]; exact abs_add_le _ _
  have e2 : |val m + val t| ≤ |a + b| + (|val m - a| + |val t - b|) := by
    have := abs_sub_abs_le_abs_sub (val m + val t) (a + b)
    linarith
  obtain ⟨f1, f2⟩ := add_val hm ht (e2.trans (by norm_num at h1 h2 h3 ⊢; linarith))
  refine ⟨f1, ?_⟩
  have e3 : val (add m t) - (a + b) = (val (add m t) - (val m + val t)) + ((val m + val t) - (a + b)) := by ring
  rw [e3]
  refine (abs_add_le _ _).trans ?_
  have : |val m + val t| / 2 ^ 24 ≤ (|a + b| + (|val m - a| + |val t - b|)) / 2 ^ 24 := by gcongr
  norm_num at this f2 ⊢
  linarith

/-- what the overlap memory of the decoder is allowed to differ from the exact one -/
noncomputable def memTol (A : ℕ) (n : ℕ) : ℝ := 6 / 10 ^ 5 * (A * Real.sqrt n)

/-- one frame after a frame whose buffer is `freq` -/
theorem step_near (hel : Accurate el) {f : SamplingFrequency} {d : FrameDuration} {wn : List Rat}
    (H : MdctOk (Lc3Config.new f d) ((Lc3Config.new f d).nf / 2) wn)
    (hwt : ∀ i, i < (Lc3Config.new f d).nf → |Overlap.weight wn (Lc3Config.new f d).nf i - 1| ≤ 1 / 10 ^ 13)
    {A : ℕ} (hA1 : 1 ≤ A) (hA : A ≤ 2 ^ 15) {freq freq' x : List Int} (hl : freq.length = 2 * (Lc3Config.new f d).nf)
    (hu : mdctUpdate (Lc3Config.new f d) freq x = .ok freq') (hf : ∀ v ∈ freq', |v| ≤ A)
    {lines : List ℝ} (hlines : mdctApply (Lc3Config.new f d).nf freq' wn = .ok lines)
    (hzero : ∀ v ∈ lines.drop (Lc3Config.new f d).ne, v = 0) {mem : List F32}
    (hm : mem.length = (Lc3Config.new f d).nf - (Lc3Config.new f d).z)
    (hmf : ∀ j, j < (Lc3Config.new f d).nf - (Lc3Config.new f d).z → IsFin (mem.getD j (fin 0)))
    (hme : l2 ((Lc3Config.new f d).nf - (Lc3Config.new f d).z) (fun j => |val (mem.getD j (fin 0))
      - aliasAt (Lc3Config.new f d).nf freq wn ((Lc3Config.new f d).nf + (Lc3Config.new f d).z + j)|) ≤ memTol A (Lc3Config.new f d).nf) :
    ∃ (c mem' out : List F32), @mdctApply F32 (scalar el) (Lc3Config.new f d).nf freq' wn = .ok c ∧ c.length = (Lc3Config.new f d).nf ∧
      @mdctDecRun F32 (scalar el) (Lc3Config.new f d) mem (c.take (Lc3Config.new f d).ne) = .ok (mem', out) ∧
      mem'.length = (Lc3Config.new f d).nf - (Lc3Config.new f d).z ∧
      (∀ j, j < (Lc3Config.new f d).nf - (Lc3Config.new f d).z → IsFin (mem'.getD j (fin 0))) ∧
      l2 ((Lc3Config.new f d).nf - (Lc3Config.new f d).z) (fun j => |val (mem'.getD j (fin 0))
        - aliasAt (Lc3Config.new f d).nf freq' wn ((Lc3Config.new f d).nf + (Lc3Config.new f d).z + j)|) ≤ memTol A (Lc3Config.new f d).nf ∧
      out.length = (Lc3Config.new f d).nf ∧ (∀ v ∈ out, IsFin v) ∧
      l2 (Lc3Config.new f d).nf (fun j => |val (out.getD j (fin 0)) - (freq'.getD ((Lc3Config.new f d).z + j) 0 : ℝ)|)
        ≤ A / 8192 * Real.sqrt (Lc3Config.new f d).nf := by
  have hs := (fftSizes_config f d).1
  have hsz : (Lc3Config.new f d).nf / 2 ≤ 2 ^ 16 := by cases f <;> cases d <;> decide
  have hnf0 : 1 ≤ (Lc3Config.new f d).nf := by cases f <;> cases d <;> decide
  have hw := fun p => window_max H.win p
  have hzz := H.z
  have hcancel := fun j => alias_cancel H hl hu (j := j)
  obtain ⟨-, hl', -, -⟩ := mdctUpdate_ok hzz hl hu
  generalize Lc3Config.new f d = cfg at *
  obtain ⟨h, hh⟩ : ∃ h, h = cfg.nf / 2 := ⟨_, rfl⟩
  rw [← hh] at H hs hsz
  have hnf := H.nf
  obtain ⟨fac, hfac, hok⟩ := H.fac
  have hk := kapSum_sizes h hs fac hfac
  have hfg := getD_bound hf
  have hf15 : ∀ p, |freq'.getD p 0| ≤ 2 ^ 15 := fun p => (hfg p).trans (by exact_mod_cast hA)
  obtain ⟨c, t, hc1, hc2, ht1, ht2, ht3⟩ := frame_near hel H hfac hok hsz (hk.trans (by norm_num)) hw (by omega) hf15 hlines hzero rfl
  have hF := l2_wsample (h := h) hfg hw
  rw [← hnf] at hF
  obtain ⟨S, hS⟩ : ∃ S, S = Real.sqrt (cfg.nf : ℝ) := ⟨_, rfl⟩
  rw [← hS] at hF ⊢
  have hS1 : 1 ≤ S := by
    rw [hS, Real.one_le_sqrt]; exact_mod_cast hnf0
  have hS2 : S ≤ 2 ^ 10 := by
    rw [hS, Real.sqrt_le_iff]
    refine ⟨by positivity, ?_⟩
    have : (cfg.nf : ℝ) ≤ ((2 ^ 17 : ℕ) : ℝ) := by exact_mod_cast (by omega : cfg.nf ≤ 2 ^ 17)
    refine this.trans ?_
    norm_num
  have hA' : (1 : ℝ) ≤ A := by exact_mod_cast hA1
  have hA2 : (A : ℝ) ≤ 2 ^ 15 := by exact_mod_cast hA
  have hAS : 1 ≤ (A : ℝ) * S := by nlinarith
  have hAS2 : (A : ℝ) * S ≤ 2 ^ 25 := by
    calc (A : ℝ) * S ≤ 2 ^ 15 * 2 ^ 10 := by gcongr
      _ = 2 ^ 25 := by norm_num
  -- the windowed double frame
  obtain ⟨T, hT⟩ : ∃ T : ℕ → F32, T = fun p => mul (t p) (rnd (wn.getD (4 * h - 1 - p) 0)) := ⟨_, rfl⟩
  have hTe : l2 (4 * h) (fun p => |val (T p) - aliasAt cfg.nf freq' wn p|) ≤ 59 / 10 ^ 6 * ((A : ℝ) * S) + 2 / 10 ^ 8 * ((A : ℝ) * S) := by
    rw [hT]
    refine ht3.trans ?_
    have hk' : (kapSum fac : ℝ) ≤ 135 := by exact_mod_cast hk
    calc 152 / 100 * ((2 * (kapSum fac : ℝ) + 36) / 2 ^ 24) * (Real.sqrt 2 * l2 (4 * h) (fun p => |wsample freq' wn p|) + 1 / 2 ^ 54)
        ≤ 152 / 100 * ((2 * 135 + 36) / 2 ^ 24) * (266 / 125 * (A * S) + 1 / 2 ^ 54) := by
          have := l2_nonneg (4 * h) (fun p => |wsample freq' wn p|)
          gcongr
      _ ≤ _ := by
        norm_num
        linarith
  have hTf : ∀ p, p < 4 * h → IsFin (T p) := by rw [hT]; exact ht2
  have htol : memTol A cfg.nf = 6 / 10 ^ 5 * (A * S) := by rw [memTol, hS]
  have hTm : l2 (4 * h) (fun p => |val (T p) - aliasAt cfg.nf freq' wn p|) ≤ memTol A cfg.nf := by
    rw [htol]
    refine hTe.trans ?_
    norm_num
    linarith
  have hd := @mdctDecRun_gen F32 (scalar el) cfg h wn H (c.take cfg.ne) (by rw [List.length_take, hc2]; have := H.ne; omega) mem hm t (fin 0) ht1
  obtain ⟨O, hO⟩ : ∃ O : ℕ → F32, O = fun j => if j < cfg.nf - cfg.z then add (mem.getD j (fin 0)) (T (cfg.z + j)) else T (cfg.z + j) :=
    ⟨_, rfl⟩
  have hdec : @mdctDecRun F32 (scalar el) cfg mem (c.take cfg.ne)
      = .ok ((List.range (cfg.nf - cfg.z)).map fun j => T (cfg.nf + cfg.z + j), (List.range cfg.nf).map O) := by
    rw [hd, hO, hT]
    rfl
  -- one sample of the output
  have hmemle : ∀ j, j < cfg.nf - cfg.z → |val (mem.getD j (fin 0)) - aliasAt cfg.nf freq wn (cfg.nf + cfg.z + j)| ≤ 2 ^ 40 := by
    intro j hj
    have q := le_l2 (fun j => |val (mem.getD j (fin 0)) - aliasAt cfg.nf freq wn (cfg.nf + cfg.z + j)|) hj
    rw [htol] at hme
    refine q.trans (hme.trans ?_)
    linarith
  have hTle : ∀ p, p < 4 * h → |val (T p) - aliasAt cfg.nf freq' wn p| ≤ 2 ^ 40 := by
    intro p hp
    have q := le_l2 (fun p => |val (T p) - aliasAt cfg.nf freq' wn p|) hp
    rw [htol] at hTm
    refine q.trans (hTm.trans ?_)
    linarith
  have hsample : ∀ j, j < cfg.nf → IsFin (O j) ∧ |val (O j) - (freq'.getD (cfg.z + j) 0 : ℝ)|
      ≤ (1 + 1 / 2 ^ 24) * ((if j < cfg.nf - cfg.z then |val (mem.getD j (fin 0)) - aliasAt cfg.nf freq wn (cfg.nf + cfg.z + j)| else 0)
        + |val (T (cfg.z + j)) - aliasAt cfg.nf freq' wn (cfg.z + j)|) + 61 / 10 ^ 9 * A := by
    intro j hj
    have hc := hcancel j hj
    have hwj := hwt ((cfg.z + j) % cfg.nf) (Nat.mod_lt _ (by omega))
    have hw1 : |((Overlap.weight wn cfg.nf ((cfg.z + j) % cfg.nf) : ℚ) : ℝ) - 1| ≤ 1 / 10 ^ 13 := by
      have h2 := (Rat.cast_le (K := ℝ)).2 hwj
      push_cast at h2
      exact h2
    have hv : |(freq'.getD (cfg.z + j) 0 : ℝ)| ≤ A := by exact_mod_cast hfg (cfg.z + j)
    obtain ⟨w, hwd⟩ : ∃ w : ℝ, w = ((Overlap.weight wn cfg.nf ((cfg.z + j) % cfg.nf) : ℚ) : ℝ) := ⟨_, rfl⟩
    rw [← hwd] at hc hw1
    have hdiff : |w * (freq'.getD (cfg.z + j) 0 : ℝ) - (freq'.getD (cfg.z + j) 0 : ℝ)| ≤ 1 / 10 ^ 13 * A := by
      have e : w * (freq'.getD (cfg.z + j) 0 : ℝ) - (freq'.getD (cfg.z + j) 0 : ℝ) = (w - 1) * (freq'.getD (cfg.z + j) 0 : ℝ) := by ring
      rw [e, abs_mul]
      gcongr
    have hwv : |w * (freq'.getD (cfg.z + j) 0 : ℝ)| ≤ (1 + 1 / 10 ^ 13) * A := by
      have := abs_sub_abs_le_abs_sub (w * (freq'.getD (cfg.z + j) 0 : ℝ)) (freq'.getD (cfg.z + j) 0 : ℝ)
      linarith
    rw [hO]
    beta_reduce
    by_cases hc' : j < cfg.nf - cfg.z
    · rw [if_pos hc', if_pos hc']
      rw [if_pos hc'] at hc
      obtain ⟨o1, o2⟩ := overlap_near (a := aliasAt cfg.nf freq wn (cfg.nf + cfg.z + j)) (b := aliasAt cfg.nf freq' wn (cfg.z + j))
        (hmf j hc') (hTf (cfg.z + j) (by omega)) (by rw [hc]; refine hwv.trans ?_; linarith) (hmemle j hc') (hTle _ (by omega))
      refine ⟨o1, ?_⟩
      rw [hc] at o2
      have e : val (add (mem.getD j (fin 0)) (T (cfg.z + j))) - (freq'.getD (cfg.z + j) 0 : ℝ)
          = (val (add (mem.getD j (fin 0)) (T (cfg.z + j))) - w * (freq'.getD (cfg.z + j) 0 : ℝ))
            + (w * (freq'.getD (cfg.z + j) 0 : ℝ) - (freq'.getD (cfg.z + j) 0 : ℝ)) := by ring
      rw [e]
      refine (abs_add_le _ _).trans ?_
      generalize |val (add (mem.getD j (fin 0)) (T (cfg.z + j))) - w * (freq'.getD (cfg.z + j) 0 : ℝ)| = P at *
      generalize |w * (freq'.getD (cfg.z + j) 0 : ℝ) - (freq'.getD (cfg.z + j) 0 : ℝ)| = Q at *
      generalize |w * (freq'.getD (cfg.z + j) 0 : ℝ)| = R at *
      norm_num at o2 hdiff hwv ⊢
      linarith
    · rw [if_neg hc', if_neg hc', zero_add]
      rw [if_neg hc', zero_add] at hc
      refine ⟨hTf _ (by omega), ?_⟩
      have e : val (T (cfg.z + j)) - (freq'.getD (cfg.z + j) 0 : ℝ)
          = (val (T (cfg.z + j)) - aliasAt cfg.nf freq' wn (cfg.z + j))
            + (w * (freq'.getD (cfg.z + j) 0 : ℝ) - (freq'.getD (cfg.z + j) 0 : ℝ)) := by rw [hc]; ring
      rw [e]
      refine (abs_add_le _ _).trans ?_
      have := abs_nonneg (val (T (cfg.z + j)) - aliasAt cfg.nf freq' wn (cfg.z + j))
      generalize |val (T (cfg.z + j)) - aliasAt cfg.nf freq' wn (cfg.z + j)| = P at *
      norm_num at hdiff ⊢
      linarith
  refine ⟨c, _, _, hc1, hc2, hdec, by simp, ?_, ?_, by simp, ?_, ?_⟩
  · intro j hj
    rw [getD_of_lt (by simpa using hj), List.getElem_map, List.getElem_range]
    exact hTf _ (by omega)
  · have e1 : l2 (cfg.nf - cfg.z) (fun j => |val (((List.range (cfg.nf - cfg.z)).map fun j => T (cfg.nf + cfg.z + j)).getD j (fin 0))
          - aliasAt cfg.nf freq' wn (cfg.nf + cfg.z + j)|)
        = l2 (cfg.nf - cfg.z) (fun j => (fun p => |val (T p) - aliasAt cfg.nf freq' wn p|) ((cfg.nf + cfg.z) + j)) := by
      refine l2_congr fun j hj => ?_
      rw [getD_of_lt (by simpa using hj), List.getElem_map, List.getElem_range]
    rw [e1]
    exact (l2_shift (m := 4 * h) (by omega) _).trans hTm
  · intro v hv
    obtain ⟨j, hj, rfl⟩ := List.mem_map.1 hv
    exact (hsample j (List.mem_range.1 hj)).1
  · have e1 : l2 cfg.nf (fun j => |val (((List.range cfg.nf).map O).getD j (fin 0)) - (freq'.getD (cfg.z + j) 0 : ℝ)|)
        ≤ l2 cfg.nf (fun j => (1 + 1 / 2 ^ 24) * ((if j < cfg.nf - cfg.z then |val (mem.getD j (fin 0)) - aliasAt cfg.nf freq wn (cfg.nf + cfg.z + j)| else 0)
        + |val (T (cfg.z + j)) - aliasAt cfg.nf freq' wn (cfg.z + j)|) + 61 / 10 ^ 9 * A) := by
      refine l2_mono (fun _ _ => abs_nonneg _) fun j hj => ?_
      rw [getD_of_lt (by simpa using hj), List.getElem_map, List.getElem_range]
      exact (hsample j hj).2
    have e2 := l2_add_le cfg.nf (fun j => (1 + 1 / 2 ^ 24) * ((if j < cfg.nf - cfg.z then |val (mem.getD j (fin 0)) - aliasAt cfg.nf freq wn (cfg.nf + cfg.z + j)| else 0)
        + |val (T (cfg.z + j)) - aliasAt cfg.nf freq' wn (cfg.z + j)|)) (fun _ => 61 / 10 ^ 9 * (A : ℝ))
    rw [l2_const _ (by positivity), l2_smul cfg.nf (1 + 1 / 2 ^ 24) (by norm_num) (fun j => (if j < cfg.nf - cfg.z then |val (mem.getD j (fin 0)) - aliasAt cfg.nf freq wn (cfg.nf + cfg.z + j)| else 0)
        + |val (T (cfg.z + j)) - aliasAt cfg.nf freq' wn (cfg.z + j)|), ← hS] at e2
    have e3 := l2_add_le cfg.nf (fun j => if j < cfg.nf - cfg.z then |val (mem.getD j (fin 0)) - aliasAt cfg.nf freq wn (cfg.nf + cfg.z + j)| else 0)
      (fun j => |val (T (cfg.z + j)) - aliasAt cfg.nf freq' wn (cfg.z + j)|)
    rw [l2_ite (by omega) (fun j => |val (mem.getD j (fin 0)) - aliasAt cfg.nf freq wn (cfg.nf + cfg.z + j)|)] at e3
    have e4 := l2_shift (n := cfg.nf) (m := 4 * h) (a := cfg.z) (by omega) (fun p => |val (T p) - aliasAt cfg.nf freq' wn p|)
    refine e1.trans (e2.trans ?_)
    beta_reduce at e4
    rw [htol] at hme
    rw [htol] at hTm
    have e5 := e3.trans (add_le_add hme (e4.trans hTm))
    have e6 : S * (61 / 10 ^ 9 * (A : ℝ)) = 61 / 10 ^ 9 * (A * S) := by ring
    have e7 : (A : ℝ) / 8192 * S = 1 / 8192 * (A * S) := by ring
    rw [e6, e7]
    norm_num at e5 ⊢
    linarith

/-- all frames after a frame whose buffer is `freq` -/
theorem synth_near (hel : Accurate el) {f : SamplingFrequency} {d : FrameDuration} {wn : List Rat}
    (H : MdctOk (Lc3Config.new f d) ((Lc3Config.new f d).nf / 2) wn)
    (hwt : ∀ i, i < (Lc3Config.new f d).nf → |Overlap.weight wn (Lc3Config.new f d).nf i - 1| ≤ 1 / 10 ^ 13)
    {A : ℕ} (hA1 : 1 ≤ A) (hA : A ≤ 2 ^ 15) : ∀ (frames : List (List Int)) (freq past : List Int) (mem : List F32) (lines : List (List ℝ)),
    (∀ x ∈ frames, x.length = (Lc3Config.new f d).nf ∧ ∀ v ∈ x, |v| ≤ A) →
    freq.length = 2 * (Lc3Config.new f d).nf → (∀ v ∈ freq, |v| ≤ A) → past.length = (Lc3Config.new f d).nf →
    (∀ p, p < (Lc3Config.new f d).nf →
      freq.getD ((Lc3Config.new f d).nf - (Lc3Config.new f d).z + p) 0 = past.getD p 0) →
    mem.length = (Lc3Config.new f d).nf - (Lc3Config.new f d).z →
    (∀ j, j < (Lc3Config.new f d).nf - (Lc3Config.new f d).z → IsFin (mem.getD j (fin 0))) →
    l2 ((Lc3Config.new f d).nf - (Lc3Config.new f d).z) (fun j => |val (mem.getD j (fin 0))
      - aliasAt (Lc3Config.new f d).nf freq wn ((Lc3Config.new f d).nf + (Lc3Config.new f d).z + j)|) ≤ memTol A (Lc3Config.new f d).nf →
    analyse (Lc3Config.new f d) freq frames = .ok lines →
    (∀ l ∈ lines, ∀ v ∈ l.drop (Lc3Config.new f d).ne, v = 0) →
    ∃ cs outs, @analyseS F32 (scalar el) (Lc3Config.new f d) freq frames = .ok cs ∧
      @synthesiseS F32 (scalar el) (Lc3Config.new f d) mem (cs.map (·.take (Lc3Config.new f d).ne)) = .ok outs ∧
      outs.length = frames.length ∧ ∀ k (hk : k < outs.length), outs[k].length = (Lc3Config.new f d).nf ∧ (∀ v ∈ outs[k], IsFin v) ∧
        l2 (Lc3Config.new f d).nf (fun j => |val (outs[k].getD j (fin 0))
          - ((past ++ frames.flatten).getD (k * (Lc3Config.new f d).nf + j + 2 * (Lc3Config.new f d).z) 0 : ℝ)|)
          ≤ A / 8192 * Real.sqrt (Lc3Config.new f d).nf
  | [], freq, past, mem, lines, _, _, _, _, _, _, _, _, h, _ => ⟨[], [], rfl, rfl, rfl, fun k hk => absurd hk (by simp)⟩
  | x :: xs, freq, past, mem, lines, hx, hl, hfb, hp, hpast, hm, hmf, hme, h, hzero => by
    obtain ⟨hxl, hxb⟩ := hx x (by simp)
    obtain ⟨freq', eb, nn, l, wn', he, hwn, hu, ha, hal⟩ := mdctEncRun_ok hl hxl
    rw [H.win] at hwn
    cases hwn
    rw [analyse, he, Res.bind_ok] at h
    obtain ⟨r, hr, h⟩ := Res.bind_eq_ok.mp h
    cases h
    have hz := H.z
    obtain ⟨-, hl', -, hnew⟩ := mdctUpdate_ok hz hl hu
    have hfb' := mdctUpdate_bound hu hfb hxb
    obtain ⟨c, mem', out, c1, c2, c3, c4, c5, c6, c7, c8, c9⟩ := step_near hel H hwt hA1 hA hl hu hfb' ha (hzero l (by simp)) hm hmf hme
    obtain ⟨eb', nn', he'⟩ := @mdctEncRun_gen F32 (scalar el) f d freq freq' x wn c hxl H.win hu c1 c2
    obtain ⟨cs, outs, i1, i2, i3, i4⟩ := synth_near hel H hwt hA1 hA xs freq' x mem' r (fun y hy => hx y (by simp [hy])) hl' hfb' hxl hnew
      c4 c5 c6 hr (fun k hk => hzero k (by simp [hk]))
    refine ⟨c :: cs, out :: outs, @analyseS_cons F32 (scalar el) _ _ _ _ _ _ _ _ _ he' i1, ?_, by simp [i3], ?_⟩
    · rw [List.map_cons]
      exact @synthesiseS_cons F32 (scalar el) _ _ _ _ _ _ _ c3 i2
    · intro k hk
      rcases k with _ | k
      · refine ⟨c7, c8, ?_⟩
        refine le_trans (le_of_eq (l2_congr fun j hj => ?_)) c9
        rw [List.getElem_cons_zero, Nat.zero_mul, Nat.zero_add, List.flatten_cons, ← mdctUpdate_stream hz hl hp hpast hu hj]
      · have hk' : k < outs.length := by simpa using hk
        obtain ⟨j1, j2, j3⟩ := i4 k hk'
        refine ⟨by simpa using j1, by simpa using j2, ?_⟩
        refine le_trans (le_of_eq (l2_congr fun j hj => ?_)) j3
        rw [List.getElem_cons_succ, List.flatten_cons]
        congr 3
        simp only [List.getD_eq_getElem?_getD]
        conv_lhs => rw [List.getElem?_append_right (by rw [hp, Nat.add_mul]; omega), hp]
        congr 2
        rw [Nat.add_mul]
        omega

end F32
end Lc3
