import Verif.Lemmas.MdctErr3
import Verif.Lemmas.SnsTiny
import Verif.Props.Rounding
import Verif.Props.TimeError
/-! The decoder's transform in binary32 on any spectra, compared with the samples the encoder saw. -/

namespace Lc3
open Scalar Spec Finset

theorem lineDist_l2 (n : ℕ) (a b : List ℝ) : lineDist n a b = l2 n (fun k => |a.getD k 0 - b.getD k 0|) := by
  unfold lineDist lineEnergy l2
  simp only [sq_abs]

theorem lineDist_nonneg (n : ℕ) (a b : List ℝ) : 0 ≤ lineDist n a b := Real.sqrt_nonneg _

theorem lineDist_triangle (n : ℕ) (a b c : List ℝ) : lineDist n a c ≤ lineDist n a b + lineDist n b c := by
  rw [lineDist_l2, lineDist_l2, lineDist_l2]
  refine (l2_mono (fun _ _ => abs_nonneg _) fun k _ => ?_).trans (l2_add_le _ _ _)
  exact abs_sub_le _ _ _

theorem lineDist_norm (n : ℕ) (a b : List ℝ) : l2 n (fun k => |a.getD k 0|) ≤ lineDist n a b + l2 n (fun k => |b.getD k 0|) := by
  rw [lineDist_l2]
  refine (l2_mono (fun _ _ => abs_nonneg _) fun k _ => ?_).trans (l2_add_le _ _ _)
  have := abs_sub_abs_le_abs_sub (a.getD k 0) (b.getD k 0)
  linarith

/-- the exact lines are not larger than the windowed samples -/
theorem lines_norm {cfg : Lc3Config} {h : ℕ} {wn : List Rat} (H : MdctOk cfg h wn) (hw : ∀ p, |((wn.getD p 0 : Rat) : ℝ)| ≤ 133 / 125)
    {freq : List Int} (hl : freq.length = 2 * cfg.nf) {A : ℕ} (hf : ∀ v ∈ freq, |v| ≤ A) {lines : List ℝ}
    (hlines : mdctApply cfg.nf freq wn = .ok lines) :
    l2 cfg.nf (fun k => |lines.getD k 0|) ≤ 266 / 125 * (A * Real.sqrt cfg.nf) := by
  have hnf := H.nf
  obtain ⟨fac, hfac, hok⟩ := H.fac
  have h0 := hok.pos
  have hlx : lines = (List.range (2 * h)).map fun k => 2 * Fourier.dct4 (2 * h) (foldAt h (wsample freq wn)) k * mdctGain (2 * h) := by
    have := mdctApply_ok hfac hok (freq := freq) (wn := wn) (by omega) H.len
    rw [← hnf, hlines] at this
    have := Res.ok.inj this
    rw [this, hnf]
  have hg := gain_real h0
  have hs : 0 < Real.sqrt h := Real.sqrt_pos.2 (by exact_mod_cast h0)
  have hg0 : 0 < (mdctGain (2 * h) : ℝ) := by rw [hg]; positivity
  have e : l2 cfg.nf (fun k => |lines.getD k 0|)
      = l2 (2 * h) (fun k => mdctGain (2 * h) * |2 * Fourier.dct4 (2 * h) (foldAt h (wsample freq wn)) k|) := by
    rw [hnf]
    refine l2_congr fun k hk => ?_
    have hk' : k < lines.length := by rw [hlx]; simpa using hk
    rw [getD_of_lt hk']
    simp only [hlx, List.getElem_map, List.getElem_range]
    rw [abs_mul, abs_of_pos hg0, mul_comm]
  rw [e, l2_smul _ _ hg0.le, l2_dct4, hg]
  have e2 : 1 / (2 * Real.sqrt h) * (2 * Real.sqrt h * l2 (2 * h) (fun k => |foldAt h (wsample freq wn) k|))
      = l2 (2 * h) (fun k => |foldAt h (wsample freq wn) k|) := by
    field_simp
  rw [e2]
  have e3 := F32.l2_wsample (h := h) (getD_bound hf) hw
  rw [hnf]
  refine le_trans ?_ e3
  refine le_trans (l2_mono (fun _ _ => abs_nonneg _) fun k _ => foldAt_abs h _ k) (l2_foldAbs h _)

namespace F32
variable {el : Elem}

theorem map_val_getD (l : List F32) (k : ℕ) : (l.map val).getD k 0 = val (l.getD k (fin 0)) := by
  have : (0 : ℝ) = val (fin 0) := by show (0 : ℝ) = ((0 : ℚ) : ℝ); simp
  rcases Nat.lt_or_ge k l.length with h | h
  · rw [getD_of_lt (by simpa using h), getD_of_lt h, List.getElem_map]
  · rw [List.getD_eq_default _ _ (by simpa using h), List.getD_eq_default _ _ h, this]

/-- the decoder's transform on any finite spectrum -/
theorem decRun_near (hel : Accurate el) {f : SamplingFrequency} {d : FrameDuration} {wn : List Rat}
    (H : MdctOk (Lc3Config.new f d) ((Lc3Config.new f d).nf / 2) wn) {S : List F32} (hS : S.length = (Lc3Config.new f d).ne)
    (hfin : ∀ v ∈ S, IsFin v) {X : ℝ} (hX : X = l2 (Lc3Config.new f d).nf (fun k => |(S.map val).getD k 0|)) (hb : X ≤ 2 ^ 49) :
    ∃ T : ℕ → F32,
      (∀ mem : List F32, mem.length = (Lc3Config.new f d).nf - (Lc3Config.new f d).z → @mdctDecRun F32 (scalar el) (Lc3Config.new f d) mem S
        = .ok ((List.range ((Lc3Config.new f d).nf - (Lc3Config.new f d).z)).map
            fun j => T ((Lc3Config.new f d).nf + (Lc3Config.new f d).z + j),
          (List.range (Lc3Config.new f d).nf).map fun j => if j < (Lc3Config.new f d).nf - (Lc3Config.new f d).z then
            add (mem.getD j (fin 0)) (T ((Lc3Config.new f d).z + j)) else T ((Lc3Config.new f d).z + j))) ∧
      (∀ p, p < 2 * (Lc3Config.new f d).nf → IsFin (T p)) ∧ (∀ p, IsF32 (T p)) ∧
      l2 (2 * (Lc3Config.new f d).nf) (fun p => |val (T p)
        - timeAt ((Lc3Config.new f d).nf / 2) wn (fun k => (S.map val).getD k 0) p|) ≤ 14 / 10 ^ 6 * (X + 1 / 2 ^ 56) := by
  have hs := (fftSizes_config f d).1
  have hsz : (Lc3Config.new f d).nf / 2 ≤ 2 ^ 16 := by cases f <;> cases d <;> decide
  have hw := fun p => window_max H.win p
  generalize Lc3Config.new f d = cfg at *
  obtain ⟨h, hh⟩ : ∃ h, h = cfg.nf / 2 := ⟨_, rfl⟩
  rw [← hh] at H hs hsz ⊢
  have hnf := H.nf
  have hne := H.ne
  obtain ⟨fac, hfac, hok⟩ := H.fac
  have hk := kapSum_sizes h hs fac hfac
  have hz0 : @zero F32 (scalar el) = fin 0 := by
    show rnd 0 = fin 0
    have := rnd_int24 (s := 0) (by norm_num)
    exact_mod_cast this
  obtain ⟨x, hx⟩ : ∃ x : ℕ → F32, x = fun k => S.getD k (fin 0) := ⟨_, rfl⟩
  have hpad : S ++ List.replicate (cfg.nf - cfg.ne) (@zero F32 (scalar el)) = (List.range (2 * h)).map x := by
    refine eq_map_range (by simp; omega) fun k hk => ?_
    rw [List.getElem_append, hx]
    beta_reduce
    split
    · rename_i hc
      rw [getD_of_lt hc]
    · rename_i hc
      rw [List.getElem_replicate, hz0, List.getD_eq_default _ _ (by omega)]
  have hxf : ∀ k, k < 2 * h → IsFin (x k) := by
    intro k hk
    rw [hx]
    beta_reduce
    rcases Nat.lt_or_ge k S.length with hc | hc
    · rw [getD_of_lt hc]; exact hfin _ (List.getElem_mem hc)
    · rw [List.getD_eq_default _ _ hc]; exact ⟨0, rfl⟩
  have hxv : (fun k => val (x k)) = fun k => (S.map val).getD k 0 := by
    funext k
    rw [hx, map_val_getD]
  obtain ⟨t, t1, t2, t3⟩ := time_near hel hfac hok hsz (hk.trans (by norm_num)) hw hxf (X := X)
    (by rw [hX, hnf]; exact l2_congr fun k _ => by rw [congrFun hxv k]) hb
  rw [← hpad] at t1
  refine ⟨fun p => mul (t p) (rnd (wn.getD (4 * h - 1 - p) 0)), ?_, ?_, ?_, ?_⟩
  · intro mem hm
    exact @mdctDecRun_gen F32 (scalar el) cfg h wn H S hS mem hm t (fin 0) t1
  · intro p hp
    exact t2 p (by omega)
  · intro p
    exact isF32_mul _ _
  · have e : 2 * cfg.nf = 4 * h := by omega
    rw [e, ← hxv]
    refine t3.trans ?_
    have hk' : (kapSum fac : ℝ) ≤ 135 := by exact_mod_cast hk
    have hX0 : 0 ≤ X := by rw [hX]; exact l2_nonneg _ _
    calc 151 / 100 * ((kapSum fac + 17) / 2 ^ 24) * (X + 1 / 2 ^ 56) ≤ 151 / 100 * ((135 + 17) / 2 ^ 24) * (X + 1 / 2 ^ 56) := by gcongr
      _ ≤ 14 / 10 ^ 6 * (X + 1 / 2 ^ 56) := by
        refine mul_le_mul_of_nonneg_right ?_ (by positivity)
        norm_num

/-- what the windowed double frame of the decoder may differ from the aliased samples -/
theorem doubleFrame_near (hel : Accurate el) {f : SamplingFrequency} {d : FrameDuration} {wn : List Rat}
    (H : MdctOk (Lc3Config.new f d) ((Lc3Config.new f d).nf / 2) wn) {A : ℕ} (hA1 : 1 ≤ A) (hA : A ≤ 2 ^ 15) {freq freq' x : List Int}
    (hl : freq.length = 2 * (Lc3Config.new f d).nf) (hfb : ∀ v ∈ freq, |v| ≤ A) (hxb : ∀ v ∈ x, |v| ≤ A) {L eb : List F32} {nn : Bool}
    (he : @mdctEncRun F32 (scalar el) (Lc3Config.new f d) freq x = .ok (freq', L, eb, nn)) {S : List F32}
    (hS : S.length = (Lc3Config.new f d).ne) (hfin : ∀ v ∈ S, IsFin v) {D Q : ℝ}
    (hD : D = lineDist (Lc3Config.new f d).nf (S.map val) (L.map val)) (hQ : Q = A * Real.sqrt (Lc3Config.new f d).nf) (hb : D ≤ 2 ^ 40) :
    x.length = (Lc3Config.new f d).nf ∧ mdctUpdate (Lc3Config.new f d) freq x = .ok freq' ∧ (∀ v ∈ freq', |v| ≤ A) ∧
    ∃ T : ℕ → F32,
      (∀ mem : List F32, mem.length = (Lc3Config.new f d).nf - (Lc3Config.new f d).z → @mdctDecRun F32 (scalar el) (Lc3Config.new f d) mem S
        = .ok ((List.range ((Lc3Config.new f d).nf - (Lc3Config.new f d).z)).map
            fun j => T ((Lc3Config.new f d).nf + (Lc3Config.new f d).z + j),
          (List.range (Lc3Config.new f d).nf).map fun j => if j < (Lc3Config.new f d).nf - (Lc3Config.new f d).z then
            add (mem.getD j (fin 0)) (T ((Lc3Config.new f d).z + j)) else T ((Lc3Config.new f d).z + j))) ∧
      (∀ p, p < 2 * (Lc3Config.new f d).nf → IsFin (T p)) ∧ (∀ p, IsF32 (T p)) ∧
      (∀ p, p < 2 * (Lc3Config.new f d).nf → |val (T p) - aliasAt (Lc3Config.new f d).nf freq' wn p|
        ≤ 10641 / 10000 * D + 52 / 10 ^ 6 * Q) ∧
      l2 (2 * (Lc3Config.new f d).nf) (fun p => |val (T p) - aliasAt (Lc3Config.new f d).nf freq' wn p|)
        ≤ 1505 / 1000 * D + 61 / 10 ^ 6 * Q := by
  have hx : x.length = (Lc3Config.new f d).nf := by
    by_contra hc
    letI := scalar el
    unfold mdctEncRun at he
    rw [if_pos hc] at he
    cases he
  obtain ⟨freq1, l, eb1, nn1, c, eb2, nn2, r1, r2, r3, r4, r5⟩ := C90 hel f d hA1 hA hl hx hfb hxb
  rw [he] at r2
  cases r2
  obtain ⟨freq2, eb3, nn3, l', wn', g0, hwn, hu, ha, hal⟩ := mdctEncRun_ok hl hx
  rw [H.win] at hwn
  cases hwn
  rw [r1] at g0
  cases g0
  obtain ⟨-, hl', -, -⟩ := mdctUpdate_ok H.z hl hu
  have hfb' := mdctUpdate_bound hu hfb hxb
  have hnorm := lines_norm H (fun p => window_max H.win p) hl' hfb' ha
  have hnf0 : 1 ≤ (Lc3Config.new f d).nf := by cases f <;> cases d <;> decide
  have hnf1 : (Lc3Config.new f d).nf ≤ 2 ^ 10 := by cases f <;> cases d <;> decide
  have hLl : lineDist (Lc3Config.new f d).nf (L.map val) l ≤ 1 / 50000 * Q := by
    rw [lineDist_l2]
    simp only [map_val_getD]
    refine r5.trans (le_of_eq ?_)
    rw [hQ]; ring
  have hDl : lineDist (Lc3Config.new f d).nf (S.map val) l ≤ D + 1 / 50000 * Q := by
    rw [hD]
    exact (lineDist_triangle _ _ (L.map val) _).trans (by linarith)
  have hD0 : 0 ≤ D := by rw [hD]; exact lineDist_nonneg _ _ _
  have hQ1 : 1 ≤ Q := by
    rw [hQ]
    have h1 : (1 : ℝ) ≤ A := by exact_mod_cast hA1
    have h2 : 1 ≤ Real.sqrt ((Lc3Config.new f d).nf : ℝ) := by
      rw [Real.one_le_sqrt]; exact_mod_cast hnf0
    nlinarith
  have hQ2 : Q ≤ 2 ^ 20 := by
    rw [hQ]
    have h1 : (A : ℝ) ≤ 2 ^ 15 := by exact_mod_cast hA
    have h2 : Real.sqrt ((Lc3Config.new f d).nf : ℝ) ≤ 2 ^ 5 := by
      rw [Real.sqrt_le_iff]
      refine ⟨by norm_num, ?_⟩
      have : ((Lc3Config.new f d).nf : ℝ) ≤ ((2 ^ 10 : ℕ) : ℝ) := by exact_mod_cast hnf1
      refine this.trans ?_
      norm_num
    calc (A : ℝ) * Real.sqrt ((Lc3Config.new f d).nf : ℝ) ≤ 2 ^ 15 * 2 ^ 5 := by gcongr
      _ = 2 ^ 20 := by norm_num
  obtain ⟨X, hX⟩ : ∃ X, X = l2 (Lc3Config.new f d).nf (fun k => |(S.map val).getD k 0|) := ⟨_, rfl⟩
  have hX1 : X ≤ D + 1 / 50000 * Q + 266 / 125 * Q := by
    rw [hX]
    have := lineDist_norm (Lc3Config.new f d).nf (S.map val) l
    rw [← hQ] at hnorm
    linarith
  obtain ⟨T, t1, t2, t3, t4⟩ := decRun_near hel H hS hfin hX (hX1.trans (by norm_num at hb hQ2 ⊢; linarith))
  have hrnd : l2 (2 * (Lc3Config.new f d).nf) (fun p => |val (T p)
        - timeAt ((Lc3Config.new f d).nf / 2) wn (fun k => (S.map val).getD k 0) p|) ≤ 14 / 10 ^ 6 * D + 2985 / 10 ^ 8 * Q := by
    refine t4.trans ?_
    norm_num
    linarith
  have hwin := window_max H.win
  refine ⟨hx, hu, hfb', T, t1, t2, t3, ?_, ?_⟩
  · intro p hp
    have e1 := (le_l2 (fun p => |val (T p)
        - timeAt ((Lc3Config.new f d).nf / 2) wn (fun k => (S.map val).getD k 0) p|) hp).trans hrnd
    have e2 := timeAt_abs H (S.map val) l hp
    rw [timeAt_sub, timeAt_analysed H hl' ha hp] at e2
    beta_reduce at e1
    have e3 := abs_sub_le (val (T p)) (timeAt ((Lc3Config.new f d).nf / 2) wn (fun k => (S.map val).getD k 0) p)
      (aliasAt (Lc3Config.new f d).nf freq' wn p)
    norm_num at e1 e2 e3 ⊢
    linarith
  · have e1 : l2 (2 * (Lc3Config.new f d).nf) (fun p => |val (T p) - aliasAt (Lc3Config.new f d).nf freq' wn p|)
        ≤ l2 (2 * (Lc3Config.new f d).nf) (fun p => |val (T p)
          - timeAt ((Lc3Config.new f d).nf / 2) wn (fun k => (S.map val).getD k 0) p|)
          + l2 (2 * (Lc3Config.new f d).nf) (fun p => |timeAt ((Lc3Config.new f d).nf / 2) wn
            (fun k => (S.map val).getD k 0 - l.getD k 0) p|) := by
      refine (l2_mono (fun _ _ => abs_nonneg _) fun p hp => ?_).trans (l2_add_le _ _ _)
      rw [timeAt_sub, timeAt_analysed H hl' ha hp]
      exact abs_sub_le _ _ _
    have h0 : 0 < (Lc3Config.new f d).nf / 2 := by cases f <;> cases d <;> decide
    have e2 := l2_timeAt h0 hwin (fun k => (S.map val).getD k 0 - l.getD k 0)
    have hn2 : 2 * (Lc3Config.new f d).nf = 4 * ((Lc3Config.new f d).nf / 2) := by have := H.nf; omega
    rw [← hn2, ← H.nf, ← lineDist_l2] at e2
    have hsq : Real.sqrt 2 ≤ 14143 / 10000 := by
      rw [Real.sqrt_le_iff]
      norm_num
    have e4 : Real.sqrt 2 * lineDist (Lc3Config.new f d).nf (S.map val) l ≤ 14143 / 10000 * (D + 1 / 50000 * Q) :=
      mul_le_mul hsq hDl (lineDist_nonneg _ _ _) (by norm_num)
    refine e1.trans ((add_le_add hrnd (e2.trans (mul_le_mul_of_nonneg_left e4 (by norm_num)))).trans ?_)
    norm_num
    linarith

end F32
end Lc3
