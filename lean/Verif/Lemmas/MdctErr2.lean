import Verif.Lemmas.MdctErr
/-! Rounding errors of the decoder's transform in binary32, and of analysis followed by synthesis. -/

namespace Lc3
open Scalar Finset

theorem l2_shift {n m a : ℕ} (h : a + n ≤ m) (g : ℕ → ℝ) : l2 n (fun j => g (a + j)) ≤ l2 m g := by
  refine Real.sqrt_le_sqrt ?_
  obtain ⟨c, rfl⟩ := Nat.exists_eq_add_of_le h
  rw [Finset.sum_range_add, Finset.sum_range_add]
  have h1 : 0 ≤ ∑ x ∈ range a, g x ^ 2 := Finset.sum_nonneg fun _ _ => sq_nonneg _
  have h2 : 0 ≤ ∑ x ∈ range c, g (a + n + x) ^ 2 := Finset.sum_nonneg fun _ _ => sq_nonneg _
  linarith

/-- the exact synthesis does not enlarge errors of the lines by more than the window and the repetition -/
theorem l2_timeAt {h : ℕ} (h0 : 0 < h) {wn : List Rat} (hw : ∀ p, |((wn.getD p 0 : Rat) : ℝ)| ≤ 133 / 125) (v : ℕ → ℝ) :
    l2 (4 * h) (fun p => |timeAt h wn v p|) ≤ 133 / 125 * (Real.sqrt 2 * l2 (2 * h) (fun k => |v k|)) := by
  have hg := gain_real h0
  have hs : 0 < Real.sqrt h := Real.sqrt_pos.2 (by exact_mod_cast h0)
  have hg0 : 0 < (mdctGain (2 * h) : ℝ) := by rw [hg]; positivity
  have h1 : l2 (4 * h) (fun p => |timeAt h wn v p|)
      ≤ l2 (4 * h) (fun p => 133 / 125 * mdctGain (2 * h) * |unfoldAt h (fun k => 2 * Fourier.dct4 (2 * h) v k) p|) := by
    refine l2_mono (fun _ _ => abs_nonneg _) fun p _ => ?_
    unfold timeAt aliased
    rw [abs_mul, abs_mul, abs_of_pos hg0]
    have := hw (4 * h - 1 - p)
    calc |unfoldAt h (fun k => 2 * Fourier.dct4 (2 * h) v k) p| * mdctGain (2 * h) * |((wn.getD (4 * h - 1 - p) 0 : Rat) : ℝ)|
        ≤ |unfoldAt h (fun k => 2 * Fourier.dct4 (2 * h) v k) p| * mdctGain (2 * h) * (133 / 125) := by gcongr
      _ = _ := by ring
  rw [l2_smul _ _ (by positivity), l2_unfold, l2_dct4] at h1
  refine h1.trans (le_of_eq ?_)
  rw [hg]
  field_simp

namespace F32
variable {el : Elem}

theorem unfold_case {h p : ℕ} (hp : p < 4 * h) : ∃ k, k < 2 * h ∧
    (((∀ Y : ℕ → ℝ, unfoldAt h Y p = Y k) ∧ ∀ y : ℕ → F32, @unfoldG F32 (scalar el) h y p = y k) ∨
      ((∀ Y : ℕ → ℝ, unfoldAt h Y p = -Y k) ∧ ∀ y : ℕ → F32, @unfoldG F32 (scalar el) h y p = neg (y k))) := by
  unfold unfoldAt unfoldG
  by_cases h1 : p < h
  · simp only [if_pos h1]
    exact ⟨p + h, by omega, Or.inl ⟨fun _ => rfl, fun _ => rfl⟩⟩
  · simp only [if_neg h1]
    by_cases h2 : p < 3 * h
    · simp only [if_pos h2]
      exact ⟨3 * h - 1 - p, by omega, Or.inr ⟨fun _ => rfl, fun _ => rfl⟩⟩
    · simp only [if_neg h2]
      exact ⟨p - 3 * h, by omega, Or.inr ⟨fun _ => rfl, fun _ => rfl⟩⟩

/-- multiplication by an entry of the window -/
theorem winT_near {a : F32} (ha : IsFin a) {w : ℚ} (hw : |(w : ℝ)| ≤ 133 / 125) (hb : |val a| ≤ 2 ^ 60) :
    IsFin (mul a (rnd w)) ∧ |val (mul a (rnd w)) - val a * w| ≤ 214 / 100 / 2 ^ 24 * |val a| + 1 / 2 ^ 89 := by
  obtain ⟨f1, f2⟩ := rnd_val (x := w) (hw.trans (by norm_num))
  have a0 := abs_nonneg (val a)
  have a1 : |val a * val (rnd w) - val a * w| ≤ 133 / 125 / 2 ^ 24 * |val a| + 2 ^ 60 / 2 ^ 150 := by
    rw [← mul_sub, abs_mul]
    have h1 : |val (rnd w) - w| ≤ 133 / 125 / 2 ^ 24 + 1 / 2 ^ 150 := f2.trans (by gcongr)
    have h2 : |val a| * |val (rnd w) - w| ≤ |val a| * (133 / 125 / 2 ^ 24 + 1 / 2 ^ 150) := by gcongr
    have h3 : |val a| * (1 / 2 ^ 150) ≤ 2 ^ 60 * (1 / 2 ^ 150) := by gcongr
    norm_num at h2 h3 ⊢
    linarith
  have a2 : |val a * w| ≤ 133 / 125 * |val a| := by
    rw [abs_mul, mul_comm]
    gcongr
  have a3 : |val a * val (rnd w)| ≤ 133 / 125 * |val a| * (1 + 1 / 2 ^ 24) + 2 ^ 60 / 2 ^ 150 := by
    have := abs_sub_abs_le_abs_sub (val a * val (rnd w)) (val a * w)
    norm_num at this a1 a2 ⊢
    linarith
  obtain ⟨g1, g2⟩ := mul_val ha f1 (a3.trans (by norm_num at hb ⊢; linarith))
  refine ⟨g1, ?_⟩
  have e : val (mul a (rnd w)) - val a * w = (val (mul a (rnd w)) - val a * val (rnd w)) + (val a * val (rnd w) - val a * w) := by ring
  rw [e]
  refine (abs_add_le _ _).trans ?_
  generalize |val (mul a (rnd w)) - val a * val (rnd w)| = A at *
  generalize |val a * val (rnd w) - val a * w| = B at *
  generalize |val a * val (rnd w)| = C at *
  norm_num at a1 a3 g2 ⊢
  linarith

/-- gain and window together -/
theorem gainWin_near {y ĝ : F32} {v g : ℝ} (hy : IsFin y) (hg : IsFin ĝ) (hg0 : 0 < g) (hg1 : g ≤ 1 / 2)
    (eg : |val ĝ - g| ≤ 202 / 100 / 2 ^ 24 * g) (hb : |val y| ≤ 2 ^ 90) (hgb : g * |val y| ≤ 2 ^ 55) {w : ℚ}
    (hw : |(w : ℝ)| ≤ 133 / 125) :
    IsFin (mul (mul y ĝ) (rnd w)) ∧ |val (mul (mul y ĝ) (rnd w)) - v * g * w|
      ≤ 1065 / 1000 * (g * |val y - v|) + 537 / 100 / 2 ^ 24 * (g * |v|) + 1 / 2 ^ 88 := by
  obtain ⟨a1, a2⟩ := gainMul_near (v := v) hy hg hg0 hg1 eg hb
  have t0 : 0 ≤ g * |val y| := by positivity
  have t1 : 0 ≤ g * |val y - v| := by positivity
  have t2 : 0 ≤ g * |v| := by positivity
  have hyv : g * |val y| ≤ g * |v| + g * |val y - v| := by
    rw [← mul_add]
    refine mul_le_mul_of_nonneg_left ?_ hg0.le
    have := abs_sub_abs_le_abs_sub (val y) v
    linarith
  have hvg : |v * g| = g * |v| := by rw [abs_mul, abs_of_pos hg0, mul_comm]
  have ha : |val (mul y ĝ)| ≤ g * |v| + |val (mul y ĝ) - v * g| := by
    have := abs_sub_abs_le_abs_sub (val (mul y ĝ)) (v * g)
    linarith
  have ha' : |val (mul y ĝ)| ≤ 2 ^ 60 := by
    obtain ⟨-, h2⟩ := gainMul_near (v := val y) hy hg hg0 hg1 eg hb
    rw [sub_self, abs_zero, mul_zero, zero_add] at h2
    have h3 := abs_sub_abs_le_abs_sub (val (mul y ĝ)) (val y * g)
    rw [abs_mul (val y), abs_of_pos hg0, mul_comm |val y|] at h3
    norm_num at h2 h3 hgb ⊢
    linarith
  obtain ⟨b1, b2⟩ := winT_near a1 hw ha'
  refine ⟨b1, ?_⟩
  have e : val (mul (mul y ĝ) (rnd w)) - v * g * w
      = (val (mul (mul y ĝ) (rnd w)) - val (mul y ĝ) * w) + (val (mul y ĝ) - v * g) * w := by ring
  rw [e]
  refine (abs_add_le _ _).trans ?_
  have c1 : |(val (mul y ĝ) - v * g) * w| ≤ |val (mul y ĝ) - v * g| * (133 / 125) := by
    rw [abs_mul]; gcongr
  refine (add_le_add_right c1 _).trans ?_
  generalize |val (mul y ĝ) - v * g| = R at *
  generalize g * |val y| = A at *
  generalize g * |val y - v| = E at *
  generalize g * |v| = V at *
  generalize |val (mul y ĝ)| = M at *
  norm_num at a2 b2 ⊢
  linarith

/-- the decoder's transform up to the windowing -/
theorem time_near (hel : Accurate el) {h : ℕ} {fac : List (ℕ × ℕ)} (hfac : kfFactor h = .ok fac) (hok : FacOk fac h)
    (hh : h ≤ 2 ^ 16) (hk : kapSum fac ≤ 1000) {wn : List Rat} (hw : ∀ p, |((wn.getD p 0 : Rat) : ℝ)| ≤ 133 / 125)
    {x : ℕ → F32} (hx : ∀ k, k < 2 * h → IsFin (x k)) {X : ℝ} (hX : X = l2 (2 * h) (fun k => |val (x k)|)) (hb : X ≤ 2 ^ 49) :
    ∃ t : ℕ → F32, @mdctUnfold F32 (scalar el) (2 * h) ((List.range (2 * h)).map x) = .ok ((List.range (4 * h)).map t) ∧
      (∀ p, p < 4 * h → IsFin (mul (t p) (rnd (wn.getD (4 * h - 1 - p) 0)))) ∧
      l2 (4 * h) (fun p => |val (mul (t p) (rnd (wn.getD (4 * h - 1 - p) 0))) - timeAt h wn (fun k => val (x k)) p|)
        ≤ 151 / 100 * ((kapSum fac + 17) / 2 ^ 24) * (X + 1 / 2 ^ 56) := by
  have h0 := hok.pos
  have hX0 : 0 ≤ X := by rw [hX]; exact l2_nonneg _ _
  obtain ⟨y, hy1, hy2, hy3⟩ := dctIv_near hel hfac hok (hh.trans (by norm_num)) hk (x := x) hx
    (by rw [← hX]; refine hb.trans ?_; norm_num)
  obtain ⟨Y, hY⟩ : ∃ Y : ℕ → ℝ, Y = fun k => 2 * Fourier.dct4 (2 * h) (fun k => val (x k)) k := ⟨_, rfl⟩
  have hYe : l2 (2 * h) (fun k => |val (y k) - Y k|) ≤ 2 * Real.sqrt h * ((kapSum fac + 11) / 2 ^ 24) * (X + 1 / 2 ^ 70) := by
    rw [hY, hX]; exact hy3
  have hYl : l2 (2 * h) (fun k => |Y k|) = 2 * Real.sqrt h * X := by rw [hY, l2_dct4, hX]
  have hsh : 1 ≤ Real.sqrt h := by
    rw [Real.one_le_sqrt]; exact_mod_cast h0
  have hsh2 : Real.sqrt h ≤ 2 ^ 8 := by
    rw [Real.sqrt_le_iff]
    refine ⟨by positivity, ?_⟩
    have : (h : ℝ) ≤ 2 ^ 16 := by exact_mod_cast hh
    refine this.trans ?_
    norm_num
  have hs2 : Real.sqrt (2 * h : ℕ) ≤ 2 ^ 10 := by
    rw [Real.sqrt_le_iff]
    refine ⟨by positivity, ?_⟩
    have : ((2 * h : ℕ) : ℝ) ≤ ((2 ^ 17 : ℕ) : ℝ) := by exact_mod_cast (by omega : 2 * h ≤ 2 ^ 17)
    refine this.trans ?_
    norm_num
  have hk' : (kapSum fac : ℝ) ≤ 1000 := by exact_mod_cast hk
  have hk0 : (0 : ℝ) ≤ kapSum fac := by positivity
  obtain ⟨g1, g2, g3, g4⟩ := gain_near hel h0 (hh.trans (by norm_num))
  have hgs := gain_real h0
  obtain ⟨g, hgd⟩ : ∃ g, g = (mdctGain (2 * h) : ℝ) := ⟨_, rfl⟩
  rw [← hgd] at g2 g3 g4 hgs
  have hgm : g * (2 * Real.sqrt h) = 1 := by
    rw [hgs]
    field_simp
  have b1 : g * l2 (2 * h) (fun k => |val (y k) - Y k|) ≤ (kapSum fac + 11) / 2 ^ 24 * (X + 1 / 2 ^ 70) := by
    calc g * l2 (2 * h) (fun k => |val (y k) - Y k|)
        ≤ g * (2 * Real.sqrt h * ((kapSum fac + 11) / 2 ^ 24) * (X + 1 / 2 ^ 70)) := by gcongr
      _ = g * (2 * Real.sqrt h) * ((kapSum fac + 11) / 2 ^ 24 * (X + 1 / 2 ^ 70)) := by ring
      _ = _ := by rw [hgm, one_mul]
  have b2 : g * l2 (2 * h) (fun k => |Y k|) = X := by
    rw [hYl, ← mul_assoc, hgm, one_mul]
  have b3 : (kapSum fac + 11 : ℝ) / 2 ^ 24 ≤ 1 / 2 ^ 13 := by
    rw [div_le_iff₀ (by norm_num)]
    norm_num
    linarith
  have b4 : g * l2 (2 * h) (fun k => |val (y k) - Y k|) ≤ 1 / 2 ^ 13 * (X + 1 / 2 ^ 70) := b1.trans (by gcongr)
  have hgy : ∀ k, k < 2 * h → g * |val (y k)| ≤ 2 ^ 51 := by
    intro k hk
    have a1 := le_l2 (fun k => |Y k|) hk
    have a2 := le_l2 (fun k => |val (y k) - Y k|) hk
    have a3 := abs_sub_abs_le_abs_sub (val (y k)) (Y k)
    have a4 : g * |val (y k)| ≤ g * (l2 (2 * h) (fun k => |Y k|) + l2 (2 * h) (fun k => |val (y k) - Y k|)) := by
      refine mul_le_mul_of_nonneg_left ?_ g3.le
      beta_reduce at a1 a2
      linarith
    rw [mul_add, b2] at a4
    norm_num at a4 b4 hb ⊢
    linarith
  have hymax : ∀ k, k < 2 * h → |val (y k)| ≤ 2 ^ 90 := by
    intro k hk
    have a1 := hgy k hk
    have a2 : |val (y k)| = (2 * Real.sqrt h) * (g * |val (y k)|) := by
      rw [← mul_assoc, mul_comm (2 * Real.sqrt h) g, hgm, one_mul]
    rw [a2]
    calc (2 * Real.sqrt h) * (g * |val (y k)|) ≤ (2 * 2 ^ 8) * 2 ^ 51 := by gcongr
      _ ≤ 2 ^ 90 := by norm_num
  obtain ⟨B, hB⟩ : ∃ B : ℕ → ℝ, B = fun k => 1065 / 1000 * (g * |val (y k) - Y k|) + 537 / 100 / 2 ^ 24 * (g * |Y k|) + 1 / 2 ^ 88 :=
    ⟨_, rfl⟩
  have hB0 : ∀ k, 0 ≤ B k := by intro k; rw [hB]; positivity
  have hpt : ∀ p, p < 4 * h →
      IsFin (mul (mul (@unfoldG F32 (scalar el) h y p) (@mdctGain F32 (scalar el) (2 * h))) (rnd (wn.getD (4 * h - 1 - p) 0))) ∧
      |val (mul (mul (@unfoldG F32 (scalar el) h y p) (@mdctGain F32 (scalar el) (2 * h))) (rnd (wn.getD (4 * h - 1 - p) 0)))
        - timeAt h wn (fun k => val (x k)) p| ≤ |unfoldAt h B p| := by
    intro p hp
    have ht : timeAt h wn (fun k => val (x k)) p = unfoldAt h Y p * g * ((wn.getD (4 * h - 1 - p) 0 : Rat) : ℝ) := by
      unfold timeAt aliased
      rw [hgd, hY]
    rw [ht]
    obtain ⟨k, hk, hc | hc⟩ := unfold_case (el := el) hp
    · rw [hc.1, hc.2, hc.1, abs_of_nonneg (hB0 k), hB]
      exact gainWin_near (hy2 k hk) g1 g3 g4 g2 (hymax k hk) ((hgy k hk).trans (by norm_num)) (hw _)
    · rw [hc.1, hc.2, hc.1, abs_neg, abs_of_nonneg (hB0 k), hB]
      obtain ⟨n1, n2⟩ := neg_val (hy2 k hk)
      have := gainWin_near (v := -Y k) n1 g1 g3 g4 g2 (by rw [n2, abs_neg]; exact hymax k hk)
        (by rw [n2, abs_neg]; exact (hgy k hk).trans (by norm_num)) (hw (4 * h - 1 - p))
      rw [n2, ← neg_sub', abs_neg, abs_neg] at this
      exact this
  refine ⟨fun p => mul (@unfoldG F32 (scalar el) h y p) (@mdctGain F32 (scalar el) (2 * h)), ?_, fun p hp => (hpt p hp).1, ?_⟩
  · exact @mdctUnfold_gen F32 (scalar el) _ _ _ hy1
  · have e1 := l2_mono (n := 4 * h) (fun p _ => abs_nonneg _) fun p hp => (hpt p hp).2
    rw [l2_unfold] at e1
    have e2 : l2 (2 * h) (fun k => |B k|) ≤ 1065 / 1000 * ((kapSum fac + 11) / 2 ^ 24 * (X + 1 / 2 ^ 70)) + 537 / 100 / 2 ^ 24 * X + 1 / 2 ^ 78 := by
      have q1 := l2_add_le (2 * h) (fun k => 1065 / 1000 * (g * |val (y k) - Y k|) + 537 / 100 / 2 ^ 24 * (g * |Y k|)) (fun _ => 1 / 2 ^ 88)
      have q2 := l2_add_le (2 * h) (fun k => 1065 / 1000 * (g * |val (y k) - Y k|)) (fun k => 537 / 100 / 2 ^ 24 * (g * |Y k|))
      rw [l2_const _ (by norm_num)] at q1
      rw [l2_smul (2 * h) (1065 / 1000) (by norm_num) (fun k => g * |val (y k) - Y k|), l2_smul (2 * h) g g3.le (fun k => |val (y k) - Y k|),
        l2_smul (2 * h) (537 / 100 / 2 ^ 24) (by norm_num) (fun k => g * |Y k|), l2_smul (2 * h) g g3.le (fun k => |Y k|), b2] at q2
      have q3 : Real.sqrt (2 * h : ℕ) * (1 / 2 ^ 88) ≤ 1 / 2 ^ 78 := by
        refine (mul_le_mul_of_nonneg_right hs2 (by norm_num)).trans ?_
        norm_num
      have q4 : l2 (2 * h) (fun k => |B k|) = l2 (2 * h) (fun k => 1065 / 1000 * (g * |val (y k) - Y k|) + 537 / 100 / 2 ^ 24 * (g * |Y k|) + 1 / 2 ^ 88) := by
        refine l2_congr fun k _ => ?_
        rw [abs_of_nonneg (hB0 k), hB]
      rw [q4]
      refine q1.trans ?_
      refine add_le_add (q2.trans ?_) q3
      gcongr
    have hr2 : Real.sqrt 2 ≤ 14143 / 10000 := by
      rw [Real.sqrt_le_iff]; norm_num
    refine e1.trans ?_
    calc Real.sqrt 2 * l2 (2 * h) (fun k => |B k|)
        ≤ 14143 / 10000 * (1065 / 1000 * ((kapSum fac + 11) / 2 ^ 24 * (X + 1 / 2 ^ 70)) + 537 / 100 / 2 ^ 24 * X + 1 / 2 ^ 78) := by
          refine mul_le_mul hr2 e2 (l2_nonneg _ _) (by norm_num)
      _ ≤ _ := by
        have hm0 : 0 ≤ (kapSum fac : ℝ) * X := by positivity
        have e3 : 151 / 100 * ((kapSum fac + 17 : ℝ) / 2 ^ 24) * (X + 1 / 2 ^ 56)
          = 151 / 100 / 2 ^ 24 * ((kapSum fac : ℝ) * X) + 151 / 100 / 2 ^ 24 * 17 * X
            + 151 / 100 / 2 ^ 24 * (kapSum fac + 17) * (1 / 2 ^ 56) := by ring
        have e4 : (kapSum fac + 11 : ℝ) / 2 ^ 24 * (X + 1 / 2 ^ 70) = 1 / 2 ^ 24 * ((kapSum fac : ℝ) * X) + 11 / 2 ^ 24 * X
            + (kapSum fac + 11) / 2 ^ 24 * (1 / 2 ^ 70) := by ring
        rw [e3, e4]
        generalize (kapSum fac : ℝ) * X = G at *
        norm_num
        linarith

/-- the whole chain for one frame: the windowed double frame the decoder makes of the lines the encoder computed -/
theorem frame_near (hel : Accurate el) {cfg : Lc3Config} {h : ℕ} {wn : List Rat} (H : MdctOk cfg h wn) {fac : List (ℕ × ℕ)}
    (hfac : kfFactor h = .ok fac) (hok : FacOk fac h) (hh : h ≤ 2 ^ 16) (hk : kapSum fac ≤ 1000)
    (hw : ∀ p, |((wn.getD p 0 : Rat) : ℝ)| ≤ 133 / 125) {freq : List Int} (hl : freq.length = 4 * h)
    (hf : ∀ p, |freq.getD p 0| ≤ 2 ^ 15) {lines : List ℝ} (hlines : mdctApply cfg.nf freq wn = .ok lines)
    (hzero : ∀ v ∈ lines.drop cfg.ne, v = 0) {F : ℝ} (hF : F = Real.sqrt 2 * l2 (4 * h) (fun p => |wsample freq wn p|)) :
    ∃ (c : List F32) (t : ℕ → F32), @mdctApply F32 (scalar el) cfg.nf freq wn = .ok c ∧ c.length = cfg.nf ∧
      @mdctUnfold F32 (scalar el) (2 * h) (c.take cfg.ne ++ List.replicate (cfg.nf - cfg.ne) (@zero F32 (scalar el)))
        = .ok ((List.range (4 * h)).map t) ∧
      (∀ p, p < 4 * h → IsFin (mul (t p) (rnd (wn.getD (4 * h - 1 - p) 0)))) ∧
      l2 (4 * h) (fun p => |val (mul (t p) (rnd (wn.getD (4 * h - 1 - p) 0))) - aliasAt cfg.nf freq wn p|)
        ≤ 152 / 100 * ((2 * kapSum fac + 36) / 2 ^ 24) * (F + 1 / 2 ^ 54) := by
  have hnf := H.nf
  have hne := H.ne
  have h0 := hok.pos
  obtain ⟨c, hc1, hc2, hc3⟩ := mdctApply_near hel hfac hok hh hk hl H.len hf (fun p => (hw p).trans (by norm_num))
  rw [← hF] at hc3
  have hF0 : 0 ≤ F := by rw [hF]; exact mul_nonneg (Real.sqrt_nonneg _) (l2_nonneg _ _)
  -- the exact lines
  have hlx : lines = (List.range (2 * h)).map fun k => 2 * Fourier.dct4 (2 * h) (foldAt h (wsample freq wn)) k * mdctGain (2 * h) := by
    have := mdctApply_ok hfac hok hl H.len
    rw [← hnf, hlines] at this
    have := Res.ok.inj this
    rw [this, hnf]
  have hll : lines.length = 2 * h := by rw [hlx]; simp
  have hlk : ∀ k, k < 2 * h → lines.getD k 0 = 2 * Fourier.dct4 (2 * h) (foldAt h (wsample freq wn)) k * mdctGain (2 * h) := by
    intro k hk
    have hk' : k < lines.length := by omega
    rw [getD_of_lt hk']
    simp only [hlx, List.getElem_map, List.getElem_range]
  have hlz : ∀ k, cfg.ne ≤ k → lines.getD k 0 = 0 := by
    intro k hk
    rcases Nat.lt_or_ge k lines.length with hk' | hk'
    · rw [getD_of_lt hk']
      refine hzero _ (List.mem_iff_getElem.2 ⟨k - cfg.ne, by rw [List.length_drop]; omega, ?_⟩)
      rw [List.getElem_drop]
      congr 1
      omega
    · rw [List.getD_eq_getElem?_getD, List.getElem?_eq_none (by omega)]
      rfl
  -- the padded binary32 lines
  obtain ⟨x, hx⟩ : ∃ x : ℕ → F32, x = fun k => if k < cfg.ne then c k else fin 0 := ⟨_, rfl⟩
  have hz0 : @zero F32 (scalar el) = fin 0 := by
    show rnd 0 = fin 0
    have := rnd_int24 (s := 0) (by norm_num)
    exact_mod_cast this
  have hpad : ((List.range (2 * h)).map c).take cfg.ne ++ List.replicate (cfg.nf - cfg.ne) (@zero F32 (scalar el))
      = (List.range (2 * h)).map x := by
    refine eq_map_range (by simp; omega) fun k hk => ?_
    rw [List.getElem_append]
    split
    · rename_i hc
      have : k < cfg.ne := by simp at hc; omega
      rw [hx]
      simp [this]
    · rename_i hc
      have : ¬ k < cfg.ne := by
        simp at hc hk
        omega
      rw [List.getElem_replicate, hz0, hx]
      simp [this]
  have hxf : ∀ k, k < 2 * h → IsFin (x k) := by
    intro k hk
    rw [hx]
    simp only
    split
    · exact hc2 k hk
    · exact ⟨0, rfl⟩
  obtain ⟨K, hK⟩ : ∃ K : ℝ, K = kapSum fac := ⟨_, rfl⟩
  rw [← hK] at hc3
  have hK1 : K ≤ 1000 := by rw [hK]; exact_mod_cast hk
  have hK0 : 0 ≤ K := by rw [hK]; positivity
  have hxe : l2 (2 * h) (fun k => |val (x k) - lines.getD k 0|) ≤ (K + 18) / 2 ^ 24 * (F + 1 / 2 ^ 60) := by
    refine le_trans (l2_mono (fun _ _ => abs_nonneg _) fun k hk => ?_) hc3
    rw [hx]
    simp only
    split
    · rw [hlk k hk]
    · rename_i hc
      rw [hlz k (by omega)]
      have : val (fin 0) = 0 := by show ((0 : ℚ) : ℝ) = 0; norm_num
      rw [this, sub_zero, abs_zero]
      exact abs_nonneg _
  have hlF : l2 (2 * h) (fun k => |lines.getD k 0|) ≤ F := by
    have e1 : l2 (2 * h) (fun k => |lines.getD k 0|)
        = (mdctGain (2 * h) : ℝ) * l2 (2 * h) (fun k => |2 * Fourier.dct4 (2 * h) (foldAt h (wsample freq wn)) k|) := by
      have hg0 : 0 < (mdctGain (2 * h) : ℝ) := by
        rw [gain_real h0]
        have : 0 < Real.sqrt h := Real.sqrt_pos.2 (by exact_mod_cast h0)
        positivity
      rw [← l2_smul _ _ hg0.le]
      refine l2_congr fun k hk => ?_
      rw [hlk k hk, abs_mul, abs_of_pos hg0, mul_comm]
    rw [e1, l2_dct4, gain_real h0]
    have : 0 < Real.sqrt h := Real.sqrt_pos.2 (by exact_mod_cast h0)
    have e2 : 1 / (2 * Real.sqrt h) * (2 * Real.sqrt h * l2 (2 * h) (fun k => |foldAt h (wsample freq wn) k|))
        = l2 (2 * h) (fun k => |foldAt h (wsample freq wn) k|) := by field_simp
    rw [e2, hF]
    exact le_trans (l2_mono (fun _ _ => abs_nonneg _) fun i _ => foldAt_abs _ _ _) (l2_foldAbs h _)
  obtain ⟨X, hX⟩ : ∃ X, X = l2 (2 * h) (fun k => |val (x k)|) := ⟨_, rfl⟩
  have hb3 : (K + 18) / 2 ^ 24 ≤ 1 / 2 ^ 13 := by
    rw [div_le_iff₀ (by norm_num)]
    norm_num
    linarith
  have hXb : X ≤ F * (1 + 1 / 2 ^ 13) + 1 / 2 ^ 70 := by
    have q1 : X ≤ l2 (2 * h) (fun k => |lines.getD k 0|) + l2 (2 * h) (fun k => |val (x k) - lines.getD k 0|) := by
      rw [hX]
      refine le_trans (l2_mono (fun _ _ => abs_nonneg _) fun k _ => ?_) (l2_add_le _ _ _)
      have := abs_sub_abs_le_abs_sub (val (x k)) (lines.getD k 0)
      linarith
    have q2 : (K + 18) / 2 ^ 24 * (F + 1 / 2 ^ 60) ≤ 1 / 2 ^ 13 * (F + 1 / 2 ^ 60) := by gcongr
    norm_num at q1 q2 hxe hlF ⊢
    linarith
  have hFb : F ≤ 2 ^ 40 := by
    rw [hF]
    have h1 : l2 (4 * h) (fun p => |wsample freq wn p|) ≤ l2 (4 * h) (fun _ => 2 ^ 16) := by
      refine l2_mono (fun _ _ => abs_nonneg _) fun p _ => ?_
      unfold wsample
      rw [abs_mul]
      have : |(freq.getD p 0 : ℝ)| ≤ 2 ^ 15 := by exact_mod_cast hf p
      have := hw p
      have : |(freq.getD p 0 : ℝ)| * |((wn.getD p 0 : Rat) : ℝ)| ≤ 2 ^ 15 * (133 / 125) := by gcongr
      refine this.trans ?_
      norm_num
    rw [l2_const _ (by norm_num)] at h1
    have h3 : Real.sqrt (4 * h : ℕ) ≤ 2 ^ 10 := by
      rw [Real.sqrt_le_iff]
      refine ⟨by positivity, ?_⟩
      have : ((4 * h : ℕ) : ℝ) ≤ ((2 ^ 18 : ℕ) : ℝ) := by exact_mod_cast (by omega : 4 * h ≤ 2 ^ 18)
      refine this.trans ?_
      norm_num
    have h2 : Real.sqrt 2 ≤ 2 := by
      rw [Real.sqrt_le_iff]; norm_num
    calc Real.sqrt 2 * l2 (4 * h) (fun p => |wsample freq wn p|) ≤ 2 * (2 ^ 10 * 2 ^ 16) := by
          refine mul_le_mul h2 (h1.trans ?_) (l2_nonneg _ _) (by norm_num)
          gcongr
      _ ≤ 2 ^ 40 := by norm_num
  obtain ⟨t, ht1, ht2, ht3⟩ := time_near hel hfac hok hh hk hw hxf hX (hXb.trans (by norm_num at hFb ⊢; linarith))
  rw [← hK] at ht3 ⊢
  refine ⟨(List.range (2 * h)).map c, t, by rw [hnf]; exact hc1, by simp [hnf], by rw [hpad]; exact ht1, ht2, ?_⟩
  have e1 : l2 (4 * h) (fun p => |val (mul (t p) (rnd (wn.getD (4 * h - 1 - p) 0))) - aliasAt cfg.nf freq wn p|)
      ≤ l2 (4 * h) (fun p => |val (mul (t p) (rnd (wn.getD (4 * h - 1 - p) 0))) - timeAt h wn (fun k => val (x k)) p|)
        + l2 (4 * h) (fun p => |timeAt h wn (fun k => val (x k) - lines.getD k 0) p|) := by
    refine le_trans (l2_mono (fun _ _ => abs_nonneg _) fun p hp => ?_) (l2_add_le _ _ _)
    rw [timeAt_sub, timeAt_analysed H (by omega) hlines (by omega)]
    refine le_trans (le_of_eq ?_) (abs_add_le _ _)
    congr 1
    ring
  have e2 := l2_timeAt h0 hw (fun k => val (x k) - lines.getD k 0)
  have hr2 : Real.sqrt 2 ≤ 14143 / 10000 := by
    rw [Real.sqrt_le_iff]; norm_num
  have e3 : Real.sqrt 2 * l2 (2 * h) (fun k => |val (x k) - lines.getD k 0|) ≤ 14143 / 10000 * ((K + 18) / 2 ^ 24 * (F + 1 / 2 ^ 60)) :=
    mul_le_mul hr2 hxe (l2_nonneg _ _) (by norm_num)
  have e4 : 151 / 100 * ((K + 17) / 2 ^ 24) * (X + 1 / 2 ^ 56)
      ≤ 151 / 100 * ((K + 17) / 2 ^ 24) * (F * (1 + 1 / 2 ^ 13) + 1 / 2 ^ 70 + 1 / 2 ^ 56) := by gcongr
  have hm0 : 0 ≤ K * F := by positivity
  have e5 : 151 / 100 * ((K + 17) / 2 ^ 24) * (F * (1 + 1 / 2 ^ 13) + 1 / 2 ^ 70 + 1 / 2 ^ 56)
      = 151 / 100 / 2 ^ 24 * (1 + 1 / 2 ^ 13) * (K * F) + 151 / 100 / 2 ^ 24 * (1 + 1 / 2 ^ 13) * 17 * F
        + 151 / 100 / 2 ^ 24 * (K + 17) * (1 / 2 ^ 70 + 1 / 2 ^ 56) := by ring
  have e6 : (K + 18) / 2 ^ 24 * (F + 1 / 2 ^ 60) = 1 / 2 ^ 24 * (K * F) + 18 / 2 ^ 24 * F + (K + 18) / 2 ^ 24 * (1 / 2 ^ 60) := by ring
  have e7 : 152 / 100 * ((2 * K + 36) / 2 ^ 24) * (F + 1 / 2 ^ 54) = 304 / 100 / 2 ^ 24 * (K * F) + 152 / 100 / 2 ^ 24 * 36 * F
      + 152 / 100 / 2 ^ 24 * (2 * K + 36) * (1 / 2 ^ 54) := by ring
  rw [e6] at e3
  rw [e5] at e4
  rw [e7]
  refine e1.trans ?_
  generalize K * F = G at *
  norm_num at e2 e3 e4 ht3 ⊢
  linarith

end F32
end Lc3
