import Verif.Spec.Shaping
import Verif.Props.SnsInverse
import Verif.Lemmas.Mdct
/-!
# Properties: the gains of the decoder's noise shaping
-/

namespace Lc3
open Scalar Spec Tables

theorem snsInterp_at {s : List ℝ} (h : s.length = 16) {b : ℕ} (hb : b < 64) :
    (snsInterp s)[b]? = some (factorAt (fun n => s.getD n 0) b) := by
  match s, h with
  | [a0, a1, a2, a3, a4, a5, a6, a7, a8, a9, a10, a11, a12, a13, a14, a15], _ =>
    have e1 : (ofRat (1 / 8) : ℝ) = 1 / 8 := by show ((1 / 8 : ℚ) : ℝ) = _; push_cast; rfl
    have e3 : (ofRat (3 / 8) : ℝ) = 3 / 8 := by show ((3 / 8 : ℚ) : ℝ) = _; push_cast; rfl
    have e5 : (ofRat (5 / 8) : ℝ) = 5 / 8 := by show ((5 / 8 : ℚ) : ℝ) = _; push_cast; rfl
    have e7 : (ofRat (7 / 8) : ℝ) = 7 / 8 := by show ((7 / 8 : ℚ) : ℝ) = _; push_cast; rfl
    simp only [snsInterp, interpTail, interp4, e1, e3, e5, e7, List.cons_append, List.nil_append]
    unfold factorAt
    interval_cases b <;>
      simp only [List.getElem?_cons_succ, List.getElem?_cons_zero, List.getD_cons_zero, List.getD_cons_succ, Option.some.injEq,
        show ¬ (2 ≤ 1) by decide] <;> norm_num <;> ring

theorem deenumLoop_length : ∀ (n k : ℕ) (neg : Bool) (ind : ℕ) {l : List Int}, deenumLoop n k neg ind = .ok l → l.length = n
  | 0, _, _, _, l, h => by
    simp only [deenumLoop, Res.ok.injEq] at h
    rw [← h]; rfl
  | n + 1, k, neg, ind, l, h => by
    unfold deenumLoop at h
    obtain ⟨row, -, h⟩ := bind_ok_inv h
    split at h
    · obtain ⟨⟨ka, df⟩, -, h⟩ := bind_ok_inv h
      obtain ⟨kd, -, h⟩ := bind_ok_inv h
      split at h
      · obtain ⟨k', -, h⟩ := bind_ok_inv h
        obtain ⟨t, ht, h⟩ := bind_ok_inv h
        simp only [Res.ok.injEq] at h
        rw [← h, List.length_cons, deenumLoop_length _ _ _ _ ht]
      · obtain ⟨t, ht, h⟩ := bind_ok_inv h
        simp only [Res.ok.injEq] at h
        rw [← h, List.length_cons, deenumLoop_length _ _ _ _ ht]
    · simp only [Res.ok.injEq] at h
      rw [← h]; simp

theorem snsPulses_length {sns : SnsVq} {y : List Int} (h : snsPulses sns = .ok y) : y.length = 16 := by
  unfold snsPulses mpvqDeenum at h
  split at h
  · obtain ⟨a, ha, h⟩ := bind_ok_inv h
    obtain ⟨b, hb, h⟩ := bind_ok_inv h
    simp only [Res.ok.injEq] at h
    rw [← h, List.length_append, deenumLoop_length _ _ _ _ ha, deenumLoop_length _ _ _ _ hb]
  · obtain ⟨a, ha, h⟩ := bind_ok_inv h
    simp only [Res.ok.injEq] at h
    rw [← h, List.length_append, deenumLoop_length _ _ _ _ ha, List.length_replicate]
  · exact deenumLoop_length _ _ _ _ h
  · exact deenumLoop_length _ _ _ _ h
  · cases h

theorem list_sum16 {β : Type} (z : β) (g : β → ℝ) {y : List β} (h : y.length = 16) :
    (y.map g).sum = ∑ i ∈ Finset.range 16, g (y.getD i z) := by
  match y, h with
  | [a0, a1, a2, a3, a4, a5, a6, a7, a8, a9, a10, a11, a12, a13, a14, a15], _ =>
    simp [Finset.sum_range_succ]
    ring

theorem snsRow_real {y : List Int} (hy : y.length = 16) {row : List Rat} (hr : row.length = 16) :
    (snsRow y row : ℝ) = ∑ i ∈ Finset.range 16, (y.getD i 0 : ℝ) * (row.getD i 0 : ℝ) := by
  unfold snsRow
  have : ∀ (l : List (Int × Rat)) (s : ℝ), l.foldl (fun acc p => acc + (ofInt p.1 : ℝ) * ofRat p.2) s =
      s + (l.map fun p => (p.1 : ℝ) * (p.2 : ℝ)).sum := by
    intro l
    induction l with
    | nil => intro s; simp
    | cons v l ih =>
      intro s
      rw [List.foldl_cons, ih, List.map_cons, List.sum_cons]
      have : (ofInt v.1 : ℝ) = (v.1 : ℝ) := by show (((v.1 : ℤ) : ℚ) : ℝ) = _; push_cast; rfl
      rw [this]
      show s + (v.1 : ℝ) * (v.2 : ℝ) + _ = _
      ring
  rw [this, show (zero : ℝ) = 0 from Rat.cast_zero, zero_add, list_sum16 (0, 0) _ (by simp [hy, hr])]
  refine Finset.sum_congr rfl fun i hi => ?_
  rw [Finset.mem_range] at hi
  rw [getD_of_lt (show i < (y.zip row).length by simp [hy, hr, hi]), getD_of_lt (by omega : i < y.length),
    getD_of_lt (by omega : i < row.length), List.getElem_zip]

theorem snsScaleFactors_real {sns : SnsVq} {scf : List ℝ} (h : snsScaleFactors sns = .ok scf) :
    ∃ (lf hf : List ℚ) (y : List Int) (g : ℚ), LFCB[sns.indLf]? = some lf ∧ HFCB[sns.indHf]? = some hf ∧ snsPulses sns = .ok y ∧
      y.length = 16 ∧ snsGain sns = .ok g ∧ scf.length = 16 ∧ ∀ n < 16, scf.getD n 0 =
        shapedFactor (fun n => ((lf ++ hf).getD n 0 : ℝ)) g (fun i => (y.getD i 0 : ℝ)) (fun n i => ((D.getD n []).getD i 0 : ℝ)) n := by
  unfold snsScaleFactors at h
  obtain ⟨lf, h1, h⟩ := bind_ok_inv h
  obtain ⟨hf, h2, h⟩ := bind_ok_inv h
  obtain ⟨y, h3, h⟩ := bind_ok_inv h
  obtain ⟨g, h4, h⟩ := bind_ok_inv h
  simp only [Res.ok.injEq] at h
  have l1 := LFCB_shape.2 lf (idx_mem h1)
  have l2 := HFCB_shape.2 hf (idx_mem h2)
  have hy := snsPulses_length h3
  have hl : ((lf ++ hf).zip D).length = 16 := by simp [D_length, l1, l2]
  have i1 : LFCB[sns.indLf]? = some lf := by
    unfold idx at h1
    split at h1
    · simp_all
    · cases h1
  have i2 : HFCB[sns.indHf]? = some hf := by
    unfold idx at h2
    split at h2
    · simp_all
    · cases h2
  refine ⟨lf, hf, y, g, i1, i2, h3, hy, h4, by rw [← h]; simpa using hl, ?_⟩
  intro n hn
  have hD : n < D.length := by rw [D_length]; exact hn
  rw [← h, getD_of_lt (by rw [List.length_map, hl]; exact hn), List.getElem_map, List.getElem_zip]
  unfold shapedFactor
  simp only
  rw [getD_of_lt (show n < (lf ++ hf).length by simp [l1, l2, hn]), getD_of_lt hD,
    snsRow_real hy (D_rows _ (List.getElem_mem _)), snsNorm_real, list_sum16 0 _ hy]
  have e : ∀ i, (y.getD i 0 : ℝ) ^ 2 = (y.getD i 0 : ℝ) * (y.getD i 0 : ℝ) := fun i => sq _
  simp only [e]
  show ((_ : ℚ) : ℝ) + _ = _
  congr 1
  by_cases h0 : Real.sqrt (∑ i ∈ Finset.range 16, (y.getD i 0 : ℝ) * (y.getD i 0 : ℝ)) = 0
  · have hz : ∀ i ∈ Finset.range 16, (y.getD i 0 : ℝ) = 0 := by
      rw [Real.sqrt_eq_zero (Finset.sum_nonneg fun i _ => mul_self_nonneg _)] at h0
      rw [Finset.sum_eq_zero_iff_of_nonneg (fun i _ => mul_self_nonneg _)] at h0
      intro i hi
      exact mul_self_eq_zero.1 (h0 i hi)
    have : ∑ i ∈ Finset.range 16, (y.getD i 0 : ℝ) * ((D[n]).getD i 0 : ℝ) = 0 :=
      Finset.sum_eq_zero fun i hi => by rw [hz i hi, zero_mul]
    rw [this, mul_zero, mul_zero]
  · have : (eq (Real.sqrt (∑ i ∈ Finset.range 16, (y.getD i 0 : ℝ) * (y.getD i 0 : ℝ))) zero : Bool) = false := by
      show decide (_ = ((0 : ℚ) : ℝ)) = false
      rw [Rat.cast_zero]
      exact decide_eq_false h0
    rw [this]
    rfl

theorem snsReduce_real {nb : ℕ} (hnb : 32 ≤ nb) (h64 : nb ≤ 64) {s f : List ℝ} (hs : s.length = 16) (h : snsReduce nb (snsInterp s) = .ok f) :
    ∀ b < nb, f[b]? = some (bandFactor nb (fun n => s.getD n 0) b) := by
  intro b hb
  have hl := snsInterp_length hs
  have hat := fun b (hb : b < 64) => snsInterp_at hs hb
  unfold snsReduce at h
  rw [usub_of_le h64, Res.bind_ok] at h
  unfold bandFactor
  split at h
  · obtain ⟨a, ha, h⟩ := bind_ok_inv h
    obtain ⟨c, hc, h⟩ := bind_ok_inv h
    simp only [Res.ok.injEq] at h
    have ea : a = (List.range (64 - nb)).map fun i => (factorAt (fun n => s.getD n 0) (2 * i) + factorAt (fun n => s.getD n 0) (2 * i + 1)) / 2 := by
      rw [mapM_range_ok (g := fun i => (factorAt (fun n => s.getD n 0) (2 * i) + factorAt (fun n => s.getD n 0) (2 * i + 1)) / 2) (by
        intro i hi
        have := hat (2 * i) (by omega)
        rw [List.getElem?_eq_getElem (by omega), Option.some.injEq] at this
        rw [idx_eq_ok (by omega), this, Res.bind_ok]
        have := hat (2 * i + 1) (by omega)
        rw [List.getElem?_eq_getElem (by omega), Option.some.injEq] at this
        rw [idx_eq_ok (by omega), this, Res.bind_ok]
        have : (ofRat 2 : ℝ) = 2 := by show ((2 : ℚ) : ℝ) = _; push_cast; rfl
        rw [this])] at ha
      simpa using ha.symm
    have ec : c = (List.range (nb - (64 - nb))).map fun i => factorAt (fun n => s.getD n 0) (i + (64 - nb) + (64 - nb)) := by
      rw [mapM_range_ok (g := fun i => factorAt (fun n => s.getD n 0) (i + (64 - nb) + (64 - nb))) (by
        intro i hi
        have := hat (i + (64 - nb) + (64 - nb)) (by omega)
        rw [List.getElem?_eq_getElem (by omega), Option.some.injEq] at this
        rw [idx_eq_ok (by omega), this])] at hc
      simpa using hc.symm
    rw [← h, ea, ec]
    split
    · rename_i hlt
      rw [List.getElem?_append_left (by simpa using hlt)]
      simp [hlt]
    · rename_i hlt
      rw [List.getElem?_append_right (by simpa using hlt)]
      simp only [List.length_map, List.length_range]
      rw [List.getElem?_map, List.getElem?_range (by omega)]
      simp only [Option.map_some, Option.some.injEq]
      congr 1
      omega
  · rename_i hz
    simp only [Res.ok.injEq] at h
    rw [← h, hat b (by omega), if_neg (by omega)]
    congr 2
    omega

theorem bandFactor_congr {nb : ℕ} {s t : ℕ → ℝ} (h : ∀ n < 16, s n = t n) (b : ℕ) : bandFactor nb s b = bandFactor nb t b := by
  have key : ∀ b, factorAt s b = factorAt t b := by
    intro b
    unfold factorAt
    split
    · exact h 0 (by omega)
    · simp only
      rw [h _ (by omega : min ((b - 2) / 4) 14 < 16), h _ (by omega : min ((b - 2) / 4) 14 + 1 < 16)]
  unfold bandFactor
  rw [key, key, key]

/-- **C92.** Exact arithmetic, every configuration, any indices: when the decoder's noise shaping returns, line `k` of band `b` has been
multiplied by two to the power of the band's factor, and lines behind the last band are unchanged. The scale factors are those of the
transmitted code vectors, gain and pulses; the factors of the bands lie on the line through the neighbouring scale factors. -/
theorem C92 {f : SamplingFrequency} {d : FrameDuration} {sns : SnsVq} {lines r : List ℝ}
    (h : snsDecode (Lc3Config.new f d) sns lines = .ok r) :
    ∃ (tab : List ℕ) (lf hf : List ℚ) (y : List Int) (g : ℚ), bandTable d (Lc3Config.new f d).fsInd = .ok tab ∧
      LFCB[sns.indLf]? = some lf ∧ HFCB[sns.indHf]? = some hf ∧ snsPulses sns = .ok y ∧ y.length = 16 ∧ snsGain sns = .ok g ∧
      r.length = lines.length ∧
      (∀ b k, b < (Lc3Config.new f d).nb → InBand tab b k → r[k]? = (lines[k]?).map (· *
        (2 : ℝ) ^ bandFactor (Lc3Config.new f d).nb (shapedFactor (fun n => ((lf ++ hf).getD n 0 : ℝ)) g
          (fun i => (y.getD i 0 : ℝ)) (fun n i => ((D.getD n []).getD i 0 : ℝ))) b)) ∧
      ∀ k, (Lc3Config.new f d).ne ≤ k → r[k]? = lines[k]? := by
  obtain ⟨gs, tab, h1, h2, h3, h4, h5, h6⟩ := C24 h
  have hn1 : 32 ≤ (Lc3Config.new f d).nb := by cases f <;> cases d <;> decide
  have hn2 : (Lc3Config.new f d).nb ≤ 64 := by cases f <;> cases d <;> decide
  unfold snsGains at h1
  obtain ⟨scf, e1, h1⟩ := bind_ok_inv h1
  obtain ⟨fs, e2, h1⟩ := bind_ok_inv h1
  simp only [Res.ok.injEq] at h1
  obtain ⟨lf, hf, y, g, a1, a2, a3, a4, a5, a6, a7⟩ := snsScaleFactors_real e1
  refine ⟨tab, lf, hf, y, g, h3, a1, a2, a3, a4, a5, h4, ?_, h6⟩
  intro b k hb hk
  rw [h5 b k hb hk]
  congr 1
  funext v
  have hr := snsReduce_real hn1 hn2 a6 e2 b hb
  rw [bandFactor_congr a7] at hr
  rw [← h1, List.getD_eq_getElem?_getD, List.getElem?_map, List.getElem?_take_of_lt hb, hr]
  rfl

/-- the hypothesis holds for 8 kHz and 7.5 ms frames (60 bands), pulses of shape 3 -/
example {l : List ℝ} (hl : l.length = 60) :
    ∃ r, snsDecode (Lc3Config.new .hz8000 .sevenPointFiveMs) ⟨3, 7, 0, 0, 5, 0, 1, 1, 2⟩ l = .ok r := by
  have h : SideBounds (Lc3Config.new .hz8000 .sevenPointFiveMs) ⟨0, 2, false, 0, 1, [0, 0], ⟨3, 7, 0, 0, 5, 0, 1, 1, 2⟩, ⟨false, false, 0⟩, 0⟩ := by
    constructor <;> decide +kernel
  have key : ∀ (f : SamplingFrequency) (d : FrameDuration) (si : SideInfo) (l : List ℝ), SideBounds (Lc3Config.new f d) si →
      l.length = (Lc3Config.new f d).ne → ∃ r, snsDecode (Lc3Config.new f d) si.snsVq l = .ok r := by
    intro f d si l h hl
    obtain ⟨r, e, -⟩ := (safe_snsDecode h hl).exists_ok (noErr_snsDecode _ _ _)
    exact ⟨r, e⟩
  exact key _ _ _ l h (hl.trans (by decide))

end Lc3
