import Verif.Spec.EncFunctions
import Verif.Lemmas.EncReturns32
import Verif.Lemmas.FinImdct
import Verif.Lemmas.FinShape
/-! Sizes in the encoder in binary32: the lines from the transform to the quantiser. -/

namespace Lc3.F32
open Scalar Tables Spec

variable {el : Elem}

/-! ## The transform -/

/-- the transform kernel on samples -/
theorem bd_dctIv_small (hel : Accurate el) (f : SamplingFrequency) (d : FrameDuration) {x : List F32}
    (hl : x.length = (Lc3Config.new f d).nf) (hx : AllBd (2 ^ 18) x) :
    ∃ y : ℕ → F32, @dctIv F32 (scalar el) (Lc3Config.new f d).nf x = .ok ((List.range (Lc3Config.new f d).nf).map y) ∧
      ∀ k, k < (Lc3Config.new f d).nf → Bd (2 ^ 28) (y k) := by
  have hs := fftSizes_config f d
  have hsz : (Lc3Config.new f d).nf / 2 ≤ 240 := by cases f <;> cases d <;> decide
  generalize (Lc3Config.new f d).nf = n at *
  obtain ⟨fac, hfac, hok⟩ := kfFactor_sizes _ hs.1
  have hk := kapSum_sizes _ hs.1 fac hfac
  obtain ⟨M, rfl⟩ : ∃ M, n = 2 * M := ⟨n / 2, by omega⟩
  rw [show 2 * M / 2 = M by omega] at *
  obtain ⟨g, hg⟩ : ∃ g : ℕ → F32, g = fun k => x.getD k (fin 0) := ⟨_, rfl⟩
  have hxg : x = (List.range (2 * M)).map g := by
    rw [← hl, hg]
    exact eq_map_range rfl fun i hi => by rw [getD_of_lt hi]
  have hgx : ∀ k, k < 2 * M → Bd (2 ^ 18) (g k) := by
    intro k hk
    rw [hg]
    beta_reduce
    rw [getD_of_lt (by omega)]
    exact hx _ (List.getElem_mem _)
  have hM' : (M : ℝ) ≤ 240 := by exact_mod_cast hsz
  have hb : l2 (2 * M) (fun k => |val (g k)|) ≤ 2 ^ 23 := by
    refine (l2_mono (h := fun _ => 2 ^ 18) (fun _ _ => abs_nonneg _) fun k hk => (hgx k hk).2).trans ?_
    rw [l2_const _ (by norm_num)]
    have : Real.sqrt (2 * M : ℕ) ≤ 22 := by
      rw [Real.sqrt_le_iff]
      refine ⟨by positivity, ?_⟩
      push_cast
      linarith
    calc Real.sqrt (2 * M : ℕ) * (2 ^ 18) ≤ 22 * (2 ^ 18) := by gcongr
      _ ≤ 2 ^ 23 := by norm_num
  obtain ⟨y, o1, o2, o3⟩ := dctIv_near hel hfac hok (hsz.trans (by norm_num)) (hk.trans (by norm_num)) (fun k hk => (hgx k hk).1)
    (hb.trans (by norm_num))
  refine ⟨y, by rw [hxg]; exact o1, fun k hkM => ⟨o2 k hkM, ?_⟩⟩
  have hk' : (kapSum fac : ℝ) ≤ 135 := by exact_mod_cast hk
  have hsq : Real.sqrt M ≤ 1550 / 100 := by
    rw [Real.sqrt_le_iff]
    exact ⟨by norm_num, hM'.trans (by norm_num)⟩
  have hl0 := l2_nonneg (2 * M) (fun t => |val (g t)|)
  have e1 := (le_l2 (fun k => |val (y k) - 2 * Fourier.dct4 (2 * M) (fun k => val (g k)) k|) hkM).trans o3
  have e2 := (le_l2 (fun k => |2 * Fourier.dct4 (2 * M) (fun k => val (g k)) k|) hkM).trans_eq (l2_dct4 M (fun k => val (g k)))
  beta_reduce at e1 e2
  have e3 := abs_sub_abs_le_abs_sub (val (y k)) (2 * Fourier.dct4 (2 * M) (fun k => val (g k)) k)
  have e4 : 2 * Real.sqrt M * ((kapSum fac + 11) / 2 ^ 24) * (l2 (2 * M) (fun k => |val (g k)|) + 1 / 2 ^ 70)
      ≤ 2 * (1550 / 100) * ((135 + 11) / 2 ^ 24) * (2 ^ 23 + 1 / 2 ^ 70) := by
    have : (0 : ℝ) ≤ kapSum fac := Nat.cast_nonneg _
    gcongr
  have e5 : 2 * Real.sqrt M * l2 (2 * M) (fun k => |val (g k)|) ≤ 2 * (1550 / 100) * 2 ^ 23 := by gcongr
  have e6 : (2 : ℝ) * (1550 / 100) * ((135 + 11) / 2 ^ 24) * (2 ^ 23 + 1 / 2 ^ 70) + 2 * (1550 / 100) * 2 ^ 23 ≤ 2 ^ 28 := by norm_num
  linarith

/-- the lines of the transform -/
theorem bd_mdctEncRun (hel : Accurate el) {f : SamplingFrequency} {d : FrameDuration} {freq x freq' : List ℤ} {lines eb : List F32} {nn : Bool}
    (hl : freq.length = 2 * (Lc3Config.new f d).nf) (hf : ∀ v ∈ freq, |v| ≤ 2 ^ 15) (hx : ∀ v ∈ x, |v| ≤ 2 ^ 15)
    (h : @mdctEncRun F32 (scalar el) (Lc3Config.new f d) freq x = .ok (freq', lines, eb, nn)) : AllBd (2 ^ 28) lines := by
  letI := scalar el
  obtain ⟨wn, H, -⟩ := mdctOk_config f d
  have hw := fun p => window_max H.win p
  have hnf0 : 0 < (Lc3Config.new f d).nf / 2 := by cases f <;> cases d <;> decide
  have hnf1 : (Lc3Config.new f d).nf / 2 ≤ 2 ^ 20 := by cases f <;> cases d <;> decide
  have hnf := H.nf
  have hz := H.z
  unfold mdctEncRun at h
  split at h
  · cases h
  obtain ⟨fr, hu, h⟩ := bind_ok_inv h
  obtain ⟨wn', hwn, h⟩ := bind_ok_inv h
  obtain ⟨out, ha, h⟩ := bind_ok_inv h
  obtain ⟨tab, -, h⟩ := bind_ok_inv h
  obtain ⟨eb', -, h⟩ := bind_ok_inv h
  obtain ⟨nn', -, h⟩ := bind_ok_inv h
  simp only [Res.ok.injEq, Prod.mk.injEq] at h
  obtain ⟨-, rfl, -, -⟩ := h
  rw [H.win] at hwn
  injection hwn with hwn
  subst hwn
  obtain ⟨-, hl', -, -⟩ := mdctUpdate_ok hz hl hu
  have hfr : ∀ v ∈ fr, |v| ≤ ((2 ^ 15 : ℕ) : ℤ) := by
    unfold mdctUpdate at hu
    obtain ⟨n, -, hu⟩ := bind_ok_inv hu
    split at hu
    · cases hu
    simp only [Res.ok.injEq] at hu
    subst hu
    intro v hv
    push_cast
    rcases List.mem_append.1 hv with hv | hv
    · rcases List.mem_append.1 hv with hv | hv
      · exact hf v (List.mem_of_mem_drop (List.mem_of_mem_take hv))
      · exact hx v hv
    · exact hf v (List.mem_of_mem_drop hv)
  have hfg := getD_bound hfr
  have hwm : ∀ p, Bd (107 / 100 * 2 ^ 15) (@winAt F32 (scalar el) fr wn p) := by
    intro p
    have h1 : Bd (2 ^ 15) (rnd ((fr.getD p 0 : ℤ) : ℚ)) := by
      have := hfg p
      rw [rnd_int24 (lt_of_le_of_lt this (by norm_num))]
      refine ⟨⟨_, rfl⟩, ?_⟩
      show |(((fr.getD p 0 : ℤ) : ℚ) : ℝ)| ≤ 2 ^ 15
      push_cast at this ⊢
      exact_mod_cast this
    have h2 := bd_rnd (hw p) (by norm_num) (by norm_num)
    exact (h1.mul h2 (by norm_num) (by norm_num)).mono (by norm_num)
  have hfold := mdctFold_gen (α := F32) (h := (Lc3Config.new f d).nf / 2) (freq := fr) (wn := wn) (by omega) (by have := H.len; omega)
  have hb : AllBd (2 ^ 18) ((List.range (2 * ((Lc3Config.new f d).nf / 2))).map (@foldG F32 (scalar el) ((Lc3Config.new f d).nf / 2) (winAt fr wn))) := by
    intro a ha
    obtain ⟨i, -, rfl⟩ := List.mem_map.1 ha
    unfold foldG
    split
    · exact ((hwm _).neg.sub (hwm _) (by norm_num) (by norm_num)).mono (by norm_num)
    · exact ((hwm _).sub (hwm _) (by norm_num) (by norm_num)).mono (by norm_num)
  have e2 : 2 * ((Lc3Config.new f d).nf / 2) = (Lc3Config.new f d).nf := by omega
  rw [e2] at hfold hb
  obtain ⟨y, hy, hyb⟩ := bd_dctIv_small hel f d (by rw [List.length_map, List.length_range]) hb
  unfold mdctApply at ha
  rw [hfold, Res.bind_ok, hy, Res.bind_ok] at ha
  simp only [Res.ok.injEq] at ha
  subst ha
  obtain ⟨g1, g2, g3, g4⟩ := gain_near hel hnf0 hnf1
  have hgb : Bd (51 / 100) (@mdctGain F32 (scalar el) (Lc3Config.new f d).nf) := by
    rw [e2] at g1 g2 g3 g4
    refine ⟨g1, ?_⟩
    have := abs_sub_abs_le_abs_sub (val (@mdctGain F32 (scalar el) (Lc3Config.new f d).nf)) (mdctGain (Lc3Config.new f d).nf)
    rw [abs_of_pos g3] at this
    norm_num at g2
    linarith
  intro a ha
  obtain ⟨b, hb, rfl⟩ := List.mem_map.1 ha
  obtain ⟨k, hk, rfl⟩ := List.mem_map.1 hb
  exact ((hyb k (List.mem_range.1 hk)).mul hgb (by norm_num) (by norm_num)).mono (by norm_num)

end Lc3.F32
