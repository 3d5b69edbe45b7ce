import Verif.Lemmas.FinShape
import Verif.Lemmas.MdctErr3
/-! Sizes in the decoder in binary32: packet loss concealment and the inverse transform. -/

namespace Lc3.F32
open Scalar Tables Finset

variable {el : Elem}

theorem bd_one : Bd 1 (@Scalar.one F32 (scalar el)) := by
  have h : @Scalar.one F32 (scalar el) = rnd ((1 : ℤ) : ℚ) := by
    show rnd 1 = rnd ((1 : ℤ) : ℚ)
    norm_num
  rw [h, rnd_int24 (by norm_num)]
  exact ⟨⟨_, rfl⟩, by show |((((1 : ℤ) : ℚ)) : ℝ)| ≤ 1; norm_num⟩

/-- a factor at most 0.9 does not increase the size -/
theorem bd_damp {a : F32} {q : ℚ} (ha : Bd 1 a) (h0 : 0 ≤ q) (h1 : q ≤ 9 / 10) : Bd 1 (F32.mul a (rnd q)) := by
  have hq : |(q : ℝ)| ≤ 9 / 10 := by
    rw [abs_of_nonneg (by exact_mod_cast h0)]
    have := (Rat.cast_le (K := ℝ)).2 h1
    push_cast at this
    exact this
  have hr := bd_rnd hq (by norm_num) (by norm_num)
  exact (ha.mul hr (by norm_num) (by norm_num)).mono (by norm_num)

theorem bd_plcAlpha {n : ℕ} {a : F32} (ha : Bd 1 a) : Bd 1 (@plcAlpha F32 (scalar el) n a) := by
  letI := scalar el
  unfold plcAlpha
  split
  · split
    · exact bd_damp ha (by norm_num) (by norm_num)
    · exact bd_damp ha (by norm_num) (by norm_num)
  · exact ha

theorem bd_plcLoop {a : F32} (ha : Bd 1 a) : ∀ (cur good : List F32) (seed : ℕ), cur.length = good.length → AllBd (13 / 10 * 2 ^ 91) good →
    AllBd (131 / 100 * 2 ^ 91) (@plcLoop F32 (scalar el) a seed cur good).1
  | [], good, seed, _, _ => by
    letI := scalar el
    unfold plcLoop
    exact AllBd.nil
  | c :: cur, [], _, h, _ => by simp at h
  | c :: cur, g :: good, seed, h, hg => by
    letI := scalar el
    unfold plcLoop
    have ih := bd_plcLoop ha cur good ((16831 + seed * 12821) &&& 0xFFFF) (by simpa using h) (fun b hb => hg b (by simp [hb]))
    have hb := hg g (by simp)
    refine AllBd.cons ?_ ih
    split
    · exact (hb.mul ha (by norm_num) (by norm_num)).mono (by norm_num)
    · exact (hb.mul ha.neg (by norm_num) (by norm_num)).mono (by norm_num)

/-- the transform kernel -/
theorem bd_dctIv (hel : Accurate el) (f : SamplingFrequency) (d : FrameDuration) {x : List F32}
    (hl : x.length = (Lc3Config.new f d).nf) (hx : AllBd (131 / 100 * 2 ^ 91) x) :
    ∃ y : ℕ → F32, @dctIv F32 (scalar el) (Lc3Config.new f d).nf x = .ok ((List.range (Lc3Config.new f d).nf).map y) ∧
      ∀ k, k < (Lc3Config.new f d).nf → Bd (2 ^ 101) (y k) := by
  have hs := fftSizes_config f d
  have hsz : (Lc3Config.new f d).nf / 2 ≤ 240 := by cases f <;> cases d <;> decide
  generalize (Lc3Config.new f d).nf = n at *
  obtain ⟨fac, hfac, hok⟩ := kfFactor_sizes _ hs.1
  have hk := kapSum_sizes _ hs.1 fac hfac
  obtain ⟨M, rfl⟩ : ∃ M, n = 2 * M := ⟨n / 2, by omega⟩
  rw [show 2 * M / 2 = M by omega] at *
  obtain ⟨g, hg⟩ : ∃ g : ℕ → F32, g = fun k => x.getD k (fin 0) := ⟨_, rfl⟩
  have hxg : x = (List.range (2 * M)).map g := by
    rw [← hl, hg]
    exact eq_map_range rfl fun i hi => by rw [getD_of_lt hi]
  have hgx : ∀ k, k < 2 * M → Bd (131 / 100 * 2 ^ 91) (g k) := by
    intro k hk
    rw [hg]
    beta_reduce
    rw [getD_of_lt (by omega)]
    exact hx _ (List.getElem_mem _)
  have hM' : (M : ℝ) ≤ 240 := by exact_mod_cast hsz
  have hb : l2 (2 * M) (fun k => |val (g k)|) ≤ 2 ^ 96 := by
    refine (l2_mono (h := fun _ => 131 / 100 * 2 ^ 91) (fun _ _ => abs_nonneg _) fun k hk => (hgx k hk).2).trans ?_
    rw [l2_const _ (by norm_num)]
    have : Real.sqrt (2 * M : ℕ) ≤ 22 := by
      rw [Real.sqrt_le_iff]
      refine ⟨by positivity, ?_⟩
      push_cast
      linarith
    calc Real.sqrt (2 * M : ℕ) * (131 / 100 * 2 ^ 91) ≤ 22 * (131 / 100 * 2 ^ 91) := by gcongr
      _ ≤ 2 ^ 96 := by norm_num
  obtain ⟨y, o1, o2, o3⟩ := dctIv_near hel hfac hok (hsz.trans (by norm_num)) (hk.trans (by norm_num)) (fun k hk => (hgx k hk).1) hb
  refine ⟨y, by rw [hxg]; exact o1, fun k hkM => ⟨o2 k hkM, ?_⟩⟩
  have hk' : (kapSum fac : ℝ) ≤ 135 := by exact_mod_cast hk
  have hsq : Real.sqrt M ≤ 1550 / 100 := by
    rw [Real.sqrt_le_iff]
    exact ⟨by norm_num, hM'.trans (by norm_num)⟩
  have hl0 := l2_nonneg (2 * M) (fun t => |val (g t)|)
  have e1 := (le_l2 (fun k => |val (y k) - 2 * Fourier.dct4 (2 * M) (fun k => val (g k)) k|) hkM).trans o3
  have e2 := (le_l2 (fun k => |2 * Fourier.dct4 (2 * M) (fun k => val (g k)) k|) hkM).trans_eq (l2_dct4 M (fun k => val (g k)))
  beta_reduce at e1 e2
  have e3 := abs_sub_abs_le_abs_sub (val (y k)) (2 * Fourier.dct4 (2 * M) (fun k => val (g k)) k)
  have e4 : 2 * Real.sqrt M * ((kapSum fac + 11) / 2 ^ 24) * (l2 (2 * M) (fun k => |val (g k)|) + 1 / 2 ^ 70)
      ≤ 2 * (1550 / 100) * ((135 + 11) / 2 ^ 24) * (2 ^ 96 + 1 / 2 ^ 70) := by
    have : (0 : ℝ) ≤ kapSum fac := Nat.cast_nonneg _
    gcongr
  have e5 : 2 * Real.sqrt M * l2 (2 * M) (fun k => |val (g k)|) ≤ 2 * (1550 / 100) * 2 ^ 96 := by gcongr
  have e6 : (2 : ℝ) * (1550 / 100) * ((135 + 11) / 2 ^ 24) * (2 ^ 96 + 1 / 2 ^ 70) + 2 * (1550 / 100) * 2 ^ 96 ≤ 2 ^ 101 := by norm_num
  linarith

/-- the inverse transform with its window and the overlap -/
theorem bd_mdctDecRun (hel : Accurate el) (f : SamplingFrequency) (d : FrameDuration) {mem lines mem' out : List F32}
    (hl : lines.length = (Lc3Config.new f d).ne) (hx : AllBd (131 / 100 * 2 ^ 91) lines)
    (hml : mem.length = (Lc3Config.new f d).nf - (Lc3Config.new f d).z) (hm : AllBd (2 ^ 101) mem)
    (e : @mdctDecRun F32 (scalar el) (Lc3Config.new f d) mem lines = .ok (mem', out)) :
    out.length = (Lc3Config.new f d).nf ∧ AllBd (2 ^ 101) mem' ∧ AllBd (2 ^ 102) out := by
  letI := scalar el
  obtain ⟨wn, H, -⟩ := mdctOk_config f d
  have hw := fun p => window_max H.win p
  have hnf0 : 0 < (Lc3Config.new f d).nf / 2 := by cases f <;> cases d <;> decide
  have hnf1 : (Lc3Config.new f d).nf / 2 ≤ 2 ^ 20 := by cases f <;> cases d <;> decide
  have hz := H.z
  have hne := H.ne
  have hxl : (lines ++ List.replicate ((Lc3Config.new f d).nf - (Lc3Config.new f d).ne) (@Scalar.zero F32 (scalar el))).length
      = (Lc3Config.new f d).nf := by
    simp [hl]; omega
  have hxb : AllBd (131 / 100 * 2 ^ 91) (lines ++ List.replicate ((Lc3Config.new f d).nf - (Lc3Config.new f d).ne) (@Scalar.zero F32 (scalar el))) := by
    refine hx.append (AllBd.replicate _ ?_)
    rw [zero_eq]
    exact bd_zero (by norm_num)
  obtain ⟨y, hy, hyb⟩ := bd_dctIv hel f d hxl hxb
  obtain ⟨h, hh⟩ : ∃ h, h = (Lc3Config.new f d).nf / 2 := ⟨_, rfl⟩
  rw [← hh] at H hnf0 hnf1
  have hnf := H.nf
  generalize Lc3Config.new f d = cfg at *
  obtain ⟨g1, g2, g3, g4⟩ := gain_near hel hnf0 hnf1
  have hgb : Bd (51 / 100) (@mdctGain F32 (scalar el) (2 * h)) := by
    refine ⟨g1, ?_⟩
    have := abs_sub_abs_le_abs_sub (val (@mdctGain F32 (scalar el) (2 * h))) (mdctGain (2 * h))
    rw [abs_of_pos g3] at this
    norm_num at g2
    linarith
  rw [hnf] at hy hyb
  have hu := mdctUnfold_gen hy
  have hr := mdctDecRun_gen H hl hml (fin 0) (by rw [hnf]; exact hu)
  have htb : ∀ p, p < 4 * h → Bd (6 / 10 * 2 ^ 101)
      (unfoldG h y p * mdctGain (2 * h) * Scalar.ofRat (wn.getD (4 * h - 1 - p) 0)) := by
    intro p hp
    obtain ⟨k, hk, hc⟩ := unfold_case (el := el) hp
    have hub : Bd (2 ^ 101) (unfoldG h y p) := by
      rcases hc with ⟨-, hc⟩ | ⟨-, hc⟩
      · rw [hc]; exact hyb k hk
      · rw [hc]; exact (hyb k hk).neg
    have h1 := hub.mul hgb (by norm_num) (by norm_num)
    have h2 := bd_rnd (hw (4 * h - 1 - p)) (by norm_num) (by norm_num)
    exact (h1.mul h2 (by norm_num) (by norm_num)).mono (by norm_num)
  rw [hr] at e
  simp only [Res.ok.injEq, Prod.mk.injEq] at e
  obtain ⟨rfl, rfl⟩ := e
  refine ⟨by simp, ?_, ?_⟩
  · intro a ha
    obtain ⟨j, hj, rfl⟩ := List.mem_map.1 ha
    have := List.mem_range.1 hj
    exact (htb _ (by omega)).mono (by norm_num)
  · intro a ha
    obtain ⟨j, hj, rfl⟩ := List.mem_map.1 ha
    have := List.mem_range.1 hj
    split
    · have hmj : Bd (2 ^ 101) (mem.getD j (fin 0)) := by
        rw [getD_of_lt (by omega)]
        exact hm _ (List.getElem_mem _)
      exact (hmj.add (htb (cfg.z + j) (by omega)) (by norm_num) (by norm_num)).mono (by norm_num)
    · exact (htb _ (by omega)).mono (by norm_num)

end Lc3.F32
