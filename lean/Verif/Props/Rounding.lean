import Verif.Lemmas.MdctErr3
import Verif.Lemmas.Fft
import Mathlib.Analysis.SpecialFunctions.Log.Base
/-!
# Properties C88 to C91: rounding errors of the transforms in binary32

The transforms are exact in real arithmetic (C35 to C37). Here the same functions run in binary32, every operation rounded to
nearest. The elementary functions (sine, cosine, square root) are any functions with the accuracy `F32.Accurate`. Errors are
measured in the Euclidean norm.
-/

namespace Lc3
open Scalar Finset

namespace F32

/-- every factor costs at most 24 times its logarithm -/
theorem kapSum_log {fac : List (ℕ × ℕ)} {n : ℕ} (h : FacOk fac n) : (kapSum fac : ℝ) ≤ 24 * Real.logb 2 n := by
  have key : ∀ p, 2 ≤ p ∧ p ≤ 5 → (kap p : ℝ) ≤ 24 * Real.logb 2 p := by
    intro p hp
    have l : ∀ a b : ℕ, (2 : ℝ) ^ a ≤ (p : ℝ) ^ b → (a : ℝ) ≤ b * Real.logb 2 p := by
      intro a b hab
      have h0 : (0 : ℝ) < p := by exact_mod_cast (by omega : 0 < p)
      have := Real.logb_le_logb_of_le (b := 2) (by norm_num) (by positivity) hab
      rwa [Real.logb_pow, Real.logb_self_eq_one (by norm_num), mul_one, Real.logb_pow] at this
    have hc : p = 2 ∨ p = 3 ∨ p = 4 ∨ p = 5 := by omega
    rcases hc with rfl | rfl | rfl | rfl
    · have := l 1 1 (by norm_num)
      norm_num [kap] at this ⊢
    · have := l 3 2 (by norm_num)
      show ((35 : ℕ) : ℝ) ≤ _
      push_cast at this ⊢
      linarith
    · have := l 2 1 (by norm_num)
      show ((15 : ℕ) : ℝ) ≤ _
      push_cast at this ⊢
      linarith
    · have := l 9 4 (by norm_num)
      show ((50 : ℕ) : ℝ) ≤ _
      push_cast at this ⊢
      linarith
  induction h with
  | @last p hp =>
    have : kapSum [(p, 1)] = kap p := by simp [kapSum]
    rw [this]
    exact key p hp
  | @step p m fac hp hm h ih =>
    have : kapSum ((p, m) :: fac) = kap p + kapSum fac := by simp [kapSum]
    rw [this]
    have h0 : (p : ℝ) ≠ 0 := by
      have : p ≠ 0 := by omega
      exact_mod_cast this
    have h1 : (m : ℝ) ≠ 0 := by
      have := h.pos.ne'
      exact_mod_cast this
    push_cast
    rw [Real.logb_mul h0 h1, mul_add]
    exact add_le_add (key p hp) ih

/-- elementary functions with the assumed accuracy exist -/
theorem exists_accurate : ∃ el, Accurate el := by
  have near : ∀ x e : ℝ, 0 < e → ∃ c : ℚ, |(c : ℝ) - x| ≤ e := by
    intro x e he
    obtain ⟨c, h1, h2⟩ := exists_rat_btwn (show x - e < x + e by linarith)
    exact ⟨c, abs_le.2 ⟨by linarith, by linarith⟩⟩
  have hsq : ∀ q : ℚ, ∃ r : ℚ, 0 ≤ q → |(r : ℝ) - Real.sqrt q| ≤ Real.sqrt q / 2 ^ 24 := by
    intro q
    rcases lt_trichotomy q 0 with h | h | h
    · exact ⟨0, fun h' => absurd h' (by linarith)⟩
    · exact ⟨0, fun _ => by rw [h]; norm_num⟩
    · have h' : (0 : ℝ) < q := by exact_mod_cast h
      obtain ⟨r, hr⟩ := near (Real.sqrt q) (Real.sqrt q / 2 ^ 24) (div_pos (Real.sqrt_pos.2 h') (by norm_num))
      exact ⟨r, fun _ => hr⟩
  choose cs hcs using fun q : ℚ => near (Real.cos (q * Real.pi)) (1 / 2 ^ 24) (by norm_num)
  choose sn hsn using fun q : ℚ => near (Real.sin (q * Real.pi)) (1 / 2 ^ 24) (by norm_num)
  choose sq hsq using hsq
  refine ⟨⟨fun a => match a with | fin q => fin (sq q) | _ => nan, fun a => a, fun q => fin (cs q), fun q => fin (sn q), fin 0,
    fun a => a, fun a => a, fun a => a, fun a => a, fun a => a, fun a => a, fun a _ => a⟩, ?_, ?_, ?_⟩
  · exact fun q => ⟨cs q, rfl, hcs q⟩
  · exact fun q => ⟨sn q, rfl, hsn q⟩
  · exact fun q hq => ⟨sq q, rfl, hsq q hq⟩

theorem norm_cval_le {z : Cx F32} {B : ℝ} (h1 : |val z.r| ≤ B) (h2 : |val z.i| ≤ B) : ‖cval z‖ ≤ 2 * B := by
  have h := Complex.norm_le_abs_re_add_abs_im (cval z)
  have e1 : (cval z).re = val z.r := rfl
  have e2 : (cval z).im = val z.i := rfl
  rw [e1, e2] at h
  linarith

end F32

open F32

/-- **C88.** The mixed radix transform in binary32, both directions, every length up to `2 ^ 20` without prime factors above
five: it returns finite values, and the vector of errors against the exact discrete Fourier transform is at most
`24 log2 n / 2 ^ 24` times the norm of the exact result (which is `sqrt n` times the norm of the input). -/
theorem C88 {el : Elem} (hel : Accurate el) (inverse : Bool) (x : List (Cx F32)) (h2 : 2 ≤ x.length) (hn : x.length ≤ 2 ^ 20)
    (hs : ∀ q, q.Prime → q ∣ x.length → q ≤ 5)
    (hx : ∀ z ∈ x, IsFin z.r ∧ IsFin z.i ∧ |val z.r| ≤ 2 ^ 40 ∧ |val z.i| ≤ 2 ^ 40) :
    ∃ y, @fft F32 (scalar el) inverse x = .ok y ∧ y.length = x.length ∧ (∀ z ∈ y, IsFin z.r ∧ IsFin z.i) ∧
      l2 x.length (fun k => ‖cval (y.getD k ⟨fin 0, fin 0⟩)
          - Fourier.dft inverse x.length (fun j => cval (x.getD j ⟨fin 0, fin 0⟩)) k‖)
        ≤ 24 * Real.logb 2 x.length / 2 ^ 24 *
          (Real.sqrt x.length * (l2 x.length (fun j => ‖cval (x.getD j ⟨fin 0, fin 0⟩)‖) + 1 / 2 ^ 70)) := by
  obtain ⟨fac, hfac, hok⟩ := kfFactor_smooth h2 hs
  obtain ⟨n, hnd⟩ : ∃ n, n = x.length := ⟨_, rfl⟩
  obtain ⟨g, hg⟩ : ∃ g : ℕ → Cx F32, g = fun k => x.getD k ⟨fin 0, fin 0⟩ := ⟨_, rfl⟩
  have hxg : x = (List.range n).map g := by
    rw [hnd, hg]
    exact eq_map_range rfl fun i hi => by rw [getD_of_lt hi]
  have hgx : ∀ k, k < n → IsFin (g k).r ∧ IsFin (g k).i ∧ |val (g k).r| ≤ 2 ^ 40 ∧ |val (g k).i| ≤ 2 ^ 40 := by
    intro k hk
    rw [hg]
    beta_reduce
    rw [getD_of_lt (by omega)]
    exact hx _ (List.getElem_mem _)
  rw [← hnd] at hn hfac hok ⊢
  have hk := kapSum_log hok
  have hn0 : (0 : ℝ) < n := by exact_mod_cast hok.pos
  have hn' : (n : ℝ) ≤ 2 ^ 20 := by exact_mod_cast hn
  have hlog : Real.logb 2 n ≤ 20 := by
    have := Real.logb_le_logb_of_le (b := 2) (by norm_num) hn0 hn'
    rwa [Real.logb_pow, Real.logb_self_eq_one (by norm_num), mul_one] at this
  have hk2 : kapSum fac ≤ 2 ^ 12 := by
    have : (kapSum fac : ℝ) ≤ ((480 : ℕ) : ℝ) := by push_cast; linarith
    have : kapSum fac ≤ 480 := by exact_mod_cast this
    omega
  have hsn : Real.sqrt n ≤ 2 ^ 10 := by
    rw [Real.sqrt_le_iff]
    exact ⟨by norm_num, hn'.trans (by norm_num)⟩
  have htiny : (2 : ℝ) ^ 20 * tiny = 1 / 2 ^ 80 := by rw [tiny]; norm_num
  have hQ1 : l2 n (fun t => ‖cval (g t)‖ + 2 ^ 20 * tiny) ≤ l2 n (fun t => ‖cval (g t)‖) + 1 / 2 ^ 70 := by
    refine (l2_add_le _ _ _).trans ?_
    rw [htiny, l2_const _ (by norm_num)]
    have : Real.sqrt n * (1 / 2 ^ 80) ≤ 2 ^ 10 * (1 / 2 ^ 80) := by gcongr
    norm_num at this ⊢
    linarith
  have hQ2 : l2 n (fun t => ‖cval (g t)‖) ≤ 2 ^ 51 := by
    refine (l2_mono (h := fun _ => 2 * 2 ^ 40) (fun _ _ => norm_nonneg _) fun k hk => ?_).trans ?_
    · exact norm_cval_le (hgx k hk).2.2.1 (hgx k hk).2.2.2
    · rw [l2_const _ (by norm_num)]
      calc Real.sqrt n * (2 * 2 ^ 40) ≤ 2 ^ 10 * (2 * 2 ^ 40) := by gcongr
        _ ≤ 2 ^ 51 := by norm_num
  obtain ⟨O, o1, o2, o3⟩ := fft_near hel (inv := inverse) hfac hok hn hk2 g (fun k hk => ⟨(hgx k hk).1, (hgx k hk).2.1⟩)
    (hQ1.trans (by norm_num at hQ2 ⊢; linarith))
  refine ⟨(List.range n).map O, by rw [hxg]; exact o1, by simp, ?_, ?_⟩
  · intro z hz
    obtain ⟨k, hk, rfl⟩ := List.mem_map.1 hz
    exact o2 k (List.mem_range.1 hk)
  · have e : l2 n (fun k => ‖cval (((List.range n).map O).getD k ⟨fin 0, fin 0⟩)
          - Fourier.dft inverse n (fun j => cval (x.getD j ⟨fin 0, fin 0⟩)) k‖)
        = l2 n (fun k => ‖cval (O k) - Fourier.dft inverse n (fun k => cval (g k)) k‖) := by
      refine l2_congr fun k hk => ?_
      rw [getD_of_lt (by simpa using hk), List.getElem_map, List.getElem_range, hg]
    rw [e]
    have e2 : l2 n (fun j => ‖cval (x.getD j ⟨fin 0, fin 0⟩)‖) = l2 n (fun t => ‖cval (g t)‖) := by rw [hg]
    rw [e2]
    refine o3.trans ?_
    have hl0 := l2_nonneg n (fun t => ‖cval (g t)‖)
    calc Real.sqrt n * (kapSum fac / 2 ^ 24) * l2 n (fun t => ‖cval (g t)‖ + 2 ^ 20 * tiny)
        ≤ Real.sqrt n * (24 * Real.logb 2 n / 2 ^ 24) * (l2 n (fun t => ‖cval (g t)‖) + 1 / 2 ^ 70) := by
          have : 0 ≤ 24 * Real.logb 2 n := (Nat.cast_nonneg _).trans hk
          have := l2_nonneg n (fun t => ‖cval (g t)‖ + 2 ^ 20 * tiny)
          gcongr
      _ = _ := by ring

/-- **C89.** The transform kernel (cosine transform of type IV) in binary32, every configuration: finite results, and the vector
of errors is at most `146 / 2 ^ 24` (less than one in 100 000) of the norm of the exact result, which is `sqrt (2 nf)` times the
norm of the frame. -/
theorem C89 {el : Elem} (hel : Accurate el) (f : SamplingFrequency) (d : FrameDuration) (x : List F32)
    (hl : x.length = (Lc3Config.new f d).nf) (hx : ∀ v ∈ x, IsFin v ∧ |val v| ≤ 2 ^ 40) :
    ∃ y, @dctIv F32 (scalar el) (Lc3Config.new f d).nf x = .ok y ∧ y.length = (Lc3Config.new f d).nf ∧ (∀ v ∈ y, IsFin v) ∧
      l2 (Lc3Config.new f d).nf (fun k => |val (y.getD k (fin 0))
          - 2 * Fourier.dct4 (Lc3Config.new f d).nf (fun j => val (x.getD j (fin 0))) k|)
        ≤ 146 / 2 ^ 24 * (Real.sqrt (2 * (Lc3Config.new f d).nf) *
          (l2 (Lc3Config.new f d).nf (fun j => |val (x.getD j (fin 0))|) + 1 / 2 ^ 70)) := by
  have hs := fftSizes_config f d
  have hsz : (Lc3Config.new f d).nf / 2 ≤ 2 ^ 16 := by cases f <;> cases d <;> decide
  generalize (Lc3Config.new f d).nf = n at *
  obtain ⟨fac, hfac, hok⟩ := kfFactor_sizes _ hs.1
  have hk := kapSum_sizes _ hs.1 fac hfac
  obtain ⟨M, rfl⟩ : ∃ M, n = 2 * M := ⟨n / 2, by omega⟩
  rw [show 2 * M / 2 = M by omega] at *
  obtain ⟨g, hg⟩ : ∃ g : ℕ → F32, g = fun k => x.getD k (fin 0) := ⟨_, rfl⟩
  have hxg : x = (List.range (2 * M)).map g := by
    rw [← hl, hg]
    exact eq_map_range rfl fun i hi => by rw [getD_of_lt hi]
  have hgx : ∀ k, k < 2 * M → IsFin (g k) ∧ |val (g k)| ≤ 2 ^ 40 := by
    intro k hk
    rw [hg]
    beta_reduce
    rw [getD_of_lt (by omega)]
    exact hx _ (List.getElem_mem _)
  have hb : l2 (2 * M) (fun k => |val (g k)|) ≤ 2 ^ 50 := by
    refine (l2_mono (h := fun _ => 2 ^ 40) (fun _ _ => abs_nonneg _) fun k hk => (hgx k hk).2).trans ?_
    rw [l2_const _ (by norm_num)]
    have : Real.sqrt (2 * M : ℕ) ≤ 2 ^ 10 := by
      rw [Real.sqrt_le_iff]
      refine ⟨by positivity, ?_⟩
      have : ((2 * M : ℕ) : ℝ) ≤ ((2 ^ 17 : ℕ) : ℝ) := by exact_mod_cast (by omega : 2 * M ≤ 2 ^ 17)
      refine this.trans ?_
      norm_num
    calc Real.sqrt (2 * M : ℕ) * 2 ^ 40 ≤ 2 ^ 10 * 2 ^ 40 := by gcongr
      _ ≤ 2 ^ 50 := by norm_num
  obtain ⟨y, o1, o2, o3⟩ := dctIv_near hel hfac hok (hsz.trans (by norm_num)) (hk.trans (by norm_num)) (fun k hk => (hgx k hk).1) (hb.trans (by norm_num))
  refine ⟨(List.range (2 * M)).map y, by rw [hxg]; exact o1, by simp, ?_, ?_⟩
  · intro z hz
    obtain ⟨k, hk, rfl⟩ := List.mem_map.1 hz
    exact o2 k (List.mem_range.1 hk)
  · have e : l2 (2 * M) (fun k => |val (((List.range (2 * M)).map y).getD k (fin 0))
          - 2 * Fourier.dct4 (2 * M) (fun j => val (x.getD j (fin 0))) k|)
        = l2 (2 * M) (fun k => |val (y k) - 2 * Fourier.dct4 (2 * M) (fun k => val (g k)) k|) := by
      refine l2_congr fun k hk => ?_
      rw [getD_of_lt (by simpa using hk), List.getElem_map, List.getElem_range, hg]
    have e2 : l2 (2 * M) (fun j => |val (x.getD j (fin 0))|) = l2 (2 * M) (fun t => |val (g t)|) := by rw [hg]
    rw [e, e2]
    refine o3.trans ?_
    have hl0 := l2_nonneg (2 * M) (fun t => |val (g t)|)
    have hs4 : Real.sqrt (2 * ((2 * M : ℕ) : ℝ)) = 2 * Real.sqrt M := by
      rw [show (2 : ℝ) * ((2 * M : ℕ) : ℝ) = 2 ^ 2 * M by push_cast; ring, Real.sqrt_mul (by norm_num), Real.sqrt_sq (by norm_num)]
    rw [hs4]
    have hk' : (kapSum fac : ℝ) ≤ 135 := by exact_mod_cast hk
    calc 2 * Real.sqrt M * ((kapSum fac + 11) / 2 ^ 24) * (l2 (2 * M) (fun k => |val (g k)|) + 1 / 2 ^ 70)
        ≤ 2 * Real.sqrt M * ((135 + 11) / 2 ^ 24) * (l2 (2 * M) (fun k => |val (g k)|) + 1 / 2 ^ 70) := by gcongr
      _ = _ := by ring

/-- **C90.** The encoder's transform in binary32, every configuration, any time buffer and any frame of samples up to the amplitude
`A` (at most 32768): it returns the same buffer as in exact arithmetic and finite lines, and the root mean square error of
the lines against the exact ones is at most `A / 50000`. -/
theorem C90 {el : Elem} (hel : Accurate el) (f : SamplingFrequency) (d : FrameDuration) {A : ℕ} (hA1 : 1 ≤ A) (hA : A ≤ 2 ^ 15)
    {freq x : List Int} (hl : freq.length = 2 * (Lc3Config.new f d).nf) (hx : x.length = (Lc3Config.new f d).nf)
    (hfb : ∀ v ∈ freq, |v| ≤ A) (hxb : ∀ v ∈ x, |v| ≤ A) :
    ∃ (freq' : List Int) (l eb : List ℝ) (nn : Bool) (c eb' : List F32) (nn' : Bool),
      mdctEncRun (Lc3Config.new f d) freq x = .ok (freq', l, eb, nn) ∧
      @mdctEncRun F32 (scalar el) (Lc3Config.new f d) freq x = .ok (freq', c, eb', nn') ∧
      c.length = (Lc3Config.new f d).nf ∧ (∀ v ∈ c, IsFin v) ∧
      l2 (Lc3Config.new f d).nf (fun k => |val (c.getD k (fin 0)) - l.getD k 0|)
        ≤ A / 50000 * Real.sqrt (Lc3Config.new f d).nf := by
  obtain ⟨freq', eb, nn, l, wn, he, hwn, hu, ha, hal⟩ := mdctEncRun_ok hl hx
  obtain ⟨wn', H, -⟩ := mdctOk_config f d
  rw [H.win] at hwn
  cases hwn
  have hfb' := mdctUpdate_bound hu hfb hxb
  obtain ⟨-, hl', -, -⟩ := mdctUpdate_ok H.z hl hu
  have hs := (fftSizes_config f d).1
  have hsz : (Lc3Config.new f d).nf / 2 ≤ 2 ^ 16 := by cases f <;> cases d <;> decide
  have hnf0 : 1 ≤ (Lc3Config.new f d).nf := by cases f <;> cases d <;> decide
  have hw := fun p => window_max H.win p
  have hgen := fun c => @mdctEncRun_gen F32 (scalar el) f d freq freq' x wn c hx H.win hu
  generalize Lc3Config.new f d = cfg at *
  obtain ⟨h, hh⟩ : ∃ h, h = cfg.nf / 2 := ⟨_, rfl⟩
  rw [← hh] at H hs hsz
  have hnf := H.nf
  obtain ⟨fac, hfac, hok⟩ := H.fac
  have hk := kapSum_sizes h hs fac hfac
  have hfg := getD_bound hfb'
  have hf15 : ∀ p, |freq'.getD p 0| ≤ 2 ^ 15 := fun p => (hfg p).trans (by exact_mod_cast hA)
  obtain ⟨c, c1, c2, c3⟩ := mdctApply_near hel hfac hok hsz (hk.trans (by norm_num)) (by omega) H.len hf15 (fun p => (hw p).trans (by norm_num))
  have hF := l2_wsample (h := h) hfg hw
  rw [← hnf] at c1 c3 hF
  obtain ⟨eb', nn', hr⟩ := hgen _ c1 (by simp)
  refine ⟨freq', l, eb, nn, _, eb', nn', he, hr, by simp, ?_, ?_⟩
  · intro z hz
    obtain ⟨k, hk, rfl⟩ := List.mem_map.1 hz
    have := List.mem_range.1 hk
    exact c2 k (by omega)
  · have hlx : l = (List.range (2 * h)).map fun k => 2 * Fourier.dct4 (2 * h) (foldAt h (wsample freq' wn)) k * mdctGain (2 * h) := by
      have := mdctApply_ok hfac hok (freq := freq') (wn := wn) (by omega) H.len
      rw [← hnf, ha] at this
      rw [Res.ok.inj this, hnf]
    have e : l2 cfg.nf (fun k => |val (((List.range cfg.nf).map c).getD k (fin 0)) - l.getD k 0|)
        = l2 cfg.nf (fun k => |val (c k) - 2 * Fourier.dct4 cfg.nf (foldAt h (wsample freq' wn)) k * mdctGain cfg.nf|) := by
      refine l2_congr fun k hk => ?_
      rw [getD_of_lt (by simpa using hk), List.getElem_map, List.getElem_range, getD_of_lt (by rw [hal]; exact hk)]
      simp only [hlx, List.getElem_map, List.getElem_range, hnf]
    rw [e]
    refine c3.trans ?_
    have hk' : (kapSum fac : ℝ) ≤ 135 := by exact_mod_cast hk
    obtain ⟨S, hS⟩ : ∃ S, S = Real.sqrt (cfg.nf : ℝ) := ⟨_, rfl⟩
    rw [← hS] at hF ⊢
    have hS1 : 1 ≤ S := by
      rw [hS, Real.one_le_sqrt]; exact_mod_cast hnf0
    have hA' : (1 : ℝ) ≤ A := by exact_mod_cast hA1
    have hAS : 1 ≤ (A : ℝ) * S := by nlinarith
    calc ((kapSum fac : ℝ) + 18) / 2 ^ 24 * (Real.sqrt 2 * l2 (4 * h) (fun p => |wsample freq' wn p|) + 1 / 2 ^ 60)
        ≤ (135 + 18) / 2 ^ 24 * (266 / 125 * (A * S) + 1 / 2 ^ 60) := by
          have := l2_nonneg (4 * h) (fun p => |wsample freq' wn p|)
          gcongr
      _ ≤ 1 / 50000 * (A * S) := by
        norm_num
        linarith
      _ = _ := by ring

/-- **C91.** Analysis followed by synthesis in binary32, both from their initial state, any number of frames of samples up to the
amplitude `A` (at most 32768), every configuration. When the exact lines the bit stream does not carry are zero, all output
samples are finite, and in every frame the root mean square difference between the output and the input delayed by `nf - 2 z`
samples is at most `A / 8192`. -/
theorem C91 {el : Elem} (hel : Accurate el) (f : SamplingFrequency) (d : FrameDuration) {A : ℕ} (hA1 : 1 ≤ A) (hA : A ≤ 2 ^ 15)
    {frames : List (List Int)} (hx : ∀ x ∈ frames, x.length = (Lc3Config.new f d).nf ∧ ∀ v ∈ x, |v| ≤ A) {lines : List (List ℝ)}
    (ha : analyse (Lc3Config.new f d) (List.replicate (2 * (Lc3Config.new f d).nf) 0) frames = .ok lines)
    (hzero : ∀ l ∈ lines, ∀ v ∈ l.drop (Lc3Config.new f d).ne, v = 0) :
    ∃ cs outs, @analyseS F32 (scalar el) (Lc3Config.new f d) (List.replicate (2 * (Lc3Config.new f d).nf) 0) frames = .ok cs ∧
      @synthesiseS F32 (scalar el) (Lc3Config.new f d) (List.replicate ((Lc3Config.new f d).nf - (Lc3Config.new f d).z) (fin 0))
        (cs.map (·.take (Lc3Config.new f d).ne)) = .ok outs ∧
      outs.length = frames.length ∧ ∀ k (hk : k < outs.length), outs[k].length = (Lc3Config.new f d).nf ∧ (∀ v ∈ outs[k], IsFin v) ∧
        l2 (Lc3Config.new f d).nf (fun j => |val (outs[k].getD j (fin 0)) -
            (if k * (Lc3Config.new f d).nf + j < (Lc3Config.new f d).nf - 2 * (Lc3Config.new f d).z then 0
              else (frames.flatten.getD (k * (Lc3Config.new f d).nf + j - ((Lc3Config.new f d).nf - 2 * (Lc3Config.new f d).z)) 0 : ℝ))|)
          ≤ A / 8192 * Real.sqrt (Lc3Config.new f d).nf := by
  obtain ⟨wn, H, hwt⟩ := mdctOk_config f d
  have h0 : ∀ (n p : Nat), (List.replicate n (0 : Int)).getD p 0 = 0 := by
    intro n p
    rw [List.getD_eq_getElem?_getD, List.getElem?_replicate]
    split <;> rfl
  have h0f : ∀ (n p : Nat), (List.replicate n (fin 0)).getD p (fin 0) = fin 0 := by
    intro n p
    rw [List.getD_eq_getElem?_getD, List.getElem?_replicate]
    split <;> rfl
  have hal : ∀ p, aliasAt (Lc3Config.new f d).nf (List.replicate (2 * (Lc3Config.new f d).nf) 0) wn p = 0 := by
    intro p
    unfold aliasAt wsample
    rw [h0, h0, h0]
    simp
  have hz := H.z
  obtain ⟨cs, outs, i1, i2, i3, i4⟩ := synth_near hel H hwt hA1 hA frames (List.replicate (2 * (Lc3Config.new f d).nf) 0)
    (List.replicate (Lc3Config.new f d).nf 0) (List.replicate ((Lc3Config.new f d).nf - (Lc3Config.new f d).z) (fin 0)) lines hx
    (by simp) (by
      intro v hv
      rw [List.eq_of_mem_replicate hv]
      simp) (by simp) (by intro p _; rw [h0, h0]) (by simp) (by intro j _; rw [h0f]; exact ⟨0, rfl⟩) (by
      have e : l2 ((Lc3Config.new f d).nf - (Lc3Config.new f d).z) (fun j => |val ((List.replicate ((Lc3Config.new f d).nf - (Lc3Config.new f d).z) (fin 0)).getD j (fin 0))
        - aliasAt (Lc3Config.new f d).nf (List.replicate (2 * (Lc3Config.new f d).nf) 0) wn ((Lc3Config.new f d).nf + (Lc3Config.new f d).z + j)|)
        = l2 ((Lc3Config.new f d).nf - (Lc3Config.new f d).z) (fun _ => 0) := by
        refine l2_congr fun j _ => ?_
        rw [h0f, hal]
        show |((0 : ℚ) : ℝ) - 0| = 0
        simp
      rw [e, l2_const _ le_rfl, mul_zero, memTol]
      positivity) ha hzero
  refine ⟨cs, outs, i1, i2, i3, fun k hk => ?_⟩
  obtain ⟨j1, j2, j3⟩ := i4 k hk
  refine ⟨j1, j2, le_trans (le_of_eq (l2_congr fun j hj => ?_)) j3⟩
  generalize Lc3Config.new f d = cfg at *
  congr 2
  by_cases hc : k * cfg.nf + j < cfg.nf - 2 * cfg.z
  · rw [if_pos hc]
    have : (List.replicate cfg.nf (0 : Int) ++ frames.flatten).getD (k * cfg.nf + j + 2 * cfg.z) 0 = 0 := by
      rw [List.getD_eq_getElem?_getD, List.getElem?_append_left (by simp; omega), ← List.getD_eq_getElem?_getD, h0]
    rw [this]
    simp
  · rw [if_neg hc]
    congr 1
    simp only [List.getD_eq_getElem?_getD]
    rw [List.getElem?_append_right (by simp; omega)]
    congr 2
    rw [List.length_replicate]
    omega

/-- non-trivial instance of `C91`: at 16 kHz with 10 ms frames every sequence of frames of 16 bit samples satisfies the hypotheses,
for some elementary functions -/
example (frames : List (List Int)) (h : ∀ x ∈ frames, x.length = 160 ∧ ∀ v ∈ x, |v| ≤ 32768) :
    ∃ el cs outs, Accurate el ∧ @analyseS F32 (scalar el) (Lc3Config.new .hz16000 .tenMs) (List.replicate 320 0) frames = .ok cs ∧
      @synthesiseS F32 (scalar el) (Lc3Config.new .hz16000 .tenMs) (List.replicate 100 (fin 0)) (cs.map (·.take 160)) = .ok outs ∧
      ∀ o ∈ outs, ∀ v ∈ o, IsFin v := by
  obtain ⟨el, hel⟩ := exists_accurate
  have e1 : (Lc3Config.new .hz16000 .tenMs).nf = 160 := by decide
  have e2 : (Lc3Config.new .hz16000 .tenMs).ne = 160 := by decide
  have e3 : (Lc3Config.new .hz16000 .tenMs).z = 60 := by decide
  obtain ⟨lines, ha, -, hl⟩ := C37_analysis .hz16000 .tenMs frames (List.replicate (2 * (Lc3Config.new .hz16000 .tenMs).nf) 0)
    (by rw [e1]; exact fun x hx => (h x hx).1) (by simp)
  have hz := C37_all_lines (f := .hz16000) ⟨by decide, by decide⟩ hl
  obtain ⟨cs, outs, i1, i2, i3, i4⟩ := C91 hel .hz16000 .tenMs (A := 32768) (by norm_num) (by norm_num) (frames := frames)
    (by rw [e1]; exact h) ha hz
  rw [e1] at i1 i2
  rw [e2, e3] at i2
  refine ⟨el, cs, outs, hel, i1, i2, fun o ho v hv => ?_⟩
  obtain ⟨k, hk, rfl⟩ := List.mem_iff_getElem.1 ho
  exact (i4 k hk).2.1 v hv

/-- non-trivial instance of `C88`: four binary32 values, one oscillation -/
example : ∃ el y, Accurate el ∧
    @fft F32 (scalar el) false [⟨fin 1, fin 0⟩, ⟨fin 0, fin 1⟩, ⟨fin (-1), fin 0⟩, ⟨fin 0, fin (-1)⟩] = .ok y ∧ y.length = 4 := by
  obtain ⟨el, hel⟩ := exists_accurate
  obtain ⟨y, h1, h2, -⟩ := C88 hel false [⟨fin 1, fin 0⟩, ⟨fin 0, fin 1⟩, ⟨fin (-1), fin 0⟩, ⟨fin 0, fin (-1)⟩] (by simp) (by simp)
    (by
      intro q hq hd
      have := hq.dvd_of_dvd_pow (show q ∣ 2 ^ 2 by simpa using hd)
      have := Nat.le_of_dvd (by decide) this
      omega)
    (by
      have hf : ∀ q, IsFin (fin q) := fun q => ⟨q, rfl⟩
      intro z hz
      simp only [List.mem_cons, List.not_mem_nil, or_false] at hz
      rcases hz with rfl | rfl | rfl | rfl <;> refine ⟨hf _, hf _, ?_, ?_⟩ <;> norm_num [F32.val])
  exact ⟨el, y, hel, h1, by simpa using h2⟩

end Lc3
