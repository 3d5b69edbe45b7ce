import Verif.Lemmas.FftErr
import Verif.Lemmas.Dct
/-! Rounding errors of the cosine transform in binary32. -/

namespace Lc3
open Scalar Finset

theorem dft_sub (inv : Bool) (n : ℕ) (u v : ℕ → ℂ) (k : ℕ) :
    Fourier.dft inv n u k - Fourier.dft inv n v k = Fourier.dft inv n (fun j => u j - v j) k := by
  unfold Fourier.dft
  rw [← Finset.sum_sub_distrib]
  exact Finset.sum_congr rfl fun j _ => by ring

theorem dft_omega (inv : Bool) (n : ℕ) (v : ℕ → ℂ) (k : ℕ) :
    Fourier.dft inv n v k = ∑ j ∈ range n, v j * omega inv n ^ (j * k) := by
  unfold Fourier.dft
  refine Finset.sum_congr rfl fun j _ => ?_
  rw [omega_pow]
  congr 3
  push_cast
  ring

theorem l2_dft (inv : Bool) (n : ℕ) (v : ℕ → ℂ) :
    l2 n (fun k => ‖Fourier.dft inv n v k‖) = Real.sqrt n * l2 n (fun k => ‖v k‖) := by
  unfold l2
  rw [← Real.sqrt_mul (by positivity), ← parseval inv]
  simp only [dft_omega]

theorem norm_dctTw (M i : ℕ) : ‖dctTw M i‖ = 1 := by
  unfold dctTw
  rw [Complex.norm_exp_ofReal_mul_I]

namespace F32
variable {el : Elem}

theorem dctTw_near (hel : Accurate el) {M k : ℕ} (hk : k < M) :
    ∃ t, idx (@dctTwiddle F32 (scalar el) M) k = .ok t ∧ Nr (3 / 2) 1 t (ofC (dctTw M k)) := by
  have h1 : idx (dctTwiddle M : List (Cx ℝ)) k = .ok (ofC (dctTw M k)) := by
    rw [dctTwiddle_eq, idx_map_range _ hk]
  have h2 : idx (dctTwiddle M : List (Cx ℝ)) k = .ok
      ⟨Real.cos ((-(8 * (k : ℚ) + 1) / (8 * M * 2) : ℚ) * Real.pi), Real.sin ((-(8 * (k : ℚ) + 1) / (8 * M * 2) : ℚ) * Real.pi)⟩ := by
    unfold dctTwiddle
    rw [idx_map_range _ hk]
    rfl
  rw [h1, Res.ok.injEq] at h2
  obtain ⟨q, hq⟩ : ∃ q : ℚ, q = -(8 * (k : ℚ) + 1) / (8 * M * 2) := ⟨_, rfl⟩
  rw [← hq] at h2
  obtain ⟨c, hc, ec⟩ := hel.cosPi q
  obtain ⟨s, hs, es⟩ := hel.sinPi q
  have er : (dctTw M k).re = Real.cos (q * Real.pi) := congrArg Cx.r h2
  have ei : (dctTw M k).im = Real.sin (q * Real.pi) := congrArg Cx.i h2
  refine ⟨⟨fin c, fin s⟩, ?_, ⟨c, rfl⟩, ⟨s, rfl⟩, by norm_num, by norm_num, ?_, ?_⟩
  · unfold dctTwiddle
    rw [idx_map_range _ hk]
    show Res.ok (⟨el.cosPi _, el.sinPi _⟩ : Cx F32) = _
    rw [← hq, hc, hs]
  · rw [toC_ofC, norm_dctTw]
  · rw [toC_ofC]
    have := norm_le_comp (e := cval ⟨fin c, fin s⟩ - dctTw M k) (c := 1 / 2 ^ 24) (by norm_num)
      (by rw [Complex.sub_re, er]; exact ec) (by rw [Complex.sub_im, ei]; exact es)
    refine this.trans ?_
    norm_num

theorem rnd_two : rnd 2 = fin 2 := by
  rw [rnd_fin (by rw [abs_of_pos (by norm_num)]; norm_num), rndQ_rep ⟨1, 1, by norm_num, by norm_num, by norm_num⟩]

/-- a doubled value -/
theorem dbl_val {a : F32} (ha : IsFin a) (h : |val a| ≤ 2 ^ 120) :
    IsFin (mul a (rnd 2)) ∧ |val (mul a (rnd 2)) - 2 * val a| ≤ |val a| * (2 / 2 ^ 24) + 1 / 2 ^ 150 := by
  rw [rnd_two]
  have e : val a * val (fin 2) = 2 * val a := by
    show val a * ((2 : ℚ) : ℝ) = _
    push_cast; ring
  have := mul_val ha (b := fin 2) ⟨2, rfl⟩ (by rw [e, abs_mul, abs_two]; norm_num at h ⊢; linarith)
  rw [e] at this
  refine ⟨this.1, this.2.trans (le_of_eq ?_)⟩
  rw [abs_mul, abs_two]
  ring

/-- the input pairs of the inner transform -/
noncomputable def pairs (M : ℕ) (x : ℕ → ℝ) (n : ℕ) : ℂ := ⟨x (2 * n), x (2 * M - 2 * n - 1)⟩

theorem l2_pairs (M : ℕ) (x : ℕ → ℝ) : l2 M (fun n => ‖pairs M x n‖) = l2 (2 * M) (fun k => |x k|) := by
  unfold l2
  rw [sum_fold]
  congr 1
  refine Finset.sum_congr rfl fun n _ => ?_
  rw [← Complex.normSq_eq_norm_sq, Complex.normSq_apply, sq_abs, sq_abs]
  show x (2 * n) * x (2 * n) + x (2 * M - 2 * n - 1) * x (2 * M - 2 * n - 1) = _
  ring

/-- the inputs of the inner transform -/
theorem dctIn_near (hel : Accurate el) {M : ℕ} {x : ℕ → F32} (hx : ∀ k, k < 2 * M → IsFin (x k))
    (hb : l2 (2 * M) (fun k => |val (x k)|) ≤ 2 ^ 96) :
    ∃ z : ℕ → Cx F32, (List.range M).mapM (@dctIn F32 (scalar el) (2 * M) ((List.range (2 * M)).map x) (@dctTwiddle F32 (scalar el) M))
        = .ok ((List.range M).map z) ∧
      ∀ n, n < M → Within (451 / 100 * (‖pairs M (fun k => val (x k)) n‖ + tiny) / 2 ^ 24) (z n)
        (dctTw M n * pairs M (fun k => val (x k)) n) := by
  have hn : ∀ n, ∃ z : Cx F32, n < M → @dctIn F32 (scalar el) (2 * M) ((List.range (2 * M)).map x) (@dctTwiddle F32 (scalar el) M) n = .ok z ∧
      Within (451 / 100 * (‖pairs M (fun k => val (x k)) n‖ + tiny) / 2 ^ 24) z (dctTw M n * pairs M (fun k => val (x k)) n) := by
    intro n
    by_cases h : n < M
    · obtain ⟨t, ht, nt⟩ := dctTw_near hel h
      have hp : ‖pairs M (fun k => val (x k)) n‖ ≤ 2 ^ 96 := by
        have := le_l2 (fun n => ‖pairs M (fun k => val (x k)) n‖) h
        rw [l2_pairs] at this
        exact this.trans hb
      have N := nt.mul' (in_near (z := ⟨x (2 * n), x (2 * M - 2 * n - 1)⟩) ⟨hx _ (by omega), hx _ (by omega)⟩) (by norm_num)
        (by
          show ‖pairs M (fun k => val (x k)) n‖ + tiny ≤ _
          unfold tiny
          norm_num at hp ⊢
          linarith)
      refine ⟨_, fun _ => ⟨?_, N.within (w := dctTw M n * pairs M (fun k => val (x k)) n) ?_ ?_⟩⟩
      · letI := scalar el
        unfold dctIn
        rw [ht, Res.bind_ok, idx_map_range _ (by omega), Res.bind_ok, usub, if_pos (by omega),
          Res.bind_ok, usub, if_pos (by omega), Res.bind_ok, idx_map_range _ (by omega), Res.bind_ok]
        rfl
      · rw [← ofC_mul]
        rfl
      · show (0 + 451 / 100) * (‖pairs M (fun k => val (x k)) n‖ + tiny) ≤ _
        linarith
    · exact ⟨⟨nan, nan⟩, fun h' => absurd h' h⟩
  choose z hz using hn
  exact ⟨z, mapM_range_ok fun n h => (hz n h).1, fun n h => (hz n h).2⟩

/-- one pair of outputs -/
theorem dctOut_pair (hel : Accurate el) {M : ℕ} {o : ℕ → Cx F32} {w : ℂ} {j : ℕ} (hj : j < M)
    (ho : IsFin (o j).r ∧ IsFin (o j).i) (hb : ‖cval (o j)‖ ≤ 2 ^ 108) :
    ∃ a b, @dctOut F32 (scalar el) (2 * M) ((List.range M).map o) (@dctTwiddle F32 (scalar el) M) (2 * j) = .ok a ∧
      @dctOut F32 (scalar el) (2 * M) ((List.range M).map o) (@dctTwiddle F32 (scalar el) M) (2 * M - 2 * j - 1) = .ok b ∧
      IsFin a ∧ IsFin b ∧
      ‖(⟨val a - 2 * (dctTw M j * w).re, val b + 2 * (dctTw M j * w).im⟩ : ℂ)‖
        ≤ 2 * ‖cval (o j) - w‖ + 2 * (553 / 100 / 2 ^ 24) * (‖cval (o j)‖ + tiny) := by
  obtain ⟨t, ht, nt⟩ := dctTw_near hel hj
  have hm : ‖cval (o j)‖ + tiny ≤ 2 ^ 109 := by
    unfold tiny
    norm_num at hb ⊢
    linarith
  have ht0 : 0 < tiny := by unfold tiny; positivity
  have N := nt.mul' (in_near ho) (by norm_num) (by norm_num at hm ⊢; linarith)
  have hs : ‖cval (cmul t (o j))‖ ≤ (‖cval (o j)‖ + tiny) * (1 + 5 / 2 ^ 24) := by
    refine N.norm_le.trans ?_
    have : 0 ≤ ‖cval (o j)‖ + tiny := by positivity
    norm_num at this ⊢
    linarith
  have hs2 : ‖cval (cmul t (o j))‖ ≤ 2 ^ 120 := by
    refine hs.trans ?_
    norm_num at hm ⊢
    linarith
  obtain ⟨ni, nv⟩ := neg_val N.fi
  have d1 := dbl_val N.fr ((Complex.abs_re_le_norm (cval (cmul t (o j)))).trans hs2)
  have d2 := dbl_val ni (by rw [nv, abs_neg]; exact (Complex.abs_im_le_norm (cval (cmul t (o j)))).trans hs2)
  rw [nv, abs_neg] at d2
  refine ⟨mul (cmul t (o j)).r (rnd 2), mul (F32.neg (cmul t (o j)).i) (rnd 2), ?_, ?_, d1.1, d2.1, ?_⟩
  · letI := scalar el
    unfold dctOut
    rw [if_pos (by omega), show 2 * j / 2 = j by omega, ht, Res.bind_ok, idx_map_range _ hj, Res.bind_ok]
    rfl
  · letI := scalar el
    unfold dctOut
    have e : (2 * M - 1 - (2 * M - 2 * j - 1)) / 2 = j := by omega
    rw [if_neg (by omega)]
    simp only [e]
    rw [ht, Res.bind_ok, idx_map_range _ hj, Res.bind_ok]
    rfl
  · have er := N.er
    have etw : toC (ofC (dctTw M j) * ofC (cval (o j))) = dctTw M j * cval (o j) := by rw [ofC_mul, toC_ofC]
    have er2 : ‖cval (cmul t (o j)) - dctTw M j * cval (o j)‖ ≤ (0 + 451 / 100) * (‖cval (o j)‖ + tiny) / 2 ^ 24 := by
      rw [← etw]; exact er
    have e3 : ‖dctTw M j * cval (o j) - dctTw M j * w‖ = ‖cval (o j) - w‖ := by
      rw [← mul_sub, norm_mul, norm_dctTw, one_mul]
    generalize cval (o j) = O at *
    obtain ⟨S, hS⟩ : ∃ S, S = cval (cmul t (o j)) := ⟨_, rfl⟩
    have hSr : val (cmul t (o j)).r = S.re := by rw [hS]; rfl
    have hSi : val (cmul t (o j)).i = S.im := by rw [hS]; rfl
    rw [← hS] at hs er2
    rw [hSr] at d1
    rw [hSi] at d2
    generalize mul (cmul t (o j)).r (rnd 2) = A at *
    generalize mul (F32.neg (cmul t (o j)).i) (rnd 2) = B at *
    have r1 : ‖(⟨val A - 2 * S.re, val B + 2 * S.im⟩ : ℂ)‖ ≤ ‖S‖ * (2 / 2 ^ 24) + 2 * (1 / 2 ^ 150) := by
      refine norm_comp (by positivity) (by positivity) d1.2 ?_
      have := d2.2
      rw [mul_neg, sub_neg_eq_add] at this
      exact this
    have hc : ∀ z : ℂ, ‖(⟨2 * z.re, -(2 * z.im)⟩ : ℂ)‖ = 2 * ‖z‖ := by
      intro z
      have : (⟨2 * z.re, -(2 * z.im)⟩ : ℂ) = 2 * (starRingEnd ℂ) z := by
        apply Complex.ext <;> simp
      rw [this, norm_mul, RCLike.norm_conj]
      norm_num
    have e4 : (⟨val A - 2 * (dctTw M j * w).re, val B + 2 * (dctTw M j * w).im⟩ : ℂ)
        = ⟨val A - 2 * S.re, val B + 2 * S.im⟩ + ⟨2 * (S - dctTw M j * w).re, -(2 * (S - dctTw M j * w).im)⟩ := by
      apply Complex.ext
      · simp only [Complex.add_re, Complex.sub_re]; ring
      · simp only [Complex.add_im, Complex.sub_im]; ring
    rw [e4]
    refine (norm_add_le _ _).trans ?_
    rw [hc]
    have e5 : ‖S - dctTw M j * w‖ ≤ ‖S - dctTw M j * O‖ + ‖O - w‖ := by
      rw [← e3]
      exact norm_sub_le_norm_sub_add_norm_sub _ _ _
    have h0 := norm_nonneg O
    unfold tiny at *
    norm_num at hs er2 r1 ⊢
    linarith

theorem dctIv_near (hel : Accurate el) {M : ℕ} {fac : List (ℕ × ℕ)} (hfac : kfFactor M = .ok fac) (h : FacOk fac M)
    (hM : M ≤ 2 ^ 18) (hk : kapSum fac ≤ 1000) {x : ℕ → F32} (hx : ∀ k, k < 2 * M → IsFin (x k))
    (hb : l2 (2 * M) (fun k => |val (x k)|) ≤ 2 ^ 96) :
    ∃ y : ℕ → F32, @dctIv F32 (scalar el) (2 * M) ((List.range (2 * M)).map x) = .ok ((List.range (2 * M)).map y) ∧
      (∀ k, k < 2 * M → IsFin (y k)) ∧
      l2 (2 * M) (fun k => |val (y k) - 2 * Fourier.dct4 (2 * M) (fun k => val (x k)) k|)
        ≤ 2 * Real.sqrt M * ((kapSum fac + 11) / 2 ^ 24) * (l2 (2 * M) (fun k => |val (x k)|) + 1 / 2 ^ 70) := by
  have hMp := h.pos
  have ht0 : 0 < tiny := by unfold tiny; positivity
  obtain ⟨z, hz, hzw⟩ := dctIn_near hel hx hb
  obtain ⟨P, hP⟩ : ∃ P, P = pairs M (fun k => val (x k)) := ⟨_, rfl⟩
  rw [← hP] at hzw
  have hPl : l2 M (fun n => ‖P n‖) = l2 (2 * M) (fun k => |val (x k)|) := by rw [hP, l2_pairs]
  obtain ⟨L, hL⟩ : ∃ L, L = l2 (2 * M) (fun k => |val (x k)|) := ⟨_, rfl⟩
  rw [← hL] at hb hPl ⊢
  have hL0 : 0 ≤ L := by rw [hL]; exact l2_nonneg _ _
  have hsM : Real.sqrt M ≤ 2 ^ 9 := by
    rw [Real.sqrt_le_iff]
    refine ⟨by positivity, ?_⟩
    have : (M : ℝ) ≤ 2 ^ 18 := by exact_mod_cast hM
    refine this.trans ?_
    norm_num
  have hsM0 : 0 ≤ Real.sqrt M := Real.sqrt_nonneg _
  have hsM1 : 1 ≤ Real.sqrt M := by
    rw [Real.one_le_sqrt]
    exact_mod_cast hMp
  -- error of the inputs
  have hE0 : l2 M (fun n => ‖cval (z n) - dctTw M n * P n‖) ≤ 451 / 100 / 2 ^ 24 * (L + 1 / 2 ^ 80) := by
    have h1 : l2 M (fun n => ‖cval (z n) - dctTw M n * P n‖) ≤ l2 M (fun n => 451 / 100 / 2 ^ 24 * (‖P n‖ + tiny)) := by
      refine l2_mono (fun _ _ => norm_nonneg _) fun n hn => ?_
      refine (hzw n hn).2.trans (le_of_eq ?_)
      ring
    rw [l2_smul _ _ (by norm_num)] at h1
    refine h1.trans ?_
    have h2 := l2_add_le M (fun n => ‖P n‖) (fun _ => tiny)
    rw [l2_const _ ht0.le, hPl] at h2
    have h3 : Real.sqrt M * tiny ≤ 1 / 2 ^ 80 := by
      refine (mul_le_mul_of_nonneg_right hsM ht0.le).trans ?_
      unfold tiny; norm_num
    gcongr
    linarith
  have hZ : l2 M (fun n => ‖cval (z n)‖ + 2 ^ 20 * tiny) ≤ (L + 1 / 2 ^ 71) * (1 + 5 / 2 ^ 24) := by
    have h1 : l2 M (fun n => ‖cval (z n)‖ + 2 ^ 20 * tiny)
        ≤ l2 M (fun n => (‖P n‖ + ‖cval (z n) - dctTw M n * P n‖) + 2 ^ 20 * tiny) := by
      refine l2_mono (fun _ _ => by positivity) fun n _ => ?_
      have := norm_le_insert' (cval (z n)) (dctTw M n * P n)
      rw [norm_mul, norm_dctTw, one_mul] at this
      linarith
    have h2 := l2_add_le M (fun n => ‖P n‖ + ‖cval (z n) - dctTw M n * P n‖) (fun _ => 2 ^ 20 * tiny)
    have h3 := l2_add_le M (fun n => ‖P n‖) (fun n => ‖cval (z n) - dctTw M n * P n‖)
    rw [l2_const _ (by positivity)] at h2
    have h4 : Real.sqrt M * (2 ^ 20 * tiny) ≤ 1 / 2 ^ 71 := by
      refine (mul_le_mul_of_nonneg_right hsM (by positivity)).trans ?_
      unfold tiny; norm_num
    rw [hPl] at h3
    norm_num at hE0 h2 h3 h4 h1 hL0 ⊢
    linarith
  obtain ⟨o, ho1, ho2, ho3⟩ := fft_near hel (inv := false) hfac h (hM.trans (by norm_num)) (hk.trans (by norm_num)) z
    (fun k hk => (hzw k hk).1) (hZ.trans (by norm_num at hb ⊢; linarith))
  -- the exact transform
  obtain ⟨D, hD⟩ : ∃ D, D = Fourier.dft false M (fun n => dctTw M n * P n) := ⟨_, rfl⟩
  have hDl : l2 M (fun k => ‖D k‖) = Real.sqrt M * L := by
    rw [hD, l2_dft, ← hPl]
    simp only [norm_mul, norm_dctTw, one_mul]
  have hE1 : l2 M (fun k => ‖cval (o k) - D k‖)
      ≤ Real.sqrt M * ((kapSum fac + 5) / 2 ^ 24 * (L + 1 / 2 ^ 71)) := by
    have h1 : l2 M (fun k => ‖cval (o k) - D k‖)
        ≤ l2 M (fun k => ‖cval (o k) - Fourier.dft false M (fun k => cval (z k)) k‖)
          + l2 M (fun k => ‖Fourier.dft false M (fun k => cval (z k)) k - D k‖) := by
      refine le_trans (l2_mono (fun k _ => norm_nonneg _) fun k _ => ?_) (l2_add_le _ _ _)
      exact norm_sub_le_norm_sub_add_norm_sub _ _ _
    have h2 : l2 M (fun k => ‖Fourier.dft false M (fun k => cval (z k)) k - D k‖)
        = Real.sqrt M * l2 M (fun n => ‖cval (z n) - dctTw M n * P n‖) := by
      rw [hD, ← l2_dft false]
      simp only [dft_sub]
    rw [h2] at h1
    have hk' : (kapSum fac : ℝ) ≤ 1000 := by exact_mod_cast hk
    have hk0 : (0 : ℝ) ≤ kapSum fac := by positivity
    have h3 : Real.sqrt M * (kapSum fac / 2 ^ 24) * l2 M (fun n => ‖cval (z n)‖ + 2 ^ 20 * tiny)
        ≤ Real.sqrt M * (kapSum fac / 2 ^ 24) * ((L + 1 / 2 ^ 71) * (1 + 5 / 2 ^ 24)) := by gcongr
    have h4 : Real.sqrt M * l2 M (fun n => ‖cval (z n) - dctTw M n * P n‖)
        ≤ Real.sqrt M * (451 / 100 / 2 ^ 24 * (L + 1 / 2 ^ 71)) := by
      gcongr
      refine hE0.trans ?_
      gcongr <;> norm_num
    have h5 : Real.sqrt M * (kapSum fac / 2 ^ 24) * ((L + 1 / 2 ^ 71) * (1 + 5 / 2 ^ 24))
        ≤ Real.sqrt M * ((kapSum fac + 4 / 10) / 2 ^ 24 * (L + 1 / 2 ^ 71)) := by
      have : (kapSum fac / 2 ^ 24 : ℝ) * (1 + 5 / 2 ^ 24) ≤ (kapSum fac + 4 / 10) / 2 ^ 24 := by
        norm_num
        linarith
      calc Real.sqrt M * (kapSum fac / 2 ^ 24) * ((L + 1 / 2 ^ 71) * (1 + 5 / 2 ^ 24))
          = Real.sqrt M * ((kapSum fac / 2 ^ 24) * (1 + 5 / 2 ^ 24) * (L + 1 / 2 ^ 71)) := by ring
        _ ≤ _ := by gcongr
    have h6 : Real.sqrt M * ((kapSum fac + 4 / 10) / 2 ^ 24 * (L + 1 / 2 ^ 71)) + Real.sqrt M * (451 / 100 / 2 ^ 24 * (L + 1 / 2 ^ 71))
        = Real.sqrt M * ((kapSum fac + 491 / 100) / 2 ^ 24 * (L + 1 / 2 ^ 71)) := by ring
    have h7 : Real.sqrt M * ((kapSum fac + 491 / 100) / 2 ^ 24 * (L + 1 / 2 ^ 71))
        ≤ Real.sqrt M * ((kapSum fac + 5) / 2 ^ 24 * (L + 1 / 2 ^ 71)) := by
      have : (kapSum fac + 491 / 100 : ℝ) ≤ kapSum fac + 5 := by linarith
      gcongr
    linarith
  have hO : l2 M (fun k => ‖cval (o k)‖ + tiny) ≤ Real.sqrt M * ((L + 1 / 2 ^ 70) * (1 + 1005 / 2 ^ 24)) := by
    have h1 : l2 M (fun k => ‖cval (o k)‖ + tiny) ≤ l2 M (fun k => (‖D k‖ + ‖cval (o k) - D k‖) + tiny) := by
      refine l2_mono (fun _ _ => by positivity) fun n _ => ?_
      have := norm_le_insert' (cval (o n)) (D n)
      linarith
    have h2 := l2_add_le M (fun n => ‖D n‖ + ‖cval (o n) - D n‖) (fun _ => tiny)
    have h3 := l2_add_le M (fun n => ‖D n‖) (fun n => ‖cval (o n) - D n‖)
    rw [l2_const _ (by positivity)] at h2
    rw [hDl] at h3
    have hk' : (kapSum fac : ℝ) ≤ 1000 := by exact_mod_cast hk
    have h5 : Real.sqrt M * ((kapSum fac + 5) / 2 ^ 24 * (L + 1 / 2 ^ 71)) ≤ Real.sqrt M * (1005 / 2 ^ 24 * (L + 1 / 2 ^ 71)) := by
      gcongr
      linarith
    have h6 : Real.sqrt M * L + Real.sqrt M * (1005 / 2 ^ 24 * (L + 1 / 2 ^ 71)) + Real.sqrt M * tiny
        = Real.sqrt M * (L + 1005 / 2 ^ 24 * (L + 1 / 2 ^ 71) + tiny) := by ring
    have h7 : Real.sqrt M * (L + 1005 / 2 ^ 24 * (L + 1 / 2 ^ 71) + tiny)
        ≤ Real.sqrt M * ((L + 1 / 2 ^ 70) * (1 + 1005 / 2 ^ 24)) := by
      refine mul_le_mul_of_nonneg_left ?_ hsM0
      unfold tiny
      norm_num
      linarith
    linarith
  have hmax : ∀ k, k < M → ‖cval (o k)‖ ≤ 2 ^ 108 := by
    intro k hk
    have h1 := le_l2 (fun k => ‖cval (o k)‖ + tiny) hk
    have h2 : Real.sqrt M * ((L + 1 / 2 ^ 70) * (1 + 1005 / 2 ^ 24)) ≤ 2 ^ 9 * ((2 ^ 96 + 1 / 2 ^ 70) * (1 + 1005 / 2 ^ 24)) := by
      gcongr
    norm_num at h1 h2 hO ⊢
    linarith
  -- outputs
  have hpair : ∀ j, ∃ a b : F32, j < M →
      @dctOut F32 (scalar el) (2 * M) ((List.range M).map o) (@dctTwiddle F32 (scalar el) M) (2 * j) = .ok a ∧
      @dctOut F32 (scalar el) (2 * M) ((List.range M).map o) (@dctTwiddle F32 (scalar el) M) (2 * M - 2 * j - 1) = .ok b ∧
      IsFin a ∧ IsFin b ∧
      ‖(⟨val a - 2 * (dctTw M j * D j).re, val b + 2 * (dctTw M j * D j).im⟩ : ℂ)‖
        ≤ 2 * ‖cval (o j) - D j‖ + 2 * (553 / 100 / 2 ^ 24) * (‖cval (o j)‖ + tiny) := by
    intro j
    by_cases hj : j < M
    · obtain ⟨a, b, hab⟩ := dctOut_pair hel (w := D j) hj (ho2 j hj) (hmax j hj)
      exact ⟨a, b, fun _ => hab⟩
    · exact ⟨nan, nan, fun h => absurd h hj⟩
  choose a b hab using hpair
  have hev : ∀ j, (2 * j) % 2 = 0 ∧ 2 * j / 2 = j := by intro j; omega
  have hod : ∀ j, j < M → (2 * M - 2 * j - 1) % 2 ≠ 0 ∧ (2 * M - 1 - (2 * M - 2 * j - 1)) / 2 = j := by
    intro j hj; omega
  obtain ⟨y, hy⟩ : ∃ y : ℕ → F32, y = fun k => if k % 2 = 0 then a (k / 2) else b ((2 * M - 1 - k) / 2) := ⟨_, rfl⟩
  have hye : ∀ j, y (2 * j) = a j := by
    intro j; rw [hy]; simp only [(hev j).1, (hev j).2, if_true]
  have hyo : ∀ j, j < M → y (2 * M - 2 * j - 1) = b j := by
    intro j hj; rw [hy]; simp only [(hod j hj).2, if_neg (hod j hj).1]
  have split : ∀ k, k < 2 * M → (∃ j, j < M ∧ k = 2 * j) ∨ ∃ j, j < M ∧ k = 2 * M - 2 * j - 1 := by
    intro k hk
    rcases Nat.even_or_odd' k with ⟨j, rfl | rfl⟩
    · exact Or.inl ⟨j, by omega, rfl⟩
    · exact Or.inr ⟨M - 1 - j, by omega, by omega⟩
  refine ⟨y, ?_, ?_, ?_⟩
  · letI := scalar el
    unfold dctIv
    rw [if_neg (by simp), show 2 * M / 2 = M by omega]
    simp only [hz, Res.bind_ok]
    rw [ho1, Res.bind_ok]
    refine mapM_range_ok fun k hk => ?_
    rcases split k hk with ⟨j, hj, rfl⟩ | ⟨j, hj, rfl⟩
    · rw [hye]; exact (hab j hj).1
    · rw [hyo j hj]; exact (hab j hj).2.1
  · intro k hk
    rcases split k hk with ⟨j, hj, rfl⟩ | ⟨j, hj, rfl⟩
    · rw [hye]; exact (hab j hj).2.2.1
    · rw [hyo j hj]; exact (hab j hj).2.2.2.1
  · have hinner : ∀ j, dctTw M j * D j = dctInner M (fun k => val (x k)) j := by
      intro j; rw [hD, hP]; rfl
    have e1 : l2 (2 * M) (fun k => |val (y k) - 2 * Fourier.dct4 (2 * M) (fun k => val (x k)) k|)
        = l2 M (fun j => ‖(⟨val (a j) - 2 * (dctTw M j * D j).re, val (b j) + 2 * (dctTw M j * D j).im⟩ : ℂ)‖) := by
      unfold l2
      rw [sum_fold]
      congr 1
      refine Finset.sum_congr rfl fun j hj => ?_
      have hj' := Finset.mem_range.mp hj
      rw [← Complex.normSq_eq_norm_sq, Complex.normSq_apply, sq_abs, sq_abs, hye, hyo j hj', hinner, ← dctInner_re hMp,
        ← dctInner_im hMp _ hj']
      ring
    rw [e1]
    have e2 : l2 M (fun j => ‖(⟨val (a j) - 2 * (dctTw M j * D j).re, val (b j) + 2 * (dctTw M j * D j).im⟩ : ℂ)‖)
        ≤ l2 M (fun j => 2 * ‖cval (o j) - D j‖ + 2 * (553 / 100 / 2 ^ 24) * (‖cval (o j)‖ + tiny)) :=
      l2_mono (fun _ _ => norm_nonneg _) fun j hj => (hab j hj).2.2.2.2
    have e3 := l2_add_le M (fun j => 2 * ‖cval (o j) - D j‖) (fun j => 2 * (553 / 100 / 2 ^ 24) * (‖cval (o j)‖ + tiny))
    rw [l2_smul _ _ (by norm_num), l2_smul _ _ (by norm_num)] at e3
    have e4 : 2 * l2 M (fun k => ‖cval (o k) - D k‖) ≤ 2 * (Real.sqrt M * ((kapSum fac + 5) / 2 ^ 24 * (L + 1 / 2 ^ 70))) := by
      refine mul_le_mul_of_nonneg_left (hE1.trans ?_) (by norm_num)
      gcongr
      all_goals norm_num
    have e5 : 2 * (553 / 100 / 2 ^ 24) * l2 M (fun k => ‖cval (o k)‖ + tiny)
        ≤ 2 * (Real.sqrt M * (6 / 2 ^ 24 * (L + 1 / 2 ^ 70))) := by
      have : (0 : ℝ) ≤ Real.sqrt M * (L + 1 / 2 ^ 70) := by positivity
      norm_num at hO this ⊢
      linarith
    have e6 : 2 * Real.sqrt M * ((kapSum fac + 11) / 2 ^ 24) * (L + 1 / 2 ^ 70)
        = 2 * (Real.sqrt M * ((kapSum fac + 5) / 2 ^ 24 * (L + 1 / 2 ^ 70))) + 2 * (Real.sqrt M * (6 / 2 ^ 24 * (L + 1 / 2 ^ 70))) := by
      ring
    linarith

end F32
end Lc3
