import Verif.Lemmas.FinImdct
import Verif.Lemmas.EncLtpf
import Verif.Props.Residual
/-! Sizes in binary32: the filters of the encoder's pitch analysis (resampling, 50 Hz high pass, down sampling). -/

namespace Lc3.F32
open Scalar Tables

variable {el : Elem}

/-! ## resampling -/

/-- sum of the magnitudes of the filter taps that meet one output sample with phase `r` -/
def phaseSum (p r : ℕ) : ℕ → ℤ → ℚ
  | 0, _ => 0
  | cnt + 1, k =>
    (if -120 < (p : ℤ) * k - r ∧ (p : ℤ) * k - r < 120 then |TAB_RESAMP_FILTER.getD (119 + ((p : ℤ) * k - r)).toNat 0| else 0)
      + phaseSum p r cnt (k + 1)

theorem phaseSum_nonneg (p r : ℕ) : ∀ (cnt : ℕ) (k : ℤ), 0 ≤ phaseSum p r cnt k
  | 0, _ => le_refl 0
  | cnt + 1, k => by
    have := phaseSum_nonneg p r cnt (k + 1)
    simp only [phaseSum]
    split
    · have := abs_nonneg (TAB_RESAMP_FILTER.getD (119 + ((p : ℤ) * k - r)).toNat 0)
      linarith
    · linarith

theorem phaseSum_24 : ∀ r < 24, phaseSum 24 r (2 * (120 / 24) + 1) (-((120 / 24 : ℕ) : ℤ)) ≤ 1 / 10 := by decide +kernel
theorem phaseSum_12 : ∀ r < 12, phaseSum 12 r (2 * (120 / 12) + 1) (-((120 / 12 : ℕ) : ℤ)) ≤ 7 / 48 := by decide +kernel
theorem phaseSum_8 : ∀ r < 8, phaseSum 8 r (2 * (120 / 8) + 1) (-((120 / 8 : ℕ) : ℤ)) ≤ 7 / 32 := by decide +kernel
theorem phaseSum_6 : ∀ r < 6, phaseSum 6 r (2 * (120 / 6) + 1) (-((120 / 6 : ℕ) : ℤ)) ≤ 7 / 24 := by decide +kernel
theorem phaseSum_4 : ∀ r < 4, phaseSum 4 r (2 * (120 / 4) + 1) (-((120 / 4 : ℕ) : ℤ)) ≤ 7 / 16 := by decide +kernel

theorem bd_int {v : ℤ} (h : |v| < 2 ^ 24) : Bd |(v : ℝ)| (@Scalar.ofInt F32 (scalar el) v) := by
  have e : @Scalar.ofInt F32 (scalar el) v = rnd (v : ℚ) := rfl
  rw [e, rnd_int24 h]
  refine ⟨⟨_, rfl⟩, ?_⟩
  show |(((v : ℚ)) : ℝ)| ≤ _
  push_cast
  exact le_refl _

/-- an integer of 16 bits -/
def Small (v : ℤ) : Prop := |v| ≤ 32768

theorem bd_small {v : ℤ} (h : Small v) : Bd 32768 (@Scalar.ofInt F32 (scalar el) v) := by
  refine (bd_int (lt_of_le_of_lt h (by norm_num))).mono ?_
  have := h
  unfold Small at this
  exact_mod_cast this

theorem tap_step {A : ℝ} {acc : F32} {v : ℤ} {h : ℚ} (ha : Bd A acc) (hA : A ≤ 2 ^ 18) (hv : Small v) (hh : |h| ≤ 1) :
    Bd (A + 32769 * |(h : ℝ)| + 1 / 16)
      (F32.add acc (F32.mul (@Scalar.ofInt F32 (scalar el) v) (rnd h))) := by
  have h0 : |(h : ℝ)| ≤ 1 := by exact_mod_cast hh
  have hn := abs_nonneg (h : ℝ)
  obtain ⟨r1, r2⟩ := rnd_val (x := h) (h0.trans (by norm_num))
  have b1 : Bd (|(h : ℝ)| + |(h : ℝ)| / 2 ^ 24 + 1 / 2 ^ 150) (rnd h) := by
    refine ⟨r1, ?_⟩
    have := abs_sub_abs_le_abs_sub (val (rnd h)) (h : ℝ)
    linarith
  have b2 := bd_small (el := el) hv
  have hm : |val (@Scalar.ofInt F32 (scalar el) v) * val (rnd h)| ≤ 32768 * (|(h : ℝ)| + |(h : ℝ)| / 2 ^ 24 + 1 / 2 ^ 150) := by
    rw [abs_mul]
    exact mul_le_mul b2.2 b1.2 (abs_nonneg _) (by norm_num)
  have hm2 : |val (@Scalar.ofInt F32 (scalar el) v) * val (rnd h)| ≤ 2 ^ 127 := by
    refine hm.trans ?_
    norm_num
    linarith
  obtain ⟨m1, m2⟩ := mul_val b2.1 r1 hm2
  have b3 : Bd (32769 * |(h : ℝ)| + 1 / 2 ^ 100) (F32.mul (@Scalar.ofInt F32 (scalar el) v) (rnd h)) := by
    refine ⟨m1, ?_⟩
    have := abs_sub_abs_le_abs_sub (val (F32.mul (@Scalar.ofInt F32 (scalar el) v) (rnd h)))
      (val (@Scalar.ofInt F32 (scalar el) v) * val (rnd h))
    generalize val (@Scalar.ofInt F32 (scalar el) v) * val (rnd h) = z at *
    norm_num at hm m2 ⊢
    linarith
  have hs : |val acc + val (F32.mul (@Scalar.ofInt F32 (scalar el) v) (rnd h))| ≤ A + (32769 * |(h : ℝ)| + 1 / 2 ^ 100) :=
    (abs_add_le _ _).trans (add_le_add ha.2 b3.2)
  obtain ⟨s1, s2⟩ := add_val ha.1 m1 (hs.trans (by norm_num at hA ⊢; linarith))
  refine ⟨s1, ?_⟩
  have := abs_sub_abs_le_abs_sub (val (F32.add acc (F32.mul (@Scalar.ofInt F32 (scalar el) v) (rnd h))))
    (val acc + val (F32.mul (@Scalar.ofInt F32 (scalar el) v) (rnd h)))
  norm_num at hA hs s2 ⊢
  linarith

theorem tab_resamp_le : ∀ h ∈ TAB_RESAMP_FILTER, |h| ≤ 1 := by decide +kernel

theorem resampleSum_bd {xs : List ℤ} (hx : ∀ v ∈ xs, Small v) (p n : ℕ) : ∀ (cnt : ℕ) (k : ℤ) (acc r : F32) (A : ℝ), Bd A acc →
    A + 32769 * (phaseSum p (15 * n % p) cnt k : ℝ) + cnt * (1 / 16) ≤ 2 ^ 18 →
    @resampleSum F32 (scalar el) xs p n cnt k acc = .ok r →
    Bd (A + 32769 * (phaseSum p (15 * n % p) cnt k : ℝ) + cnt * (1 / 16)) r := by
  letI := scalar el
  intro cnt
  induction cnt with
  | zero =>
    intro k acc r A ha _ e
    simp only [resampleSum, Res.ok.injEq] at e
    subst e
    simpa [phaseSum] using ha
  | succ cnt ih =>
    intro k acc r A ha hA e
    simp only [resampleSum] at e
    obtain ⟨acc', e1, e⟩ := bind_ok_inv e
    have hP := phaseSum_nonneg p (15 * n % p) cnt (k + 1)
    have hP' : (0 : ℝ) ≤ (phaseSum p (15 * n % p) cnt (k + 1) : ℝ) := by exact_mod_cast hP
    by_cases hc : -120 < (p : ℤ) * k - ((15 * n % p : ℕ) : ℤ) ∧ (p : ℤ) * k - ((15 * n % p : ℕ) : ℤ) < 120
    · rw [if_pos hc] at e1
      obtain ⟨v, ev, e1⟩ := bind_ok_inv e1
      obtain ⟨h, eh, e1⟩ := bind_ok_inv e1
      simp only [Res.ok.injEq] at e1
      subst e1
      have hT : TAB_RESAMP_FILTER.length = 239 := rfl
      have hph : (phaseSum p (15 * n % p) (cnt + 1) k : ℝ) = |(h : ℝ)| + (phaseSum p (15 * n % p) cnt (k + 1) : ℝ) := by
        simp only [phaseSum]
        rw [if_pos hc]
        generalize hq : (p : ℤ) * k - ((15 * n % p : ℕ) : ℤ) = q at *
        rw [i32AsUsize_of_nonneg (by omega) (by omega)] at eh
        have hl : (119 + q).toNat < TAB_RESAMP_FILTER.length := by rw [hT]; omega
        rw [idx_eq_ok hl] at eh
        simp only [Res.ok.injEq] at eh
        rw [List.getD_eq_getElem _ _ hl, eh]
        push_cast
        rfl
      rw [hph] at hA ⊢
      have hcn : (0 : ℝ) ≤ (cnt : ℝ) := Nat.cast_nonneg _
      have habs := abs_nonneg (h : ℝ)
      have hA18 : A ≤ 2 ^ 18 := by
        rw [Nat.cast_succ] at hA
        linarith
      have st := tap_step (el := el) ha hA18 (hx v (idx_mem ev)) (tab_resamp_le h (idx_mem eh))
      have := ih (k + 1) _ r _ st (by push_cast at hA ⊢; linarith) e
      refine this.mono ?_
      push_cast
      linarith
    · rw [if_neg hc] at e1
      simp only [Res.ok.injEq] at e1
      subst e1
      have hph : phaseSum p (15 * n % p) (cnt + 1) k = phaseSum p (15 * n % p) cnt (k + 1) := by
        simp only [phaseSum]
        rw [if_neg hc, zero_add]
      rw [hph] at hA ⊢
      have := ih (k + 1) acc r A ha (by push_cast at hA ⊢; linarith) e
      refine this.mono ?_
      push_cast
      linarith

theorem mul_exact {p q : ℚ} (h : ∃ m : ℤ, p * q = m ∧ |m| < 2 ^ 24) : F32.mul (fin p) (fin q) = fin (p * q) := by
  obtain ⟨m, h1, h2⟩ := h
  show rnd (p * q) = _
  rw [h1, rnd_int24 h2]

theorem half_fin : rnd (1 / 2) = fin (1 / 2) := by
  rw [rnd_fin (by norm_num), rndQ_rep ⟨1, -1, by norm_num, by norm_num, by norm_num⟩]

/-- the scaling of the resampled values, together with the size of the filter sum -/
theorem resamp_scale (f : SamplingFrequency) (d : FrameDuration) :
    ∃ s : ℝ, 0 ≤ s ∧ s ≤ 12 ∧ Bd s
      (F32.mul (@Scalar.ofInt F32 (scalar el) (upFactorOf (Lc3Config.new f d).fs : ℤ)) (rnd (resampFactorOf (Lc3Config.new f d).fs)))
      ∧ ∀ n : ℕ, (phaseSum (upFactorOf (Lc3Config.new f d).fs) (15 * n % upFactorOf (Lc3Config.new f d).fs)
          (2 * (120 / upFactorOf (Lc3Config.new f d).fs) + 1) (-((120 / upFactorOf (Lc3Config.new f d).fs : ℕ) : ℤ)) : ℝ) ≤ 1 / 2
        ∧ (phaseSum (upFactorOf (Lc3Config.new f d).fs) (15 * n % upFactorOf (Lc3Config.new f d).fs)
          (2 * (120 / upFactorOf (Lc3Config.new f d).fs) + 1) (-((120 / upFactorOf (Lc3Config.new f d).fs : ℕ) : ℤ)) : ℝ) * s ≤ 7 / 4
        ∧ 2 * (120 / upFactorOf (Lc3Config.new f d).fs) + 1 ≤ 61 := by
  have key : (upFactorOf (Lc3Config.new f d).fs = 24 ∧ resampFactorOf (Lc3Config.new f d).fs = 1 / 2) ∨
      ((upFactorOf (Lc3Config.new f d).fs = 12 ∨ upFactorOf (Lc3Config.new f d).fs = 8 ∨ upFactorOf (Lc3Config.new f d).fs = 6 ∨
        upFactorOf (Lc3Config.new f d).fs = 4) ∧ resampFactorOf (Lc3Config.new f d).fs = 1) := by
    cases f <;> cases d <;> decide +kernel
  generalize upFactorOf (Lc3Config.new f d).fs = p at *
  generalize resampFactorOf (Lc3Config.new f d).fs = q at *
  have ei : ∀ k : ℕ, |(k : ℤ)| < 2 ^ 24 → @Scalar.ofInt F32 (scalar el) ((k : ℕ) : ℤ) = fin (((k : ℕ) : ℤ) : ℚ) := fun k hk => by
    have e : @Scalar.ofInt F32 (scalar el) ((k : ℕ) : ℤ) = rnd (((k : ℕ) : ℤ) : ℚ) := rfl
    rw [e, rnd_int24 hk]
  have e1 : rnd 1 = fin 1 := by
    have := rnd_int24 (s := 1) (by norm_num)
    simpa using this
  have pk : ∀ {r k : ℕ} {b : ℚ}, (∀ r < k, phaseSum k r (2 * (120 / k) + 1) (-((120 / k : ℕ) : ℤ)) ≤ b) → 0 < k → ∀ n : ℕ,
      (phaseSum k (15 * n % k) (2 * (120 / k) + 1) (-((120 / k : ℕ) : ℤ)) : ℝ) ≤ b := fun {r k b} h hk n => by
    exact_mod_cast h _ (Nat.mod_lt _ hk)
  rcases key with ⟨rfl, rfl⟩ | ⟨rfl | rfl | rfl | rfl, rfl⟩
  · refine ⟨12, by norm_num, le_refl _, ?_, fun n => ?_⟩
    · rw [ei _ (by norm_num), half_fin, mul_exact ⟨12, by norm_num, by norm_num⟩]
      refine ⟨⟨_, rfl⟩, ?_⟩
      show |((_ : ℚ) : ℝ)| ≤ 12
      norm_num
    · have := pk (r := 0) phaseSum_24 (by norm_num) n
      norm_num at this ⊢
      constructor <;> linarith
  · refine ⟨12, by norm_num, le_refl _, ?_, fun n => ?_⟩
    · rw [ei _ (by norm_num), e1, mul_exact ⟨12, by norm_num, by norm_num⟩]
      refine ⟨⟨_, rfl⟩, ?_⟩
      show |((_ : ℚ) : ℝ)| ≤ 12
      norm_num
    · have := pk (r := 0) phaseSum_12 (by norm_num) n
      norm_num at this ⊢
      constructor <;> linarith
  · refine ⟨8, by norm_num, by norm_num, ?_, fun n => ?_⟩
    · rw [ei _ (by norm_num), e1, mul_exact ⟨8, by norm_num, by norm_num⟩]
      refine ⟨⟨_, rfl⟩, ?_⟩
      show |((_ : ℚ) : ℝ)| ≤ 8
      norm_num
    · have := pk (r := 0) phaseSum_8 (by norm_num) n
      norm_num at this ⊢
      constructor <;> linarith
  · refine ⟨6, by norm_num, by norm_num, ?_, fun n => ?_⟩
    · rw [ei _ (by norm_num), e1, mul_exact ⟨6, by norm_num, by norm_num⟩]
      refine ⟨⟨_, rfl⟩, ?_⟩
      show |((_ : ℚ) : ℝ)| ≤ 6
      norm_num
    · have := pk (r := 0) phaseSum_6 (by norm_num) n
      norm_num at this ⊢
      constructor <;> linarith
  · refine ⟨4, by norm_num, by norm_num, ?_, fun n => ?_⟩
    · rw [ei _ (by norm_num), e1, mul_exact ⟨4, by norm_num, by norm_num⟩]
      refine ⟨⟨_, rfl⟩, ?_⟩
      show |((_ : ℚ) : ℝ)| ≤ 4
      norm_num
    · have := pk (r := 0) phaseSum_4 (by norm_num) n
      norm_num at this ⊢
      constructor <;> linarith

theorem resampleAll_bd (f : SamplingFrequency) (d : FrameDuration) {xs : List ℤ} (hx : ∀ v ∈ xs, Small v) :
    ∀ (cnt n : ℕ) (r : List F32), @resampleAll F32 (scalar el) (Lc3Config.new f d) xs n cnt = .ok r → AllBd 65536 r := by
  letI := scalar el
  obtain ⟨s, s0, s12, hs, hp⟩ := resamp_scale (el := el) f d
  intro cnt
  induction cnt with
  | zero =>
    intro n r e
    simp only [resampleAll, Res.ok.injEq] at e
    subst e
    exact .nil
  | succ cnt ih =>
    intro n r e
    simp only [resampleAll] at e
    obtain ⟨a, ea, e⟩ := bind_ok_inv e
    obtain ⟨l, el', e⟩ := bind_ok_inv e
    simp only [Res.ok.injEq] at e
    subst e
    refine .cons ?_ (ih _ _ el')
    obtain ⟨p1, p2, p3⟩ := hp n
    generalize hP : (phaseSum (upFactorOf (Lc3Config.new f d).fs) (15 * n % upFactorOf (Lc3Config.new f d).fs)
          (2 * (120 / upFactorOf (Lc3Config.new f d).fs) + 1) (-((120 / upFactorOf (Lc3Config.new f d).fs : ℕ) : ℤ)) : ℝ) = P at *
    have hz : Bd 0 (@Scalar.zero F32 (scalar el)) := by rw [zero_eq]; exact bd_zero (le_refl _)
    have p3' : ((2 * (120 / upFactorOf (Lc3Config.new f d).fs) + 1 : ℕ) : ℝ) ≤ 61 := by exact_mod_cast p3
    have b := resampleSum_bd (el := el) hx _ n _ _ _ a 0 hz (by rw [hP]; norm_num at p3' ⊢; linarith) ea
    rw [hP] at b
    have b' : Bd (32769 * P + 4) a := b.mono (by norm_num at p3' ⊢; linarith)
    have hP0 : 0 ≤ P := by
      rw [← hP]
      exact_mod_cast phaseSum_nonneg _ _ _ _
    have hm : Bd ((32769 * P + 4) * s * (1 + 1 / 2 ^ 23) + 1) (F32.mul a (F32.mul (@Scalar.ofInt F32 (scalar el) (upFactorOf (Lc3Config.new f d).fs : ℤ))
      (rnd (resampFactorOf (Lc3Config.new f d).fs)))) := by
      generalize (F32.mul (@Scalar.ofInt F32 (scalar el) (upFactorOf (Lc3Config.new f d).fs : ℤ))
        (rnd (resampFactorOf (Lc3Config.new f d).fs))) = c at hs ⊢
      have h : |val a * val c| ≤ (32769 * P + 4) * s := by
        rw [abs_mul]
        exact mul_le_mul b'.2 hs.2 (abs_nonneg _) b'.nonneg
      have h2 : (32769 * P + 4) * s ≤ 60000 := by nlinarith
      obtain ⟨q1, q2⟩ := mul_val b'.1 hs.1 (h.trans (h2.trans (by norm_num)))
      refine ⟨q1, ?_⟩
      have := abs_sub_abs_le_abs_sub (val (F32.mul a c)) (val a * val c)
      generalize val a * val c = z at *
      generalize (32769 * P + 4) * s = y at *
      have := abs_nonneg z
      norm_num at q2 h ⊢
      linarith
    refine hm.mono ?_
    have h2 : (32769 * P + 4) * s ≤ 60000 := by nlinarith
    generalize (32769 * P + 4) * s = y at *
    norm_num
    linarith

/-! ## the 50 Hz high pass -/

/-- the quadratic form that the feedback of the high pass multiplies by its last coefficient -/
noncomputable def hpForm (u v : ℝ) : ℝ := u ^ 2 - 19652933726226904 / 10000000000000000 * u * v + 9658854605688177 / 10000000000000000 * v ^ 2

theorem hpForm_step {u v w : ℝ} (h : hpForm u v ≤ 3932160 ^ 2) (hw : |w| ≤ 66100) :
    hpForm (19652933726226904 / 10000000000000000 * u - 9658854605688177 / 10000000000000000 * v + w) u ≤ 3932160 ^ 2 := by
  obtain ⟨p, hp⟩ : ∃ p, p = 19652933726226904 / 10000000000000000 * u - 9658854605688177 / 10000000000000000 * v := ⟨_, rfl⟩
  have e0 : hpForm p u = 9658854605688177 / 10000000000000000 * hpForm u v := by
    rw [hp]; unfold hpForm; ring
  have e1 : hpForm (p + w) u = hpForm p u + (2 * p - 19652933726226904 / 10000000000000000 * u) * w + w ^ 2 := by
    unfold hpForm; ring
  have e2 : (2 * p - 19652933726226904 / 10000000000000000 * u) ^ 2 ≤ 4 * hpForm p u := by
    unfold hpForm
    nlinarith [sq_nonneg u]
  have h3 : 4 * hpForm p u ≤ (2 * 3864530) ^ 2 := by
    rw [e0]
    norm_num at h ⊢
    linarith
  have h4 : |2 * p - 19652933726226904 / 10000000000000000 * u| ≤ 2 * 3864530 := abs_le_of_sq_le_sq (e2.trans h3) (by norm_num)
  have h5 : (2 * p - 19652933726226904 / 10000000000000000 * u) * w ≤ 2 * 3864530 * 66100 := by
    refine (le_abs_self _).trans ?_
    rw [abs_mul]
    exact mul_le_mul h4 hw (abs_nonneg _) (by norm_num)
  have h6 : w ^ 2 ≤ 66100 ^ 2 := sq_le_sq' (by linarith [(abs_le.1 hw).1]) (abs_le.1 hw).2
  rw [← hp, e1]
  norm_num at h3 h5 h6 ⊢
  linarith

theorem hpForm_snd {u v : ℝ} (h : hpForm u v ≤ 3932160 ^ 2) : |v| ≤ 2 ^ 28 := by
  refine abs_le_of_sq_le_sq ?_ (by norm_num)
  have : 4 * hpForm u v = (2 * u - 19652933726226904 / 10000000000000000 * v) ^ 2
      + (4 * (9658854605688177 / 10000000000000000) - (19652933726226904 / 10000000000000000) ^ 2) * v ^ 2 := by
    unfold hpForm; ring
  have := sq_nonneg (2 * u - 19652933726226904 / 10000000000000000 * v)
  norm_num at *
  linarith

theorem hpForm_fst {u v : ℝ} (h : hpForm u v ≤ 3932160 ^ 2) : |u| ≤ 2 ^ 28 := by
  refine abs_le_of_sq_le_sq ?_ (by norm_num)
  have : 4 * (9658854605688177 / 10000000000000000) * hpForm u v
      = (2 * (9658854605688177 / 10000000000000000) * v - 19652933726226904 / 10000000000000000 * u) ^ 2
      + (4 * (9658854605688177 / 10000000000000000) - (19652933726226904 / 10000000000000000) ^ 2) * u ^ 2 := by
    unfold hpForm; ring
  have := sq_nonneg (2 * (9658854605688177 / 10000000000000000) * v - 19652933726226904 / 10000000000000000 * u)
  norm_num at *
  linarith

theorem hpForm_diff {u v : ℝ} (h : hpForm u v ≤ 3932160 ^ 2) : |u - 9826466863113452 / 10000000000000000 * v| ≤ 3932160 := by
  refine abs_le_of_sq_le_sq ?_ (by norm_num)
  have : hpForm u v = (u - 9826466863113452 / 10000000000000000 * v) ^ 2
      + ((9658854605688177 / 10000000000000000) - (9826466863113452 / 10000000000000000) ^ 2) * v ^ 2 := by
    unfold hpForm; ring
  have := sq_nonneg v
  norm_num at *
  linarith

/-- the exact output of the high pass is far smaller than its state -/
theorem hp_out {u v w : ℝ} (h : hpForm u v ≤ 3932160 ^ 2) (hw : |w| ≤ 66100) :
    |9827947082978771 / 10000000000000000 * (19652933726226904 / 10000000000000000 * u - 9658854605688177 / 10000000000000000 * v + w)
      + (-1965589416595754 / 1000000000000000) * u + 9827947082978771 / 10000000000000000 * v| ≤ 210000 := by
  have h1 := abs_le.1 (hpForm_diff h)
  have h2 := abs_le.1 (hpForm_snd h)
  have h3 := abs_le.1 hw
  obtain ⟨t, ht⟩ : ∃ t, t = u - 9826466863113452 / 10000000000000000 * v := ⟨_, rfl⟩
  have hu : u = t + 9826466863113452 / 10000000000000000 * v := by rw [ht]; ring
  rw [← ht] at h1
  rw [hu, abs_le]
  norm_num at h1 h2 h3 ⊢
  constructor <;> linarith [h1.1, h1.2, h2.1, h2.2, h3.1, h3.2]

/-- the state of the high pass -/
def HpOk (h1 h2 : F32) : Prop := IsFin h1 ∧ IsFin h2 ∧ hpForm (val h1) (val h2) ≤ 3932160 ^ 2

theorem hpOk_zero : HpOk (fin 0) (fin 0) := by
  refine ⟨⟨0, rfl⟩, ⟨0, rfl⟩, ?_⟩
  have : val (fin 0) = 0 := by show ((0 : ℚ) : ℝ) = 0; norm_num
  rw [this]
  unfold hpForm
  norm_num

/-- a product with a rounded constant, with its error -/
theorem scaled_val {c : ℚ} {a : F32} {C M : ℝ} (hc : |(c : ℝ)| ≤ C) (hC1 : 1 / 2 ≤ C) (hC : C ≤ 4) (ha : Bd M a) (hM1 : 1 ≤ M) (hM : M ≤ 2 ^ 40) :
    Bd (C * M * (1 + 1 / 2 ^ 20)) (F32.mul (rnd c) a) ∧ |val (F32.mul (rnd c) a) - c * val a| ≤ C * M / 2 ^ 22 := by
  obtain ⟨r1, r2⟩ := rnd_val (x := c) (hc.trans (hC.trans (by norm_num)))
  have hcn := abs_nonneg (c : ℝ)
  have e1 : |val (rnd c) - c| ≤ C / 2 ^ 23 := by
    norm_num at r2 ⊢
    linarith
  have b1 : |val (rnd c)| ≤ C * (1 + 1 / 2 ^ 23) := by
    have := abs_sub_abs_le_abs_sub (val (rnd c)) (c : ℝ)
    norm_num at e1 ⊢
    linarith
  have hCM : C * M ≤ 4 * 2 ^ 40 := mul_le_mul hC hM ha.nonneg (by norm_num)
  have hCM1 : 1 / 2 ≤ C * M := by nlinarith
  have e2 : |(val (rnd c) - c) * val a| ≤ C * M / 2 ^ 23 := by
    rw [abs_mul, show C * M / 2 ^ 23 = C / 2 ^ 23 * M by ring]
    exact mul_le_mul e1 ha.2 (abs_nonneg _) (by norm_num; linarith)
  have b2 : |val (rnd c) * val a| ≤ C * M * (1 + 1 / 2 ^ 23) := by
    rw [abs_mul, show C * M * (1 + 1 / 2 ^ 23) = C * (1 + 1 / 2 ^ 23) * M by ring]
    exact mul_le_mul b1 ha.2 (abs_nonneg _) (by norm_num; linarith)
  obtain ⟨m1, m2⟩ := mul_val r1 ha.1 (b2.trans (by
    generalize C * M = y at *
    norm_num at hCM ⊢
    linarith))
  have hcm : |(c : ℝ) * val a| ≤ C * M := by
    rw [abs_mul]
    exact mul_le_mul hc ha.2 (abs_nonneg _) (by linarith)
  have key : |val (F32.mul (rnd c) a) - c * val a| ≤ C * M / 2 ^ 22 := by
    have e : val (F32.mul (rnd c) a) - c * val a = (val (F32.mul (rnd c) a) - val (rnd c) * val a) + (val (rnd c) - c) * val a := by ring
    rw [e]
    refine (abs_add_le _ _).trans ?_
    generalize (val (rnd c) - c) * val a = y1 at *
    generalize val (rnd c) * val a = y2 at *
    generalize C * M = y at *
    norm_num at m2 b2 e2 hCM1 ⊢
    linarith
  refine ⟨⟨m1, ?_⟩, key⟩
  have := abs_sub_abs_le_abs_sub (val (F32.mul (rnd c) a)) (c * val a)
  generalize (c : ℝ) * val a = y2 at *
  generalize C * M = y at *
  norm_num at key ⊢
  linarith

theorem hp_one {x h1 h2 : F32} (hx : Bd 65536 x) (hs : HpOk h1 h2) :
    HpOk (F32.sub (F32.sub x (F32.mul (rnd (-19652933726226904 / 10000000000000000)) h1))
        (F32.mul (rnd (9658854605688177 / 10000000000000000)) h2)) h1 ∧
    Bd (2 ^ 18) (F32.add (F32.add (F32.mul (rnd (9827947082978771 / 10000000000000000))
        (F32.sub (F32.sub x (F32.mul (rnd (-19652933726226904 / 10000000000000000)) h1))
        (F32.mul (rnd (9658854605688177 / 10000000000000000)) h2))) (F32.mul (rnd (-1965589416595754 / 1000000000000000)) h1))
      (F32.mul (rnd (9827947082978771 / 10000000000000000)) h2)) := by
  obtain ⟨f1, f2, hq⟩ := hs
  have B1 : Bd (2 ^ 28) h1 := ⟨f1, hpForm_fst hq⟩
  have B2 : Bd (2 ^ 28) h2 := ⟨f2, hpForm_snd hq⟩
  obtain ⟨m1, d1⟩ := scaled_val (c := -19652933726226904 / 10000000000000000) (C := 2) (by push_cast; norm_num [abs_le]) (by norm_num) (by norm_num) B1
    (by norm_num) (by norm_num)
  obtain ⟨m2, d2⟩ := scaled_val (c := 9658854605688177 / 10000000000000000) (C := 1) (by push_cast; norm_num [abs_le]) (by norm_num) (by norm_num) B2
    (by norm_num) (by norm_num)
  obtain ⟨m4, d4⟩ := scaled_val (c := -1965589416595754 / 1000000000000000) (C := 2) (by push_cast; norm_num [abs_le]) (by norm_num) (by norm_num) B1
    (by norm_num) (by norm_num)
  obtain ⟨m5, d5⟩ := scaled_val (c := 9827947082978771 / 10000000000000000) (C := 1) (by push_cast; norm_num [abs_le]) (by norm_num) (by norm_num) B2
    (by norm_num) (by norm_num)
  push_cast at d1 d2 d4 d5
  have s1 : |val x - val (F32.mul (rnd (-19652933726226904 / 10000000000000000)) h1)| ≤ 2 ^ 30 := by
    refine (abs_sub _ _).trans ((add_le_add hx.2 m1.2).trans (by norm_num))
  obtain ⟨t1, k1⟩ := sub_val hx.1 m1.1 (s1.trans (by norm_num))
  obtain ⟨y1, hy1⟩ : ∃ y, y = F32.sub x (F32.mul (rnd (-19652933726226904 / 10000000000000000)) h1) := ⟨_, rfl⟩
  rw [← hy1] at t1 k1 ⊢
  have t1b : |val y1| ≤ 2 ^ 31 := by
    have := abs_sub_abs_le_abs_sub (val y1) (val x - val (F32.mul (rnd (-19652933726226904 / 10000000000000000)) h1))
    norm_num at k1 s1 ⊢
    linarith
  have s2 : |val y1 - val (F32.mul (rnd (9658854605688177 / 10000000000000000)) h2)| ≤ 2 ^ 32 := by
    refine (abs_sub _ _).trans ((add_le_add t1b m2.2).trans (by norm_num))
  obtain ⟨t2, k2⟩ := sub_val t1 m2.1 (s2.trans (by norm_num))
  obtain ⟨y2, hy2⟩ : ∃ y, y = F32.sub y1 (F32.mul (rnd (9658854605688177 / 10000000000000000)) h2) := ⟨_, rfl⟩
  rw [← hy2] at t2 k2 ⊢
  obtain ⟨w, hw⟩ : ∃ w, w = val y2 - (19652933726226904 / 10000000000000000 * val h1 - 9658854605688177 / 10000000000000000 * val h2) :=
    ⟨_, rfl⟩
  have hw2 : val y2 = 19652933726226904 / 10000000000000000 * val h1 - 9658854605688177 / 10000000000000000 * val h2 + w := by
    rw [hw]; ring
  have hwb : |w| ≤ 66100 := by
    have a1 := abs_le.1 d1
    have a2 := abs_le.1 d2
    have a3 := abs_le.1 k1
    have a4 := abs_le.1 k2
    have a5 := abs_le.1 hx.2
    rw [hw, abs_le]
    clear d1 d2 d4 d5 k1 k2 hw hw2 hq
    norm_num at a1 a2 a3 a4 a5 s1 s2 ⊢
    constructor <;> linarith [a1.1, a1.2, a2.1, a2.2, a3.1, a3.2, a4.1, a4.2, a5.1, a5.2]
  have hst := hpForm_step hq hwb
  rw [← hw2] at hst
  refine ⟨⟨t2, f1, hst⟩, ?_⟩
  have hout := hp_out hq hwb
  rw [← hw2] at hout
  have B3 : Bd (2 ^ 28) y2 := ⟨t2, hpForm_fst hst⟩
  obtain ⟨m3, d3⟩ := scaled_val (c := 9827947082978771 / 10000000000000000) (C := 1) (by push_cast; norm_num [abs_le]) (by norm_num) (by norm_num) B3
    (by norm_num) (by norm_num)
  push_cast at d3
  clear d1 d2 k1 k2 hw hw2 hq hst hwb hy1 hy2 s1 s2 t1b
  generalize F32.mul (rnd (9827947082978771 / 10000000000000000)) y2 = g3 at *
  generalize F32.mul (rnd (-1965589416595754 / 1000000000000000)) h1 = g4 at *
  generalize F32.mul (rnd (9827947082978771 / 10000000000000000)) h2 = g5 at *
  have s3 : |val g3 + val g4| ≤ 2 ^ 30 := (abs_add_le _ _).trans ((add_le_add m3.2 m4.2).trans (by norm_num))
  obtain ⟨t3, k3⟩ := add_val m3.1 m4.1 (s3.trans (by norm_num))
  generalize F32.add g3 g4 = g6 at *
  have t3b : |val g6| ≤ 2 ^ 31 := by
    have := abs_sub_abs_le_abs_sub (val g6) (val g3 + val g4)
    norm_num at k3 s3 ⊢
    linarith
  have s4 : |val g6 + val g5| ≤ 2 ^ 32 := (abs_add_le _ _).trans ((add_le_add t3b m5.2).trans (by norm_num))
  obtain ⟨t4, k4⟩ := add_val t3 m5.1 (s4.trans (by norm_num))
  refine ⟨t4, ?_⟩
  have a1 := abs_le.1 d3
  have a2 := abs_le.1 d4
  have a3 := abs_le.1 d5
  have a4 := abs_le.1 k3
  have a5 := abs_le.1 k4
  have a6 := abs_le.1 hout
  rw [abs_le]
  clear d3 d4 d5 k3 k4 hout
  norm_num at a1 a2 a3 a4 a5 a6 s3 s4 ⊢
  constructor <;> linarith [a1.1, a1.2, a2.1, a2.2, a3.1, a3.2, a4.1, a4.2, a5.1, a5.2, a6.1, a6.2]

theorem highPass50_bd : ∀ {l : List F32} {h1 h2 : F32}, AllBd 65536 l → HpOk h1 h2 →
    AllBd (2 ^ 18) (@highPass50 F32 (scalar el) l h1 h2).1 ∧
    HpOk (@highPass50 F32 (scalar el) l h1 h2).2.1 (@highPass50 F32 (scalar el) l h1 h2).2.2
  | [], _, _, _, h => ⟨.nil, h⟩
  | x :: xs, h1, h2, hx, h => by
    letI := scalar el
    obtain ⟨q1, q2⟩ := hp_one (hx x (List.mem_cons_self ..)) h
    obtain ⟨i1, i2⟩ := highPass50_bd (l := xs) (fun a ha => hx a (List.mem_cons_of_mem _ ha)) q1
    exact ⟨.cons q2 i1, i2⟩

/-! ## down sampling -/

theorem bd_rat {q : ℚ} {B : ℝ} (h : |(q : ℝ)| * (1 + 1 / 2 ^ 23) + 1 / 2 ^ 120 ≤ B) (hq : |(q : ℝ)| ≤ 2 ^ 40) : Bd B (rnd q) := by
  obtain ⟨h1, h2⟩ := rnd_val (x := q) (hq.trans (by norm_num))
  refine ⟨h1, ?_⟩
  have := abs_sub_abs_le_abs_sub (val (rnd q)) (q : ℝ)
  have := abs_nonneg (q : ℝ)
  norm_num at h2 h ⊢
  linarith

theorem down_one {a b c d e : F32} (ha : Bd (2 ^ 18) a) (hb : Bd (2 ^ 18) b) (hc : Bd (2 ^ 18) c) (hd : Bd (2 ^ 18) d)
    (he : Bd (2 ^ 18) e) :
    Bd (2 ^ 19) (F32.add (F32.add (F32.add (F32.add (F32.mul (rnd (1236796411180537 / 10000000000000000)) a)
      (F32.mul (rnd (2353512128364889 / 10000000000000000)) b)) (F32.mul (rnd (2819382920909148 / 10000000000000000)) c))
      (F32.mul (rnd (2353512128364889 / 10000000000000000)) d)) (F32.mul (rnd (1236796411180537 / 10000000000000000)) e)) := by
  have r : ∀ q : ℚ, 0 ≤ q → q ≤ 3 / 10 → Bd (31 / 100) (rnd q) := fun q h1 h2 => by
    have h1' : (0 : ℝ) ≤ q := by exact_mod_cast h1
    have h2' : (q : ℝ) ≤ 3 / 10 := by
      have : (q : ℝ) ≤ ((3 / 10 : ℚ) : ℝ) := by exact_mod_cast h2
      push_cast at this
      exact this
    refine bd_rat ?_ ?_ <;> rw [abs_of_nonneg h1']
    · norm_num
      linarith
    · norm_num
      linarith
  have m : ∀ (q : ℚ) (x : F32), 0 ≤ q → q ≤ 3 / 10 → Bd (2 ^ 18) x → Bd 82000 (F32.mul (rnd q) x) := fun q x h1 h2 h =>
    ((r q h1 h2).mul h (by norm_num) (by norm_num)).mono (by norm_num)
  have e1 := (m (1236796411180537 / 10000000000000000) a (by norm_num) (by norm_num) ha).add (m (2353512128364889 / 10000000000000000) b (by norm_num) (by norm_num) hb) (by norm_num) (by norm_num)
  have e2 := e1.add (m (2819382920909148 / 10000000000000000) c (by norm_num) (by norm_num) hc) (by norm_num) (by norm_num)
  have e3 := e2.add (m (2353512128364889 / 10000000000000000) d (by norm_num) (by norm_num) hd) (by norm_num) (by norm_num)
  have e4 := e3.add (m (1236796411180537 / 10000000000000000) e (by norm_num) (by norm_num) he) (by norm_num) (by norm_num)
  exact e4.mono (by norm_num)

theorem downsample2_bd : ∀ (cnt : ℕ) {l : List F32}, AllBd (2 ^ 18) l → AllBd (2 ^ 19) (@downsample2 F32 (scalar el) cnt l)
  | 0, _, _ => by
    simp only [downsample2]; exact .nil
  | cnt + 1, l, h => by
    letI := scalar el
    match l, h with
    | [], _ | [_], _ | [_, _], _ | [_, _, _], _ | [_, _, _, _], _ => simp only [downsample2]; exact .nil
    | s0 :: s1 :: s2 :: s3 :: s4 :: r, h =>
      simp only [downsample2]
      refine .cons ?_ (downsample2_bd cnt (fun a ha => h a ?_))
      · exact down_one (h _ (by simp)) (h _ (by simp)) (h _ (by simp)) (h _ (by simp)) (h _ (by simp))
      · exact List.mem_cons_of_mem _ (List.mem_cons_of_mem _ ha)

end Lc3.F32
