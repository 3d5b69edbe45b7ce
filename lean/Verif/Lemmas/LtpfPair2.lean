import Verif.Lemmas.LtpfPair
/-! The post filter in binary32 and in exact arithmetic: fade factors, coefficients, loops. -/

namespace Lc3.F32
open Scalar Tables Spec

variable {el : Elem}

/-! ### Fade factors -/

/-- the scaling in binary32 follows the exact factor `φ` -/
def ScaleOk (X : ℝ) (sc : F32 → F32) (φ : ℝ) : Prop :=
  ∀ (f : F32) (f' e : ℝ), 0 ≤ e → e ≤ X / 8 → Cl e (4 * X) f f' → IsFin (sc f) ∧ |val (sc f) - f' * φ| ≤ φ * e + 20 * (X / 2 ^ 24)

theorem scaleOk_mul {X : ℝ} (h1 : 1 ≤ X) (h2 : X ≤ 2 ^ 104) {ρ : F32} {φ : ℝ} (hρ : IsFin ρ) (hφ : |val ρ - φ| ≤ 3 / 2 ^ 24) (h0 : 0 ≤ φ) (hφ1 : φ ≤ 1) :
    ScaleOk X (fun f => F32.mul f ρ) φ := by
  intro f f' e he he1 hf
  obtain ⟨ff, ef, sf⟩ := hf
  have b1 : |val f| ≤ 33 / 8 * X := by
    have := abs_sub_abs_le_abs_sub (val f) f'
    linarith
  have b2 : |val ρ| ≤ 1 + 3 / 2 ^ 24 := by
    have := abs_sub_abs_le_abs_sub (val ρ) φ
    rw [abs_of_nonneg h0] at this
    linarith
  have d : |val f * val ρ - f' * φ| ≤ φ * e + 33 / 8 * X * (3 / 2 ^ 24) := by
    have e0 : val f * val ρ - f' * φ = φ * (val f - f') + val f * (val ρ - φ) := by ring
    rw [e0]
    refine (abs_add_le _ _).trans ?_
    rw [abs_mul, abs_mul, abs_of_nonneg h0]
    exact add_le_add (mul_le_mul_of_nonneg_left ef h0) (mul_le_mul b1 hφ (abs_nonneg _) (by positivity))
  have b3 : |val f * val ρ| ≤ 33 / 8 * X * (1 + 3 / 2 ^ 24) := by
    rw [abs_mul]
    exact mul_le_mul b1 b2 (abs_nonneg _) (by positivity)
  obtain ⟨f1, e1⟩ := mul_val ff hρ (b3.trans (by
    calc 33 / 8 * X * (1 + 3 / 2 ^ 24) ≤ 33 / 8 * 2 ^ 104 * (1 + 3 / 2 ^ 24) := by gcongr
      _ ≤ 2 ^ 127 := by norm_num))
  refine ⟨f1, ?_⟩
  have t := abs_sub_le (val (F32.mul f ρ)) (val f * val ρ) (f' * φ)
  have j : |val f * val ρ| / 2 ^ 24 ≤ 33 / 8 * X * (1 + 3 / 2 ^ 24) / 2 ^ 24 := by gcongr
  have k : 33 / 8 * X * (1 + 3 / 2 ^ 24) / 2 ^ 24 + 1 / 2 ^ 150 + 33 / 8 * X * (3 / 2 ^ 24) ≤ 20 * (X / 2 ^ 24) := by norm_num; linarith
  linarith

theorem ramp_near {n N : ℕ} (hN : 0 < N) (hN2 : N ≤ 480) (h : n ≤ N) :
    IsFin (F32.div (rnd ((n : ℕ) : ℚ)) (rnd ((N : ℕ) : ℚ))) ∧
      |val (F32.div (rnd ((n : ℕ) : ℚ)) (rnd ((N : ℕ) : ℚ))) - (n : ℝ) / N| ≤ 1 / 2 ^ 24 + 1 / 2 ^ 150 := by
  have e : ∀ k : ℕ, k ≤ 480 → rnd ((k : ℕ) : ℚ) = fin (k : ℚ) := by
    intro k hk
    have := rnd_int24 (s := (k : ℤ)) (by rw [abs_of_nonneg (by positivity)]; norm_num; omega)
    exact_mod_cast this
  rw [e n (by omega), e N hN2]
  have hv : ∀ k : ℕ, val (fin ((k : ℕ) : ℚ)) = (k : ℝ) := by
    intro k
    show (((k : ℕ) : ℚ) : ℝ) = k
    push_cast; rfl
  have hN' : (0 : ℝ) < N := by exact_mod_cast hN
  have h1 : (n : ℝ) / N ≤ 1 := by rw [div_le_one hN']; exact_mod_cast h
  have h0 : 0 ≤ (n : ℝ) / N := by positivity
  obtain ⟨f1, e1⟩ := div_val (a := fin (n : ℚ)) (b := fin (N : ℚ)) ⟨_, rfl⟩ ⟨_, rfl⟩ (by rw [hv]; exact hN'.ne')
    (by rw [hv, hv, abs_of_nonneg h0]; exact h1.trans (by norm_num))
  rw [hv, hv, abs_of_nonneg h0] at e1
  refine ⟨f1, e1.trans ?_⟩
  gcongr

theorem scaleOk_in {X : ℝ} (h1 : 1 ≤ X) (h2 : X ≤ 2 ^ 104) {n N : ℕ} (hN : 0 < N) (hN2 : N ≤ 480) (h : n ≤ N) :
    ScaleOk X (@fadeIn F32 (scalar el) N n) ((n : ℝ) / N) := by
  obtain ⟨f1, e1⟩ := ramp_near hN hN2 h
  have hN' : (0 : ℝ) < N := by exact_mod_cast hN
  exact scaleOk_mul h1 h2 f1 (e1.trans (by norm_num)) (by positivity) (by rw [div_le_one hN']; exact_mod_cast h)

theorem scaleOk_out {X : ℝ} (h1 : 1 ≤ X) (h2 : X ≤ 2 ^ 104) {n N : ℕ} (hN : 0 < N) (hN2 : N ≤ 480) (h : n ≤ N) :
    ScaleOk X (@fadeOut F32 (scalar el) N n) (1 - (n : ℝ) / N) := by
  obtain ⟨f1, e1⟩ := ramp_near hN hN2 h
  have hN' : (0 : ℝ) < N := by exact_mod_cast hN
  have k1 : (n : ℝ) / N ≤ 1 := by rw [div_le_one hN']; exact_mod_cast h
  have k0 : 0 ≤ (n : ℝ) / N := by positivity
  have hone : @Scalar.one F32 (scalar el) = fin 1 := by
    have h : @Scalar.one F32 (scalar el) = rnd ((1 : ℤ) : ℚ) := by
      show rnd 1 = rnd ((1 : ℤ) : ℚ)
      norm_num
    rw [h, rnd_int24 (by norm_num)]
    norm_num
  have hv1 : val (fin 1) = 1 := by show ((1 : ℚ) : ℝ) = 1; norm_num
  generalize hρ : F32.div (rnd ((n : ℕ) : ℚ)) (rnd ((N : ℕ) : ℚ)) = ρ at *
  generalize (n : ℝ) / N = t at *
  have hd : |val (fin 1) - val ρ| ≤ 1 + 1 / 2 ^ 20 := by
    rw [hv1, abs_le]
    rw [abs_le] at e1
    constructor <;> norm_num at e1 ⊢ <;> linarith [e1.1, e1.2]
  obtain ⟨f2, e2⟩ := sub_val (a := fin 1) ⟨1, rfl⟩ f1 (hd.trans (by norm_num))
  have key : |val (F32.sub (fin 1) ρ) - (1 - t)| ≤ 3 / 2 ^ 24 := by
    have q := abs_sub_le (val (F32.sub (fin 1) ρ)) (val (fin 1) - val ρ) (1 - t)
    have q2 : |val (fin 1) - val ρ - (1 - t)| ≤ 1 / 2 ^ 24 + 1 / 2 ^ 150 := by
      rw [hv1, show 1 - val ρ - (1 - t) = -(val ρ - t) by ring, abs_neg]
      exact e1
    have q3 : |val (fin 1) - val ρ| / 2 ^ 24 ≤ (1 + 1 / 2 ^ 20) / 2 ^ 24 := by gcongr
    norm_num at q q2 q3 e2 ⊢
    linarith
  have := scaleOk_mul h1 h2 f2 key (by linarith) (by linarith)
  have e0 : @fadeOut F32 (scalar el) N n = fun f => F32.mul f (F32.sub (fin 1) ρ) := by
    funext f
    show F32.mul f (F32.sub (@Scalar.one F32 (scalar el)) (F32.div (rnd ((n : ℕ) : ℚ)) (rnd ((N : ℕ) : ℚ)))) = _
    rw [hone, hρ]
  rw [e0]
  exact this

theorem scaleOk_id {X : ℝ} (h1 : 1 ≤ X) : ScaleOk X (fun f => f) 1 := by
  intro f f' e he he1 hf
  refine ⟨hf.1, ?_⟩
  have : 0 ≤ 20 * (X / 2 ^ 24) := by positivity
  rw [mul_one, one_mul]
  linarith [hf.2.1]

/-- one filtered sample -/
theorem sample_pair {X : ℝ} (h1 : 1 ≤ X) (h2 : X ≤ 2 ^ 104) {sc : F32 → F32} {φ : ℝ} (hsc : ScaleOk X sc φ) (h0 : 0 ≤ φ) (hφ1 : φ ≤ 1)
    {Ev Sv Ef Sf : ℝ} {v f : F32} {v' f' : ℝ} (hv : Cl Ev Sv v v') (hf : Cl Ef Sf f f') (hE : Ev + Ef ≤ X / 8) (hEv : 0 ≤ Ev) (hEf : 0 ≤ Ef)
    (hSf : Sf ≤ 4 * X) (hS : Sv + φ * Sf ≤ 5 * X) :
    Cl (Ev + φ * Ef + 26 * (X / 2 ^ 24)) (Sv + φ * Sf) (F32.sub v (sc f)) (v' - f' * φ) := by
  obtain ⟨fs, es⟩ := hsc f f' Ef hEf (by linarith) (hf.mono le_rfl hSf)
  obtain ⟨fv, ev, sv⟩ := hv
  have hsz : |v' - f' * φ| ≤ Sv + φ * Sf := by
    refine (abs_sub _ _).trans (add_le_add sv ?_)
    rw [abs_mul, abs_of_nonneg h0, mul_comm]
    exact mul_le_mul_of_nonneg_left hf.2.2 h0
  have hd : |(val v - val (sc f)) - (v' - f' * φ)| ≤ Ev + φ * Ef + 20 * (X / 2 ^ 24) := by
    have e0 : (val v - val (sc f)) - (v' - f' * φ) = (val v - v') - (val (sc f) - f' * φ) := by ring
    rw [e0]
    have := abs_sub (val v - v') (val (sc f) - f' * φ)
    linarith
  have hφE : φ * Ef ≤ Ef := by nlinarith
  have hb : |val v - val (sc f)| ≤ 21 / 4 * X := by
    have := abs_sub_abs_le_abs_sub (val v - val (sc f)) (v' - f' * φ)
    have k : 20 * (X / 2 ^ 24) ≤ X / 8 := by norm_num; linarith
    linarith
  obtain ⟨f1, e1⟩ := sub_val fv fs (hb.trans (by
    calc 21 / 4 * X ≤ 21 / 4 * 2 ^ 104 := by gcongr
      _ ≤ 2 ^ 127 := by norm_num))
  refine ⟨f1, ?_, hsz⟩
  have t := abs_sub_le (val (F32.sub v (sc f))) (val v - val (sc f)) (v' - f' * φ)
  have j : |val v - val (sc f)| / 2 ^ 24 ≤ 21 / 4 * X / 2 ^ 24 := by gcongr
  have k : 21 / 4 * X / 2 ^ 24 + 1 / 2 ^ 150 ≤ 6 * (X / 2 ^ 24) := by norm_num; linarith
  linarith

/-! ### Coefficients -/

theorem mul_near {a b : F32} {p q κ μ η ζ : ℝ} (ha : IsFin a) (hb : IsFin b) (ea : |val a - p| ≤ κ * |p| + η) (eb : |val b - q| ≤ μ * |q| + ζ)
    (hp : |p| ≤ 1) (hq : |q| ≤ 2) (hκ : 0 ≤ κ) (hμ : 0 ≤ μ) (hη : 0 ≤ η) (hζ : 0 ≤ ζ) (hκ1 : κ ≤ 1) (hμ1 : μ ≤ 1) (hη1 : η ≤ 1) (hζ1 : ζ ≤ 1) :
    IsFin (F32.mul a b) ∧ |val (F32.mul a b) - p * q| ≤ ((1 + κ) * (1 + μ) * (1 + 1 / 2 ^ 24) - 1) * |p * q| + (16 * η + 8 * ζ + 1 / 2 ^ 150) := by
  have sa : |val a| ≤ (1 + κ) * |p| + η := by
    have := abs_sub_abs_le_abs_sub (val a) p
    linarith
  have sb : |val b| ≤ (1 + μ) * |q| + ζ := by
    have := abs_sub_abs_le_abs_sub (val b) q
    linarith
  have p0 := abs_nonneg p
  have q0 := abs_nonneg q
  have hd : |val a * val b - p * q| ≤ |p| * (μ * |q| + ζ) + (κ * |p| + η) * ((1 + μ) * |q| + ζ) := by
    have e0 : val a * val b - p * q = p * (val b - q) + (val a - p) * val b := by ring
    rw [e0]
    refine (abs_add_le _ _).trans ?_
    rw [abs_mul, abs_mul]
    exact add_le_add (mul_le_mul_of_nonneg_left eb p0) (mul_le_mul ea sb (abs_nonneg _) (by positivity))
  have hs : |val a * val b| ≤ ((1 + κ) * |p| + η) * ((1 + μ) * |q| + ζ) := by
    rw [abs_mul]
    exact mul_le_mul sa sb (abs_nonneg _) (by positivity)
  have hbig : ((1 + κ) * |p| + η) * ((1 + μ) * |q| + ζ) ≤ ((1 + 1) * 1 + 1) * ((1 + 1) * 2 + 1) := by gcongr
  obtain ⟨f1, e1⟩ := mul_val ha hb (hs.trans (hbig.trans (by norm_num)))
  refine ⟨f1, ?_⟩
  have t := abs_sub_le (val (F32.mul a b)) (val a * val b) (p * q)
  have j : |val a * val b| / 2 ^ 24 ≤ ((1 + κ) * |p| + η) * ((1 + μ) * |q| + ζ) / 2 ^ 24 := by gcongr
  rw [abs_mul p q]
  -- collect the small terms
  have m1 : |p| * ζ ≤ ζ := by nlinarith
  have m2 : κ * |p| * ζ ≤ ζ := by
    have : κ * |p| ≤ 1 := by nlinarith
    nlinarith [mul_nonneg hκ p0]
  have m3 : η * ((1 + μ) * |q| + ζ) ≤ η * 5 := by
    apply mul_le_mul_of_nonneg_left _ hη
    have : (1 + μ) * |q| ≤ 2 * 2 := by gcongr; linarith
    linarith
  have m4 : (1 + κ) * |p| * ζ ≤ 2 * ζ := by
    have : (1 + κ) * |p| ≤ 2 * 1 := by gcongr; linarith
    nlinarith
  have e0 : |p| * (μ * |q| + ζ) + (κ * |p| + η) * ((1 + μ) * |q| + ζ) = ((1 + κ) * (1 + μ) - 1) * (|p| * |q|) + (|p| * ζ + κ * |p| * ζ + η * ((1 + μ) * |q| + ζ)) := by
    ring
  have e2 : ((1 + κ) * |p| + η) * ((1 + μ) * |q| + ζ) = (1 + κ) * (1 + μ) * (|p| * |q|) + ((1 + κ) * |p| * ζ + η * ((1 + μ) * |q| + ζ)) := by ring
  rw [e0] at hd
  rw [e2] at j
  have e3 : ((1 + κ) * (1 + μ) * (1 + 1 / 2 ^ 24) - 1) * (|p| * |q|) = ((1 + κ) * (1 + μ) - 1) * (|p| * |q|) + (1 + κ) * (1 + μ) * (|p| * |q|) / 2 ^ 24 := by ring
  rw [e3]
  have j' : ((1 + κ) * (1 + μ) * (|p| * |q|) + ((1 + κ) * |p| * ζ + η * ((1 + μ) * |q| + ζ))) / 2 ^ 24 ≤ (1 + κ) * (1 + μ) * (|p| * |q|) / 2 ^ 24 + (2 * ζ + η * 5) := by
    rw [add_div]
    have w : 0 ≤ (1 + κ) * |p| * ζ + η * ((1 + μ) * |q| + ζ) := by positivity
    have : ((1 + κ) * |p| * ζ + η * ((1 + μ) * |q| + ζ)) / 2 ^ 24 ≤ ((1 + κ) * |p| * ζ + η * ((1 + μ) * |q| + ζ)) / 1 := by
      gcongr
      norm_num
    linarith
  linarith

theorem rnd_near {q : ℚ} (h : |(q : ℝ)| ≤ 2) : IsFin (rnd q) ∧ |val (rnd q) - q| ≤ 1 / 2 ^ 24 * |(q : ℝ)| + 1 / 2 ^ 150 := by
  obtain ⟨f1, e1⟩ := rnd_val (h.trans (by norm_num))
  exact ⟨f1, e1.trans (le_of_eq (by ring))⟩

theorem ratAbs_of_mem : ∀ {l : List ℚ} {B : ℚ}, ratAbsSum l ≤ B → ∀ c ∈ l, |c| ≤ B
  | [], _, _, c, hc => by simp at hc
  | a :: l, B, h, c, hc => by
    have e : ratAbsSum (a :: l) = |a| + ratAbsSum l := rfl
    rw [e] at h
    have h0 := ratAbsSum_nonneg l
    rcases List.mem_cons.1 hc with rfl | hc
    · linarith
    · exact ratAbs_of_mem (B := B) (by linarith [abs_nonneg a]) c hc

theorem forall₂_map_same {β γ δ : Type} {P : γ → δ → Prop} {g : β → γ} {k : β → δ} : ∀ {l : List β}, (∀ c ∈ l, P (g c) (k c)) →
    List.Forall₂ P (l.map g) (l.map k)
  | [], _ => List.Forall₂.nil
  | a :: l, h => List.Forall₂.cons (h a (by simp)) (forall₂_map_same fun c hc => h c (by simp [hc]))

theorem coefPair_setting (f : SamplingFrequency) (d : FrameDuration) (info : LtpfInfo) (nbits : ℕ) :
    CoefPair (@settingOf F32 (scalar el) f d info nbits).cNum (@settingOf F32 (scalar el) f d info nbits).cDen
      (settingOf f d info nbits : Setting ℝ).cNum (settingOf f d info nbits : Setting ℝ).cDen := by
  letI := scalar el
  obtain ⟨s1, s2⟩ := settingOf_sums f d info nbits
  have hc := coefOk_setting (el := el) f d info nbits
  refine ⟨?_, ?_, s1, s2, hc.nLen, hc.dLen⟩
  all_goals
    clear s1 s2 hc
    obtain ⟨t1, t2⟩ := tables_sums f
    obtain ⟨g1, g2⟩ := gainOf_range d (Lc3Config.new f d).fsInd nbits
    have hgi := gainOf_lt d (Lc3Config.new f d).fsInd nbits
    have hz : ∀ n, List.Forall₂ CoefNear (List.replicate n (@Scalar.zero F32 (scalar el))) (List.replicate n (zero : ℝ)) := by
      intro n
      have hzero : CoefNear (@Scalar.zero F32 (scalar el)) (zero : ℝ) := by
        rw [zero_eq, show (zero : ℝ) = 0 from Rat.cast_zero]
        refine ⟨⟨0, rfl⟩, ?_⟩
        show |((0 : ℚ) : ℝ) - 0| ≤ _
        norm_num
      induction n with
      | zero => exact List.Forall₂.nil
      | succ n ih => exact List.Forall₂.cons hzero ih
    unfold settingOf
    cases info.isActive
    · simp only [Bool.false_eq_true, if_false]
      exact hz _
    · simp only [if_true]
      have hfr : lagOut f info.pitchIndex % 4 < 4 := Nat.mod_lt _ (by omega)
      have k1 := t1 _ hgi
      have k2 := t2 _ hfr
      generalize gainOf d (Lc3Config.new f d).fsInd nbits = g at *
      have G2 : |(g.1 : ℝ)| ≤ 4 / 10 := by
        rw [abs_of_nonneg (by exact_mod_cast g1)]
        have := (Rat.cast_le (K := ℝ)).2 g2
        push_cast at this
        exact this
      obtain ⟨fg, eg⟩ := rnd_near (G2.trans (by norm_num))
      refine forall₂_map_same fun c hc => ?_
      have hc2 : |(c : ℝ)| ≤ 2 := by
        have h := by first | exact ratAbs_of_mem k1 c hc | exact ratAbs_of_mem k2 c hc
        have := (Rat.cast_le (K := ℝ)).2 h
        push_cast at this
        refine this.trans ?_
        norm_num
      obtain ⟨fc, ec⟩ := rnd_near hc2
      first
      | -- numerator
        have h85 : |((85 / 100 : ℚ) : ℝ)| ≤ 2 := by push_cast; rw [abs_of_nonneg (by norm_num)]; norm_num
        obtain ⟨f8, e8⟩ := rnd_near h85
        obtain ⟨fp, ep⟩ := mul_near f8 fg e8 eg (by push_cast; rw [abs_of_nonneg (by norm_num)]; norm_num) (G2.trans (by norm_num)) (by norm_num) (by norm_num)
          (by norm_num) (by norm_num) (by norm_num) (by norm_num) (by norm_num) (by norm_num)
        obtain ⟨fq, eq⟩ := mul_near fp fc ep ec (by
          rw [abs_mul]
          have : |((85 / 100 : ℚ) : ℝ)| ≤ 1 := by push_cast; rw [abs_of_nonneg (by norm_num)]; norm_num
          calc |((85 / 100 : ℚ) : ℝ)| * |(g.1 : ℝ)| ≤ 1 * (4 / 10) := by gcongr
            _ ≤ 1 := by norm_num) hc2 (by norm_num) (by norm_num) (by norm_num) (by norm_num) (by norm_num) (by norm_num) (by norm_num) (by norm_num)
        refine ⟨fq, eq.trans ?_⟩
        have n0 := abs_nonneg (((85 / 100 : ℚ) : ℝ) * (g.1 : ℝ) * (c : ℝ))
        show _ ≤ 6 / 2 ^ 24 * |((85 / 100 : ℚ) : ℝ) * (g.1 : ℝ) * (c : ℝ)| + 1 / 2 ^ 100
        generalize |((85 / 100 : ℚ) : ℝ) * (g.1 : ℝ) * (c : ℝ)| = w at *
        norm_num
        linarith
      | -- denominator
        obtain ⟨fq, eq⟩ := mul_near fg fc eg ec (G2.trans (by norm_num)) hc2 (by norm_num) (by norm_num)
          (by norm_num) (by norm_num) (by norm_num) (by norm_num) (by norm_num) (by norm_num)
        refine ⟨fq, eq.trans ?_⟩
        have n0 := abs_nonneg ((g.1 : ℝ) * (c : ℝ))
        show _ ≤ 6 / 2 ^ 24 * |(g.1 : ℝ) * (c : ℝ)| + 1 / 2 ^ 100
        generalize |(g.1 : ℝ) * (c : ℝ)| = w at *
        norm_num
        linarith

end Lc3.F32
