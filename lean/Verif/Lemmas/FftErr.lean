import Verif.Lemmas.F32Cx
import Mathlib.RingTheory.RootsOfUnity.Complex
import Mathlib.Algebra.Order.Chebyshev
/-! Rounding errors of the mixed radix transform in binary32. -/

namespace Lc3
open Scalar Finset

/-! ### The Euclidean norm -/

theorem l2_nonneg (n : ℕ) (g : ℕ → ℝ) : 0 ≤ l2 n g := Real.sqrt_nonneg _

theorem l2_sq (n : ℕ) (g : ℕ → ℝ) : l2 n g ^ 2 = ∑ i ∈ range n, g i ^ 2 :=
  Real.sq_sqrt (Finset.sum_nonneg fun _ _ => sq_nonneg _)

theorem l2_le_of_sq {n : ℕ} {g : ℕ → ℝ} {c : ℝ} (hc : 0 ≤ c) (h : ∑ i ∈ range n, g i ^ 2 ≤ c ^ 2) : l2 n g ≤ c := by
  rw [← Real.sqrt_sq hc]
  exact Real.sqrt_le_sqrt h

theorem l2_mono {n : ℕ} {g h : ℕ → ℝ} (hg : ∀ i, i < n → 0 ≤ g i) (hh : ∀ i, i < n → g i ≤ h i) : l2 n g ≤ l2 n h := by
  refine Real.sqrt_le_sqrt (Finset.sum_le_sum fun i hi => ?_)
  have := Finset.mem_range.mp hi
  exact pow_le_pow_left₀ (hg i this) (hh i this) 2

theorem l2_congr {n : ℕ} {g h : ℕ → ℝ} (hh : ∀ i, i < n → g i = h i) : l2 n g = l2 n h := by
  unfold l2
  rw [Finset.sum_congr rfl fun i hi => by rw [hh i (Finset.mem_range.mp hi)]]

theorem l2_add_le (n : ℕ) (g h : ℕ → ℝ) : l2 n (fun i => g i + h i) ≤ l2 n g + l2 n h := by
  have h1 := l2_nonneg n g
  have h2 := l2_nonneg n h
  refine l2_le_of_sq (by positivity) ?_
  have cs := Finset.sum_mul_sq_le_sq_mul_sq (range n) g h
  rw [← l2_sq, ← l2_sq] at cs
  have : ∑ i ∈ range n, g i * h i ≤ l2 n g * l2 n h := by
    refine (abs_le_of_sq_le_sq' ?_ (by positivity)).2
    rw [mul_pow]
    exact cs
  have e : ∑ i ∈ range n, (g i + h i) ^ 2
      = (∑ i ∈ range n, g i ^ 2) + 2 * (∑ i ∈ range n, g i * h i) + ∑ i ∈ range n, h i ^ 2 := by
    rw [Finset.mul_sum, ← Finset.sum_add_distrib, ← Finset.sum_add_distrib]
    exact Finset.sum_congr rfl fun i _ => by ring
  rw [e, ← l2_sq, ← l2_sq]
  nlinarith

theorem l2_smul (n : ℕ) (c : ℝ) (hc : 0 ≤ c) (g : ℕ → ℝ) : l2 n (fun i => c * g i) = c * l2 n g := by
  unfold l2
  rw [Finset.sum_congr rfl fun i _ => mul_pow c (g i) 2, ← Finset.mul_sum, Real.sqrt_mul (sq_nonneg c), Real.sqrt_sq hc]

theorem l2_const (n : ℕ) {c : ℝ} (hc : 0 ≤ c) : l2 n (fun _ => c) = Real.sqrt n * c := by
  unfold l2
  rw [Finset.sum_const, Finset.card_range, nsmul_eq_mul, Real.sqrt_mul (by positivity), Real.sqrt_sq hc]

theorem le_l2 {n i : ℕ} (g : ℕ → ℝ) (hi : i < n) : g i ≤ l2 n g := by
  refine Real.le_sqrt_of_sq_le ?_
  exact Finset.single_le_sum (f := fun i => g i ^ 2) (fun _ _ => sq_nonneg _) (Finset.mem_range.mpr hi)

/-! ### Parseval -/

theorem omega_ne_zero (inv : Bool) (n : ℕ) : omega inv n ≠ 0 := Complex.exp_ne_zero _

theorem norm_omega_pow (inv : Bool) (n k : ℕ) : ‖omega inv n ^ k‖ = 1 := by
  rw [norm_pow]
  have : ‖omega inv n‖ = 1 := by
    unfold omega
    have : (if inv then 1 else -1 : ℂ) * (2 * Real.pi * Complex.I / n)
        = (((if inv then 1 else -1) * (2 * Real.pi / n) : ℝ) : ℂ) * Complex.I := by
      cases inv <;> push_cast <;> simp <;> ring
    rw [this, Complex.norm_exp_ofReal_mul_I]
  rw [this, one_pow]

theorem omega_primitive (inv : Bool) {n : ℕ} (hn : 0 < n) : IsPrimitiveRoot (omega inv n) n := by
  have h := Complex.isPrimitiveRoot_exp n hn.ne'
  cases inv
  · have := h.inv
    unfold omega
    rw [← Complex.exp_neg] at this
    simpa using this
  · unfold omega
    simpa using h

theorem conj_omega (inv : Bool) (n k : ℕ) : (starRingEnd ℂ) (omega inv n ^ k) = (omega inv n ^ k)⁻¹ := by
  have h := norm_omega_pow inv n k
  rw [Complex.inv_def, Complex.normSq_eq_norm_sq, h]
  simp

theorem sum_omega {inv : Bool} {n j k : ℕ} (hj : j < n) (hk : k < n) :
    ∑ q ∈ range n, omega inv n ^ (j * q) * (starRingEnd ℂ) (omega inv n ^ (k * q)) = if j = k then (n : ℂ) else 0 := by
  have hn : 0 < n := by omega
  have h0 := omega_ne_zero inv n
  have hp := omega_primitive inv hn
  have e : ∀ q, omega inv n ^ (j * q) * (starRingEnd ℂ) (omega inv n ^ (k * q))
      = (omega inv n ^ j * (omega inv n ^ k)⁻¹) ^ q := by
    intro q
    rw [conj_omega, pow_mul, pow_mul, mul_pow, inv_pow]
  rw [Finset.sum_congr rfl fun q _ => e q]
  by_cases hjk : j = k
  · subst hjk
    rw [if_pos rfl, mul_inv_cancel₀ (pow_ne_zero _ h0)]
    simp
  · rw [if_neg hjk]
    have hne : omega inv n ^ j * (omega inv n ^ k)⁻¹ ≠ 1 := by
      intro h
      apply hjk
      have : omega inv n ^ j = omega inv n ^ k := by
        field_simp at h
        exact h
      exact hp.pow_inj hj hk this
    have h1 : (omega inv n ^ j * (omega inv n ^ k)⁻¹) ^ n = 1 := by
      rw [mul_pow, inv_pow, ← pow_mul, ← pow_mul, Nat.mul_comm j, Nat.mul_comm k, pow_mul, pow_mul, hp.pow_eq_one]
      simp
    rw [geom_sum_eq hne, h1]
    simp

theorem parseval (inv : Bool) (n : ℕ) (v : ℕ → ℂ) :
    ∑ q ∈ range n, ‖∑ j ∈ range n, v j * omega inv n ^ (j * q)‖ ^ 2 = n * ∑ j ∈ range n, ‖v j‖ ^ 2 := by
  have h : ∀ z : ℂ, ((‖z‖ ^ 2 : ℝ) : ℂ) = z * (starRingEnd ℂ) z := by
    intro z
    rw [Complex.mul_conj, Complex.normSq_eq_norm_sq]
  apply Complex.ofReal_injective
  rw [Complex.ofReal_sum, Complex.ofReal_mul, Complex.ofReal_sum]
  simp only [h, map_sum, map_mul, Finset.sum_mul_sum]
  rw [Finset.sum_comm, Finset.mul_sum]
  refine Finset.sum_congr rfl fun j hj => ?_
  rw [Finset.sum_comm]
  have hj' := Finset.mem_range.mp hj
  have e : ∀ k ∈ range n, (∑ q ∈ range n, v j * omega inv n ^ (j * q)
      * ((starRingEnd ℂ) (v k) * (starRingEnd ℂ) (omega inv n ^ (k * q))))
      = if j = k then v j * (starRingEnd ℂ) (v k) * n else 0 := by
    intro k hk
    have := sum_omega (inv := inv) hj' (Finset.mem_range.mp hk)
    have e1 : ∀ q, v j * omega inv n ^ (j * q) * ((starRingEnd ℂ) (v k) * (starRingEnd ℂ) (omega inv n ^ (k * q)))
        = (v j * (starRingEnd ℂ) (v k)) * (omega inv n ^ (j * q) * (starRingEnd ℂ) (omega inv n ^ (k * q))) := by
      intro q; ring
    rw [Finset.sum_congr rfl fun q _ => e1 q, ← Finset.mul_sum, this]
    split_ifs <;> simp
  rw [Finset.sum_congr rfl e, Finset.sum_ite_eq, if_pos hj]
  push_cast
  ring

theorem sum_block {M : Type} [AddCommMonoid M] (f : ℕ → M) (p m : ℕ) :
    ∑ t ∈ range (p * m), f t = ∑ i ∈ range m, ∑ q ∈ range p, f (i + q * m) := by
  rw [sum_range_mul' f m p, Finset.sum_comm]

/-- a stage multiplies the norm by the square root of the radix -/
theorem stageOut_norm {inv : Bool} {n p m fs : ℕ} (hn : fs * (p * m) = n) (hpos : 0 < n) (v : ℕ → ℂ) :
    ∑ k ∈ range (p * m), ‖stageOut inv n p m fs v k‖ ^ 2 = p * ∑ k ∈ range (p * m), ‖v k‖ ^ 2 := by
  rw [sum_block, sum_block, Finset.mul_sum]
  refine Finset.sum_congr rfl fun i hi => ?_
  have hi' := Finset.mem_range.mp hi
  have e : ∀ q, stageOut inv n p m fs v (i + q * m)
      = ∑ j ∈ range p, (v (i + j * m) * omega inv n ^ (i * (fs * j))) * omega inv p ^ (j * q) := by
    intro q
    unfold stageOut
    refine Finset.sum_congr rfl fun j _ => ?_
    rw [omega_split hn hpos, Nat.add_mul_mod_self_right, Nat.mod_eq_of_lt hi']
    ring
  simp only [e]
  rw [parseval]
  congr 1
  refine Finset.sum_congr rfl fun j _ => ?_
  rw [norm_mul, norm_omega_pow, mul_one]

theorem stageOut_sub {inv : Bool} {n p m fs : ℕ} (u v : ℕ → ℂ) (k : ℕ) :
    stageOut inv n p m fs u k - stageOut inv n p m fs v k = stageOut inv n p m fs (fun k => u k - v k) k := by
  unfold stageOut
  rw [← Finset.sum_sub_distrib]
  exact Finset.sum_congr rfl fun j _ => by ring

/-- the partial transforms have the norm of their inputs times the square root of their size -/
theorem part_norm {inv : Bool} {n s fs : ℕ} (hn : fs * s = n) (hpos : 0 < n) (v : ℕ → ℂ) :
    ∑ k ∈ range s, ‖∑ t ∈ range s, v t * omega inv n ^ (fs * t * k)‖ ^ 2 = s * ∑ t ∈ range s, ‖v t‖ ^ 2 := by
  have : omega inv n ^ fs = omega inv s := by
    have := omega_root (inv := inv) (p := s) (m := 1) (fs := fs) (n := n) (by rw [Nat.mul_one]; exact hn) hpos
    simpa using this
  rw [← parseval inv s v]
  refine Finset.sum_congr rfl fun k _ => ?_
  congr 2
  refine Finset.sum_congr rfl fun t _ => ?_
  rw [Nat.mul_assoc, pow_mul, this]

namespace F32

/-! ### One column -/

variable {el : Elem}

/-- the tolerance of the inputs -/
noncomputable def tiny : ℝ := 1 / 2 ^ 100

theorem tw_near (hel : Accurate el) {n : ℕ} (inv : Bool) {k : ℕ} (hk : k < n) :
    ∃ t, idx (@fftTwiddle F32 (scalar el) n inv) k = .ok t ∧ Nr (3 / 2) 1 t (ofC (omega inv n ^ k)) ∧
      Co t.r (omega inv n ^ k).re ∧ Co t.i (omega inv n ^ k).im := by
  have hr := fftTwiddle_eq n inv
  have h1 : idx (fftTwiddle n inv : List (Cx ℝ)) k = .ok (ofC (omega inv n ^ k)) := by
    rw [hr, idx_map_range _ hk]
  have h2 : idx (fftTwiddle n inv : List (Cx ℝ)) k = .ok
      ⟨Real.cos (((if inv then 2 else -2) * (k : ℚ) / n : ℚ) * Real.pi),
        Real.sin (((if inv then 2 else -2) * (k : ℚ) / n : ℚ) * Real.pi)⟩ := by
    unfold fftTwiddle
    rw [idx_map_range _ hk]
    rfl
  rw [h1, Res.ok.injEq] at h2
  obtain ⟨q, hq⟩ : ∃ q : ℚ, q = (if inv then 2 else -2) * (k : ℚ) / n := ⟨_, rfl⟩
  rw [← hq] at h2
  obtain ⟨c, hc, ec⟩ := hel.cosPi q
  obtain ⟨s, hs, es⟩ := hel.sinPi q
  have er : (omega inv n ^ k).re = Real.cos (q * Real.pi) := by
    have := congrArg Cx.r h2
    exact this
  have ei : (omega inv n ^ k).im = Real.sin (q * Real.pi) := by
    have := congrArg Cx.i h2
    exact this
  refine ⟨⟨fin c, fin s⟩, ?_, ?_, ?_, ?_⟩
  · unfold fftTwiddle
    rw [idx_map_range _ hk]
    show Res.ok (⟨el.cosPi _, el.sinPi _⟩ : Cx F32) = _
    rw [← hq, hc, hs]
  · refine ⟨⟨c, rfl⟩, ⟨s, rfl⟩, by norm_num, by norm_num, ?_, ?_⟩
    · rw [toC_ofC, norm_omega_pow]
    · rw [toC_ofC]
      have := norm_le_comp (e := cval ⟨fin c, fin s⟩ - omega inv n ^ k) (c := 1 / 2 ^ 24) (by norm_num)
        (by rw [Complex.sub_re, er]; exact ec) (by rw [Complex.sub_im, ei]; exact es)
      refine this.trans ?_
      norm_num
  · exact ⟨⟨c, rfl⟩, by rw [er]; exact Real.abs_cos_le_one _, by rw [er]; exact ec⟩
  · exact ⟨⟨s, rfl⟩, by rw [ei]; exact Real.abs_sin_le_one _, by rw [ei]; exact es⟩

theorem half_near : Co (rnd (1 / 2)) ((1 / 2 : ℚ) : ℝ) := by
  have h : rndQ (1 / 2) = 1 / 2 := rndQ_rep ⟨1, -1, by norm_num, by norm_num, by norm_num⟩
  have : rnd (1 / 2) = fin (1 / 2) := by
    rw [rnd_fin (by rw [abs_of_pos (by norm_num)]; norm_num), h]
  rw [this]
  refine ⟨⟨_, rfl⟩, ?_, ?_⟩
  · push_cast; rw [abs_of_pos (by norm_num)]; norm_num
  · show |((1 / 2 : ℚ) : ℝ) - ((1 / 2 : ℚ) : ℝ)| ≤ _
    rw [sub_self, abs_zero]; positivity

theorem in_near {z : Cx F32} (h : IsFin z.r ∧ IsFin z.i) : Nr 0 (‖cval z‖ + tiny) z (ofC (cval z)) := by
  have : (0 : ℝ) ≤ ‖cval z‖ := norm_nonneg _
  refine ⟨h.1, h.2, ?_, le_refl _, ?_, ?_⟩
  · unfold tiny; linarith
  · rw [toC_ofC]; unfold tiny; have : (0 : ℝ) ≤ 1 / 2 ^ 100 := by positivity
    linarith
  · rw [toC_ofC, sub_self, norm_zero, zero_mul, zero_div]

/-- the error constant of a radix -/
noncomputable def radK : ℕ → ℝ
  | 2 => 6
  | 3 => 20
  | 4 => 7
  | _ => 22

/-- finite, and within `e` of `w` -/
def Within (e : ℝ) (z : Cx F32) (w : ℂ) : Prop := (IsFin z.r ∧ IsFin z.i) ∧ ‖cval z - w‖ ≤ e

theorem Nr.within {k m e : ℝ} {z : Cx F32} {v : Cx ℝ} {w : ℂ} (h : Nr k m z v) (hv : v = ofC w) (he : k * m ≤ e * 2 ^ 24) :
    Within e z w := by
  subst hv
  refine ⟨⟨h.fr, h.fi⟩, h.er.trans ?_⟩
  rw [div_le_iff₀ (by positivity)]
  exact he

theorem cx_ext {a b : Cx ℝ} (h1 : a.r = b.r) (h2 : a.i = b.i) : a = b := by
  cases a; cases b; simp only at h1 h2; rw [h1, h2]

theorem bflyCol_near (hel : Accurate el) {inv : Bool} {n p m fs rest i : ℕ} {b : ℕ → Cx F32} (hp : 2 ≤ p ∧ p ≤ 5) (hi : i < m)
    (hn : fs * (p * m) = n) (hpos : 0 < n) (hb : ∀ k, k < p * m → IsFin (b k).r ∧ IsFin (b k).i)
    (hm : ∀ k, k < p * m → ‖cval (b k)‖ ≤ 2 ^ 108) :
    ∃ c, @bflyCol F32 (scalar el) inv p (@fftTwiddle F32 (scalar el) n inv) ((List.range (p * m)).map b) fs m rest i = .ok c ∧
      ∃ O : ℕ → Cx F32, c = (List.range p).map O ∧ ∀ q, q < p →
        Within (radK p / 2 ^ 24 * ∑ j ∈ range p, (‖cval (b (i + j * m))‖ + tiny)) (O q)
          (stageOut inv n p m fs (fun k => cval (b k)) (i + q * m)) := by
  have hfs : 1 ≤ fs := by
    rcases Nat.eq_zero_or_pos fs with rfl | h
    · simp at hn; omega
    · exact h
  have e1 : i * fs < m * fs := Nat.mul_lt_mul_of_pos_right hi hfs
  have key : ∀ j, j < p → i * (fs * j) < n := by
    intro j hj
    calc i * (fs * j) = i * fs * j := by ring
      _ ≤ m * fs * j := Nat.mul_le_mul_right _ (by omega)
      _ < m * fs * p := Nat.mul_lt_mul_of_pos_left hj (by omega)
      _ = n := by rw [← hn]; ring
  have key2 : ∀ j, j < p → fs * j * m < n := by
    intro j hj
    calc fs * j * m = m * fs * j := by ring
      _ < m * fs * p := Nat.mul_lt_mul_of_pos_left hj (by omega)
      _ = n := by rw [← hn]; ring
  have kb : ∀ j, j < p → i + j * m < p * m := by
    intro j hj
    calc i + j * m < m + j * m := by omega
      _ = m * (j + 1) := by ring
      _ ≤ m * p := Nat.mul_le_mul_left _ hj
      _ = p * m := Nat.mul_comm _ _
  have hTR : ∀ j, j < p → idx (fftTwiddle n inv : List (Cx ℝ)) (i * (fs * j)) = .ok (ofC (omega inv n ^ (i * (fs * j)))) := by
    intro j hj; rw [fftTwiddle_eq, idx_map_range _ (key j hj)]
  have hZR : ∀ j, j < p → idx (fftTwiddle n inv : List (Cx ℝ)) (fs * j * m) = .ok (ofC (omega inv n ^ (fs * j * m))) := by
    intro j hj; rw [fftTwiddle_eq, idx_map_range _ (key2 j hj)]
  have hBR : ∀ j, j < p → idx ((List.range (p * m)).map fun k => ofC (cval (b k))) (i + m * j)
      = .ok (ofC (cval (b (i + j * m)))) := by
    intro j hj; rw [Nat.mul_comm m j, idx_map_range _ (kb j hj)]
  have hBF : ∀ j, j < p → idx ((List.range (p * m)).map b) (i + m * j) = .ok (b (i + j * m)) := by
    intro j hj; rw [Nat.mul_comm m j, idx_map_range _ (kb j hj)]
  have hBN : ∀ j, j < p → Nr 0 (‖cval (b (i + j * m))‖ + tiny) (b (i + j * m)) (ofC (cval (b (i + j * m)))) :=
    fun j hj => in_near (hb _ (kb j hj))
  have hBM : ∀ j, j < p → ‖cval (b (i + j * m))‖ + tiny ≤ 2 ^ 109 := by
    intro j hj
    have := hm _ (kb j hj)
    unfold tiny
    norm_num at this ⊢
    linarith
  have hB0 : ∀ j, 0 ≤ ‖cval (b (i + j * m))‖ + tiny := by
    intro j; unfold tiny; positivity
  have hR := bflyCol_ok (inv := inv) (rest := 0) (B := fun k => cval (b k)) hp hi hn hpos
  obtain rfl | rfl | rfl | rfl : p = 2 ∨ p = 3 ∨ p = 4 ∨ p = 5 := by omega
  · obtain ⟨w1, f1, t1, -⟩ := tw_near hel inv (key 1 (by omega))
    have r0 := hBR 0 (by omega)
    have r1 := hBR 1 (by omega)
    have s1 := hTR 1 (by omega)
    have b0 := hBF 0 (by omega)
    have b1 := hBF 1 (by omega)
    have n0 := hBN 0 (by omega)
    have n1 := hBN 1 (by omega)
    have m0 := hBM 0 (by omega)
    have m1 := hBM 1 (by omega)
    have p0 := hB0 0
    have p1 := hB0 1
    simp only [Finset.sum_range_succ, Finset.sum_range_zero, zero_add]
    generalize ‖cval (b (i + 0 * m))‖ + tiny = M0 at *
    generalize ‖cval (b (i + 1 * m))‖ + tiny = M1 at *
    generalize ofC (cval (b (i + 0 * m))) = R0 at *
    generalize ofC (cval (b (i + 1 * m))) = R1 at *
    generalize b (i + 0 * m) = B0 at *
    generalize b (i + 1 * m) = B1 at *
    simp only [Nat.mul_zero, Nat.add_zero, Nat.mul_one] at b0 b1 r0 r1 f1 s1 t1
    simp only [bflyCol, bfly2, r0, r1, s1, Res.bind_ok, Res.ok.injEq] at hR
    simp only [bflyCol, bfly2, b0, b1, f1, Res.bind_ok]
    simp only [List.range_succ, List.range_zero, List.nil_append, List.map_cons, List.map_nil, List.cons_append,
      List.cons.injEq, and_true] at hR
    obtain ⟨hR0, hR1⟩ := hR
    norm_num at m0 m1
    have S := n1.mul t1 (by norm_num) (by linarith)
    have O0 := n0.add S (k := 451 / 100) (by norm_num) (by norm_num) (by norm_num) (by norm_num; linarith)
    have O1 := n0.sub S (k := 451 / 100) (by norm_num) (by norm_num) (by norm_num) (by norm_num; linarith)
    refine ⟨_, rfl, fun q => match q with | 0 => _ | _ => _, rfl, ?_⟩
    intro q hq
    obtain rfl | rfl : q = 0 ∨ q = 1 := by omega
    · exact O0.within hR0 (by simp only [radK]; linarith)
    · exact O1.within hR1 (by simp only [radK]; linarith)
  · obtain ⟨w1, f1, t1, -⟩ := tw_near hel inv (key 1 (by omega))
    obtain ⟨w2, f2, t2, -⟩ := tw_near hel inv (key 2 (by omega))
    obtain ⟨y1, g1, -, cr1, ci1⟩ := tw_near hel inv (key2 1 (by omega))
    have r0 := hBR 0 (by omega)
    have b0 := hBF 0 (by omega)
    have n0 := hBN 0 (by omega)
    have m0 := hBM 0 (by omega)
    have p0 := hB0 0
    have r1 := hBR 1 (by omega)
    have s1 := hTR 1 (by omega)
    have b1 := hBF 1 (by omega)
    have n1 := hBN 1 (by omega)
    have m1 := hBM 1 (by omega)
    have p1 := hB0 1
    have r2 := hBR 2 (by omega)
    have s2 := hTR 2 (by omega)
    have b2 := hBF 2 (by omega)
    have n2 := hBN 2 (by omega)
    have m2 := hBM 2 (by omega)
    have p2 := hB0 2
    have z1 := hZR 1 (by omega)
    simp only [Finset.sum_range_succ, Finset.sum_range_zero, zero_add]
    generalize ‖cval (b (i + 0 * m))‖ + tiny = M0 at *
    generalize ‖cval (b (i + 1 * m))‖ + tiny = M1 at *
    generalize ‖cval (b (i + 2 * m))‖ + tiny = M2 at *
    generalize ofC (cval (b (i + 0 * m))) = R0 at *
    generalize ofC (cval (b (i + 1 * m))) = R1 at *
    generalize ofC (cval (b (i + 2 * m))) = R2 at *
    generalize b (i + 0 * m) = B0 at *
    generalize b (i + 1 * m) = B1 at *
    generalize b (i + 2 * m) = B2 at *
    simp only [Nat.mul_zero, Nat.add_zero, Nat.mul_one] at b0 b1 r0 r1 f1 s1 t1 g1 z1 ci1
    simp only [bflyCol, bfly3, r0, r1, r2, s1, s2, z1, Res.bind_ok, Res.ok.injEq] at hR
    simp only [bflyCol, bfly3, b0, b1, b2, f1, f2, g1, Res.bind_ok]
    simp only [List.range_succ, List.range_zero, List.nil_append, List.map_cons, List.map_nil, List.cons_append,
      List.cons.injEq, and_true] at hR
    obtain ⟨hR0, hR1, hR2⟩ := hR
    norm_num at m0 m1 m2
    have S1 := n1.mul t1 (by norm_num) (by linarith)
    have S2 := n2.mul t2 (by norm_num) (by linarith)
    have S3 := S1.add S2 (k := 451 / 100) (by norm_num) (by norm_num) (by norm_num) (by norm_num; linarith)
    have S0 := S1.sub S2 (k := 451 / 100) (by norm_num) (by norm_num) (by norm_num) (by norm_num; linarith)
    have H := S3.smul half_near (by norm_num) (by norm_num; linarith)
    have F := n0.sub H (k := 753 / 100) (by norm_num) (by norm_num) (by norm_num) (by norm_num; linarith)
    have E := S0.smul ci1 (by norm_num) (by norm_num; linarith)
    have O0 := n0.add S3 (k := 552 / 100) (by norm_num) (by norm_num) (by norm_num) (by norm_num; linarith)
    have O1 := F.add E.rot' (k := 854 / 100) (by norm_num) (by norm_num) (by norm_num) (by norm_num; linarith)
    have O2 := F.add E.rot (k := 854 / 100) (by norm_num) (by norm_num) (by norm_num) (by norm_num; linarith)
    refine ⟨_, rfl, fun q => match q with | 0 => _ | 1 => _ | _ => _, rfl, ?_⟩
    intro q hq
    obtain rfl | rfl | rfl : q = 0 ∨ q = 1 ∨ q = 2 := by omega
    · exact O0.within hR0 (by simp only [radK]; linarith)
    · exact O1.within (by rw [← hR1]; exact cx_ext (sub_eq_add_neg _ _).symm rfl) (by simp only [radK]; linarith)
    · exact O2.within (by rw [← hR2]; exact cx_ext rfl (sub_eq_add_neg _ _).symm) (by simp only [radK]; linarith)
  · obtain ⟨w1, f1, t1, -⟩ := tw_near hel inv (key 1 (by omega))
    obtain ⟨w2, f2, t2, -⟩ := tw_near hel inv (key 2 (by omega))
    obtain ⟨w3, f3, t3, -⟩ := tw_near hel inv (key 3 (by omega))
    have r0 := hBR 0 (by omega)
    have b0 := hBF 0 (by omega)
    have n0 := hBN 0 (by omega)
    have m0 := hBM 0 (by omega)
    have p0 := hB0 0
    have r1 := hBR 1 (by omega)
    have s1 := hTR 1 (by omega)
    have b1 := hBF 1 (by omega)
    have n1 := hBN 1 (by omega)
    have m1 := hBM 1 (by omega)
    have p1 := hB0 1
    have r2 := hBR 2 (by omega)
    have s2 := hTR 2 (by omega)
    have b2 := hBF 2 (by omega)
    have n2 := hBN 2 (by omega)
    have m2 := hBM 2 (by omega)
    have p2 := hB0 2
    have r3 := hBR 3 (by omega)
    have s3 := hTR 3 (by omega)
    have b3 := hBF 3 (by omega)
    have n3 := hBN 3 (by omega)
    have m3 := hBM 3 (by omega)
    have p3 := hB0 3
    simp only [Finset.sum_range_succ, Finset.sum_range_zero, zero_add]
    generalize ‖cval (b (i + 0 * m))‖ + tiny = M0 at *
    generalize ‖cval (b (i + 1 * m))‖ + tiny = M1 at *
    generalize ‖cval (b (i + 2 * m))‖ + tiny = M2 at *
    generalize ‖cval (b (i + 3 * m))‖ + tiny = M3 at *
    generalize ofC (cval (b (i + 0 * m))) = R0 at *
    generalize ofC (cval (b (i + 1 * m))) = R1 at *
    generalize ofC (cval (b (i + 2 * m))) = R2 at *
    generalize ofC (cval (b (i + 3 * m))) = R3 at *
    generalize b (i + 0 * m) = B0 at *
    generalize b (i + 1 * m) = B1 at *
    generalize b (i + 2 * m) = B2 at *
    generalize b (i + 3 * m) = B3 at *
    simp only [Nat.mul_zero, Nat.add_zero, Nat.mul_one] at b0 b1 r0 r1 f1 s1 t1
    simp only [bflyCol, bfly4, r0, r1, r2, r3, s1, s2, s3, Res.bind_ok] at hR
    simp only [bflyCol, bfly4, b0, b1, b2, b3, f1, f2, f3, Res.bind_ok]
    norm_num at m0 m1 m2 m3
    have S0 := n1.mul t1 (by norm_num) (by linarith)
    have S1 := n2.mul t2 (by norm_num) (by linarith)
    have S2 := n3.mul t3 (by norm_num) (by linarith)
    have S5 := n0.sub S1 (k := 451 / 100) (by norm_num) (by norm_num) (by norm_num) (by norm_num; linarith)
    have A0 := n0.add S1 (k := 451 / 100) (by norm_num) (by norm_num) (by norm_num) (by norm_num; linarith)
    have S3 := S0.add S2 (k := 451 / 100) (by norm_num) (by norm_num) (by norm_num) (by norm_num; linarith)
    have S4 := S0.sub S2 (k := 451 / 100) (by norm_num) (by norm_num) (by norm_num) (by norm_num; linarith)
    have O0 := A0.add S3 (k := 552 / 100) (by norm_num) (by norm_num) (by norm_num) (by norm_num; linarith)
    have O1 := S5.add S4.rot' (k := 552 / 100) (by norm_num) (by norm_num) (by norm_num) (by norm_num; linarith)
    have O2 := A0.sub S3 (k := 552 / 100) (by norm_num) (by norm_num) (by norm_num) (by norm_num; linarith)
    have O3 := S5.add S4.rot (k := 552 / 100) (by norm_num) (by norm_num) (by norm_num) (by norm_num; linarith)
    cases inv
    · simp only [if_true, Bool.false_eq_true, if_false, List.range_succ, List.range_zero, List.nil_append, List.map_cons,
        List.map_nil, List.cons_append, List.cons.injEq, and_true, Res.ok.injEq] at hR ⊢
      obtain ⟨hR0, hR1, hR2, hR3⟩ := hR
      refine ⟨_, rfl, fun q => match q with | 0 => _ | 1 => _ | 2 => _ | _ => _, rfl, ?_⟩
      intro q hq
      obtain rfl | rfl | rfl | rfl : q = 0 ∨ q = 1 ∨ q = 2 ∨ q = 3 := by omega
      · exact O0.within hR0 (by simp only [radK]; linarith)
      · exact O3.within (by rw [← hR1]; exact cx_ext rfl (sub_eq_add_neg _ _).symm) (by simp only [radK]; linarith)
      · exact O2.within hR2 (by simp only [radK]; linarith)
      · exact O1.within (by rw [← hR3]; exact cx_ext (sub_eq_add_neg _ _).symm rfl) (by simp only [radK]; linarith)
    · simp only [if_true, Bool.false_eq_true, if_false, List.range_succ, List.range_zero, List.nil_append, List.map_cons,
        List.map_nil, List.cons_append, List.cons.injEq, and_true, Res.ok.injEq] at hR ⊢
      obtain ⟨hR0, hR1, hR2, hR3⟩ := hR
      refine ⟨_, rfl, fun q => match q with | 0 => _ | 1 => _ | 2 => _ | _ => _, rfl, ?_⟩
      intro q hq
      obtain rfl | rfl | rfl | rfl : q = 0 ∨ q = 1 ∨ q = 2 ∨ q = 3 := by omega
      · exact O0.within hR0 (by simp only [radK]; linarith)
      · exact O1.within (by rw [← hR1]; exact cx_ext (sub_eq_add_neg _ _).symm rfl) (by simp only [radK]; linarith)
      · exact O2.within hR2 (by simp only [radK]; linarith)
      · exact O3.within (by rw [← hR3]; exact cx_ext rfl (sub_eq_add_neg _ _).symm) (by simp only [radK]; linarith)
  · obtain ⟨w1, f1, t1, -⟩ := tw_near hel inv (key 1 (by omega))
    obtain ⟨w2, f2, t2, -⟩ := tw_near hel inv (key 2 (by omega))
    obtain ⟨w3, f3, t3, -⟩ := tw_near hel inv (key 3 (by omega))
    obtain ⟨w4, f4, t4, -⟩ := tw_near hel inv (key 4 (by omega))
    obtain ⟨y1, g1, -, cr1, ci1⟩ := tw_near hel inv (key2 1 (by omega))
    obtain ⟨y2, g2, -, cr2, ci2⟩ := tw_near hel inv (key2 2 (by omega))
    have r0 := hBR 0 (by omega)
    have b0 := hBF 0 (by omega)
    have n0 := hBN 0 (by omega)
    have m0 := hBM 0 (by omega)
    have p0 := hB0 0
    have r1 := hBR 1 (by omega)
    have s1 := hTR 1 (by omega)
    have b1 := hBF 1 (by omega)
    have n1 := hBN 1 (by omega)
    have m1 := hBM 1 (by omega)
    have p1 := hB0 1
    have r2 := hBR 2 (by omega)
    have s2 := hTR 2 (by omega)
    have b2 := hBF 2 (by omega)
    have n2 := hBN 2 (by omega)
    have m2 := hBM 2 (by omega)
    have p2 := hB0 2
    have r3 := hBR 3 (by omega)
    have s3 := hTR 3 (by omega)
    have b3 := hBF 3 (by omega)
    have n3 := hBN 3 (by omega)
    have m3 := hBM 3 (by omega)
    have p3 := hB0 3
    have r4 := hBR 4 (by omega)
    have s4 := hTR 4 (by omega)
    have b4 := hBF 4 (by omega)
    have n4 := hBN 4 (by omega)
    have m4 := hBM 4 (by omega)
    have p4 := hB0 4
    have z1 := hZR 1 (by omega)
    have z2 := hZR 2 (by omega)
    simp only [Finset.sum_range_succ, Finset.sum_range_zero, zero_add]
    generalize ‖cval (b (i + 0 * m))‖ + tiny = M0 at *
    generalize ‖cval (b (i + 1 * m))‖ + tiny = M1 at *
    generalize ‖cval (b (i + 2 * m))‖ + tiny = M2 at *
    generalize ‖cval (b (i + 3 * m))‖ + tiny = M3 at *
    generalize ‖cval (b (i + 4 * m))‖ + tiny = M4 at *
    generalize ofC (cval (b (i + 0 * m))) = R0 at *
    generalize ofC (cval (b (i + 1 * m))) = R1 at *
    generalize ofC (cval (b (i + 2 * m))) = R2 at *
    generalize ofC (cval (b (i + 3 * m))) = R3 at *
    generalize ofC (cval (b (i + 4 * m))) = R4 at *
    generalize b (i + 0 * m) = B0 at *
    generalize b (i + 1 * m) = B1 at *
    generalize b (i + 2 * m) = B2 at *
    generalize b (i + 3 * m) = B3 at *
    generalize b (i + 4 * m) = B4 at *
    simp only [Nat.mul_zero, Nat.add_zero, Nat.mul_one] at b0 b1 r0 r1 f1 s1 t1 g1 z1 ci1 cr1
    have c2 : i * 2 * fs = i * (fs * 2) := by ring
    have c3 : i * 3 * fs = i * (fs * 3) := by ring
    have c4 : i * 4 * fs = i * (fs * 4) := by ring
    simp only [bflyCol, bfly5, c2, c3, c4, r0, r1, r2, r3, r4, s1, s2, s3, s4, z1, z2, Res.bind_ok, Res.ok.injEq] at hR
    simp only [bflyCol, bfly5, c2, c3, c4, b0, b1, b2, b3, b4, f1, f2, f3, f4, g1, g2, Res.bind_ok]
    simp only [List.range_succ, List.range_zero, List.nil_append, List.map_cons, List.map_nil, List.cons_append,
      List.cons.injEq, and_true] at hR
    obtain ⟨hR0, hR1, hR2, hR3, hR4⟩ := hR
    norm_num at m0 m1 m2 m3 m4
    have S1 := n1.mul t1 (by norm_num) (by linarith)
    have S2 := n2.mul t2 (by norm_num) (by linarith)
    have S3 := n3.mul t3 (by norm_num) (by linarith)
    have S4 := n4.mul t4 (by norm_num) (by linarith)
    have S7 := S1.add S4 (k := 451 / 100) (by norm_num) (by norm_num) (by norm_num) (by norm_num; linarith)
    have S10 := S1.sub S4 (k := 451 / 100) (by norm_num) (by norm_num) (by norm_num) (by norm_num; linarith)
    have S8 := S2.add S3 (k := 451 / 100) (by norm_num) (by norm_num) (by norm_num) (by norm_num; linarith)
    have S9 := S2.sub S3 (k := 451 / 100) (by norm_num) (by norm_num) (by norm_num) (by norm_num; linarith)
    have A := S7.add S8 (k := 552 / 100) (by norm_num) (by norm_num) (by norm_num) (by norm_num; linarith)
    have O0 := n0.add A (k := 653 / 100) (by norm_num) (by norm_num) (by norm_num) (by norm_num; linarith)
    have S5 := (n0.add (S7.smul cr1 (by norm_num) (by norm_num; linarith)) (k := 753 / 100) (by norm_num) (by norm_num) (by norm_num) (by norm_num; linarith)).add (S8.smul cr2 (by norm_num) (by norm_num; linarith)) (k := 854 / 100) (by norm_num) (by norm_num) (by norm_num) (by norm_num; linarith)
    have S6 := (S10.smul ci1 (by norm_num) (by norm_num; linarith)).rot.add (S9.smul ci2 (by norm_num) (by norm_num; linarith)).rot (k := 753 / 100) (by norm_num) (by norm_num) (by norm_num) (by norm_num; linarith)
    have S11 := (n0.add (S7.smul cr2 (by norm_num) (by norm_num; linarith)) (k := 753 / 100) (by norm_num) (by norm_num) (by norm_num) (by norm_num; linarith)).add (S8.smul cr1 (by norm_num) (by norm_num; linarith)) (k := 854 / 100) (by norm_num) (by norm_num) (by norm_num) (by norm_num; linarith)
    have S12 := (S10.smul ci2 (by norm_num) (by norm_num; linarith)).rot'.add (S9.smul ci1 (by norm_num) (by norm_num; linarith)).rot (k := 753 / 100) (by norm_num) (by norm_num) (by norm_num) (by norm_num; linarith)
    have O1 := S5.sub S6 (k := 955 / 100) (by norm_num) (by norm_num) (by norm_num) (by norm_num; linarith)
    have O2 := S11.add S12 (k := 955 / 100) (by norm_num) (by norm_num) (by norm_num) (by norm_num; linarith)
    have O3 := S11.sub S12 (k := 955 / 100) (by norm_num) (by norm_num) (by norm_num) (by norm_num; linarith)
    have O4 := S5.add S6 (k := 955 / 100) (by norm_num) (by norm_num) (by norm_num) (by norm_num; linarith)
    refine ⟨_, rfl, fun q => match q with | 0 => _ | 1 => _ | 2 => _ | 3 => _ | _ => _, rfl, ?_⟩
    intro q hq
    obtain rfl | rfl | rfl | rfl | rfl : q = 0 ∨ q = 1 ∨ q = 2 ∨ q = 3 ∨ q = 4 := by omega
    · exact O0.within hR0 (by simp only [radK]; linarith)
    · refine O1.within ?_ (by simp only [radK]; linarith)
      rw [← hR1]
      refine cx_ext ?_ ?_ <;> (simp only [cx_add_def, cx_sub_def, sub_eq_add_neg]; try rfl)
    · refine O2.within ?_ (by simp only [radK]; linarith)
      rw [← hR2]
      refine cx_ext ?_ ?_ <;> (simp only [cx_add_def, cx_sub_def, sub_eq_add_neg]; try rfl)
    · refine O3.within ?_ (by simp only [radK]; linarith)
      rw [← hR3]
      refine cx_ext ?_ ?_ <;> (simp only [cx_add_def, cx_sub_def, sub_eq_add_neg]; try rfl)
    · refine O4.within ?_ (by simp only [radK]; linarith)
      rw [← hR4]
      refine cx_ext ?_ ?_ <;> (simp only [cx_add_def, cx_sub_def, sub_eq_add_neg]; try rfl)

/-! ### One stage -/

/-- the columns of a stage, put together -/
theorem bflyBlock_near {α : Type} [Scalar α] [Inhabited (Cx α)] {inv : Bool} {p m fs rest : ℕ} {tw blk : List (Cx α)}
    {P : ℕ → ℕ → Cx α → Prop}
    (h : ∀ i, i < m → ∃ c, bflyCol inv p tw blk fs m rest i = .ok c ∧ ∃ O : ℕ → Cx α, c = (List.range p).map O ∧
      ∀ q, q < p → P i q (O q)) :
    ∃ O : ℕ → Cx α, bflyBlock inv p tw blk fs m rest = .ok ((List.range (p * m)).map O) ∧
      ∀ i q, i < m → q < p → P i q (O (i + q * m)) := by
  have h' : ∀ i, ∃ O : ℕ → Cx α, i < m → bflyCol inv p tw blk fs m rest i = .ok ((List.range p).map O) ∧
      ∀ q, q < p → P i q (O q) := by
    intro i
    by_cases hi : i < m
    · obtain ⟨c, h1, O, rfl, h2⟩ := h i hi
      exact ⟨O, fun _ => ⟨h1, h2⟩⟩
    · exact ⟨fun _ => default, fun h => absurd h hi⟩
  choose O hO using h'
  have key : ∀ i q, i < m → (i + q * m) % m = i ∧ (i + q * m) / m = q := by
    intro i q hi
    refine ⟨by rw [Nat.add_mul_mod_self_right, Nat.mod_eq_of_lt hi], ?_⟩
    rw [Nat.add_mul_div_right _ _ (by omega), Nat.div_eq_of_lt hi, Nat.zero_add]
  refine ⟨fun k => O (k % m) (k / m), ?_, ?_⟩
  · unfold bflyBlock
    rw [mapM_range_ok (g := fun i => (List.range p).map (O i)) (fun i hi => (hO i hi).1), Res.bind_ok]
    have h2 : ((List.range p).mapM fun j => ((List.range m).map fun i => (List.range p).map (O i)).mapM
        fun c => idx c j) = .ok ((List.range p).map fun j => (List.range m).map fun i => O i j) := by
      refine mapM_range_ok fun j hj => ?_
      rw [mapM_ok (g := fun c => c.getD j default)]
      · rw [List.map_map]
        congr 1
        refine List.map_congr_left fun i _ => ?_
        simp [hj]
      · intro c hc
        obtain ⟨i, -, rfl⟩ := List.mem_map.mp hc
        rw [idx_map_range _ hj]
        simp [hj]
    rw [h2, Res.bind_ok, ← flatten_map_range]
    congr 2
    refine List.map_congr_left fun j _ => List.map_congr_left fun i hi => ?_
    obtain ⟨k1, k2⟩ := key i j (List.mem_range.mp hi)
    rw [k1, k2]
  · intro i q hi hq
    obtain ⟨k1, k2⟩ := key i q hi
    simp only [k1, k2]
    exact (hO i hi).2 q hq

/-- the error of a stage in units of `2 ^ -24`, relative to the norm of its output -/
def kap : ℕ → ℕ
  | 2 => 9
  | 3 => 35
  | 4 => 15
  | _ => 50

theorem radK_pos (p : ℕ) : 0 < radK p := by
  unfold radK; split <;> norm_num

theorem radK_kap {p : ℕ} (hp : 2 ≤ p ∧ p ≤ 5) : radK p * Real.sqrt p * (1 + 1 / 2 ^ 11) ≤ kap p := by
  have key : ∀ c : ℝ, 0 ≤ c → (p : ℝ) ≤ c ^ 2 → radK p * c * (1 + 1 / 2 ^ 11) ≤ kap p →
      radK p * Real.sqrt p * (1 + 1 / 2 ^ 11) ≤ kap p := by
    intro c hc h1 h2
    refine le_trans ?_ h2
    have : Real.sqrt p ≤ c := Real.sqrt_le_iff.mpr ⟨hc, h1⟩
    have h3 := (radK_pos p).le
    gcongr
  obtain rfl | rfl | rfl | rfl : p = 2 ∨ p = 3 ∨ p = 4 ∨ p = 5 := by omega
  · exact key (3 / 2 - 8 / 100) (by norm_num) (by norm_num) (by norm_num [radK, kap])
  · exact key (174 / 100) (by norm_num) (by norm_num) (by norm_num [radK, kap])
  · exact key 2 (by norm_num) (by norm_num) (by norm_num [radK, kap])
  · exact key (224 / 100) (by norm_num) (by norm_num) (by norm_num [radK, kap])

theorem stage_beta {p m : ℕ} {b : ℕ → Cx F32} {B : ℕ → ℂ} {Q e : ℝ} (hm : 0 < m) (he1 : e ≤ 1 / 2 ^ 12)
    (hQ2 : Real.sqrt (p * m : ℕ) * (2 ^ 20 * tiny) ≤ Q)
    (h1 : l2 (p * m) (fun k => ‖B k‖) ≤ Real.sqrt m * Q)
    (h2 : l2 (p * m) (fun k => ‖cval (b k) - B k‖) ≤ Real.sqrt m * e * Q) :
    l2 (p * m) (fun k => ‖cval (b k)‖ + tiny) ≤ Real.sqrt m * Q * (1 + 1 / 2 ^ 11) := by
  have ht0 : 0 < tiny := by unfold tiny; positivity
  have hQ0 : 0 ≤ Q := by
    refine le_trans ?_ hQ2
    positivity
  have hm1 : 1 ≤ Real.sqrt m := by
    rw [Real.one_le_sqrt]
    exact_mod_cast hm
  have s1 : l2 (p * m) (fun k => ‖cval (b k)‖ + tiny)
      ≤ l2 (p * m) (fun k => (‖B k‖ + ‖cval (b k) - B k‖) + tiny) := by
    refine l2_mono (fun k _ => by positivity) fun k _ => ?_
    have := norm_le_insert' (cval (b k)) (B k)
    linarith
  have s2 := l2_add_le (p * m) (fun k => ‖B k‖ + ‖cval (b k) - B k‖) (fun _ => tiny)
  have s3 := l2_add_le (p * m) (fun k => ‖B k‖) (fun k => ‖cval (b k) - B k‖)
  rw [l2_const _ ht0.le] at s2
  have s4 : Real.sqrt (p * m : ℕ) * tiny ≤ Q * (1 / 2 ^ 20) := by
    rw [mul_one_div, le_div_iff₀ (by positivity)]
    calc Real.sqrt (p * m : ℕ) * tiny * 2 ^ 20 = Real.sqrt (p * m : ℕ) * (2 ^ 20 * tiny) := by ring
      _ ≤ Q := hQ2
  have s5 : Q * (1 / 2 ^ 20) ≤ Real.sqrt m * Q * (1 / 2 ^ 20) := by
    have : Q ≤ Real.sqrt m * Q := le_mul_of_one_le_left hQ0 hm1
    gcongr
  have s6 : Real.sqrt m * e * Q ≤ Real.sqrt m * Q * (1 / 2 ^ 12) := by
    calc Real.sqrt m * e * Q = Real.sqrt m * Q * e := by ring
      _ ≤ Real.sqrt m * Q * (1 / 2 ^ 12) := by gcongr
  have s7 : 0 ≤ Real.sqrt m * Q := by positivity
  have s8 : Real.sqrt m * Q * (1 + 1 / 2 ^ 11)
      = Real.sqrt m * Q + Real.sqrt m * Q * (1 / 2 ^ 12) + Real.sqrt m * Q * (1 / 2 ^ 12) := by ring
  have s9 : Real.sqrt m * Q * (1 / 2 ^ 20) ≤ Real.sqrt m * Q * (1 / 2 ^ 12) := by
    gcongr <;> norm_num
  linarith

theorem stage_local {p m : ℕ} {K : ℝ} (hK : 0 ≤ K) {E be : ℕ → ℝ} (hE : ∀ k, 0 ≤ E k)
    (h : ∀ i q, i < m → q < p → E (i + q * m) ≤ K * ∑ j ∈ range p, be (i + j * m)) :
    l2 (p * m) E ≤ K * p * l2 (p * m) be := by
  refine l2_le_of_sq (mul_nonneg (by positivity) (l2_nonneg _ _)) ?_
  rw [mul_pow, l2_sq, sum_block, sum_block, Finset.mul_sum]
  refine Finset.sum_le_sum fun i hi => ?_
  have hi' := Finset.mem_range.mp hi
  have hcs : (∑ j ∈ range p, be (i + j * m)) ^ 2 ≤ p * ∑ j ∈ range p, be (i + j * m) ^ 2 := by
    have := sq_sum_le_card_mul_sum_sq (s := range p) (f := fun j => be (i + j * m))
    rwa [Finset.card_range] at this
  calc ∑ q ∈ range p, E (i + q * m) ^ 2
      ≤ ∑ q ∈ range p, (K * ∑ j ∈ range p, be (i + j * m)) ^ 2 := by
        refine Finset.sum_le_sum fun q hq => ?_
        exact pow_le_pow_left₀ (hE _) (h i q hi' (Finset.mem_range.mp hq)) 2
    _ = p * (K ^ 2 * (∑ j ∈ range p, be (i + j * m)) ^ 2) := by
        rw [Finset.sum_const, Finset.card_range, nsmul_eq_mul, mul_pow]
    _ ≤ p * (K ^ 2 * (p * ∑ j ∈ range p, be (i + j * m) ^ 2)) := by gcongr
    _ = (K * p) ^ 2 * ∑ j ∈ range p, be (i + j * m) ^ 2 := by ring

theorem stage_prop {inv : Bool} {n p m fs : ℕ} (hn : fs * (p * m) = n) (hpos : 0 < n) (u v : ℕ → ℂ) :
    l2 (p * m) (fun k => ‖stageOut inv n p m fs u k - stageOut inv n p m fs v k‖)
      = Real.sqrt p * l2 (p * m) (fun k => ‖u k - v k‖) := by
  unfold l2
  rw [← Real.sqrt_mul (by positivity), ← stageOut_norm (inv := inv) hn hpos]
  congr 1
  refine Finset.sum_congr rfl fun k _ => ?_
  simp only [stageOut_sub]

theorem stage_total {p m : ℕ} {Q e be E1 E2 : ℝ} (hp : 2 ≤ p ∧ p ≤ 5) (hQ0 : 0 ≤ Q)
    (hbeta : be ≤ Real.sqrt m * Q * (1 + 1 / 2 ^ 11)) (h2 : E2 ≤ Real.sqrt m * e * Q)
    (h1 : E1 ≤ radK p / 2 ^ 24 * p * be) :
    E1 + Real.sqrt p * E2 ≤ Real.sqrt (p * m : ℕ) * (e + kap p / 2 ^ 24) * Q := by
  have hpm : Real.sqrt (p * m : ℕ) = Real.sqrt p * Real.sqrt m := by
    push_cast
    exact Real.sqrt_mul (by positivity) _
  have hK := radK_kap hp
  have hK0 := radK_pos p
  have f1 : radK p / 2 ^ 24 * p * be ≤ Real.sqrt (p * m : ℕ) * (kap p / 2 ^ 24) * Q := by
    have hpp : (p : ℝ) = Real.sqrt p * Real.sqrt p := (Real.mul_self_sqrt (by positivity)).symm
    calc radK p / 2 ^ 24 * p * be
        ≤ radK p / 2 ^ 24 * p * (Real.sqrt m * Q * (1 + 1 / 2 ^ 11)) := by gcongr
      _ = Real.sqrt p * Real.sqrt m * Q / 2 ^ 24 * (radK p * Real.sqrt p * (1 + 1 / 2 ^ 11)) := by
          generalize radK p = K
          generalize Real.sqrt p = r at hpp
          rw [hpp]
          ring
      _ ≤ Real.sqrt p * Real.sqrt m * Q / 2 ^ 24 * kap p := by gcongr
      _ = Real.sqrt (p * m : ℕ) * (kap p / 2 ^ 24) * Q := by rw [hpm]; ring
  have f2 : Real.sqrt p * E2 ≤ Real.sqrt (p * m : ℕ) * e * Q := by
    rw [hpm]
    calc Real.sqrt p * E2 ≤ Real.sqrt p * (Real.sqrt m * e * Q) := by gcongr
      _ = _ := by ring
  have f3 : Real.sqrt (p * m : ℕ) * (e + kap p / 2 ^ 24) * Q
      = Real.sqrt (p * m : ℕ) * e * Q + Real.sqrt (p * m : ℕ) * (kap p / 2 ^ 24) * Q := by ring
  linarith

theorem stage_near (hel : Accurate el) {inv : Bool} {n p m fs rest : ℕ} {b : ℕ → Cx F32} {B : ℕ → ℂ} {Q e : ℝ}
    (hp : 2 ≤ p ∧ p ≤ 5) (hm : 0 < m) (hn : fs * (p * m) = n) (hpos : 0 < n)
    (hb : ∀ k, k < p * m → IsFin (b k).r ∧ IsFin (b k).i)
    (he : 0 ≤ e) (he1 : e ≤ 1 / 2 ^ 12) (hs : p * m ≤ 2 ^ 20) (hQ : Q ≤ 2 ^ 97)
    (hQ2 : Real.sqrt (p * m : ℕ) * (2 ^ 20 * tiny) ≤ Q)
    (h1 : l2 (p * m) (fun k => ‖B k‖) ≤ Real.sqrt m * Q)
    (h2 : l2 (p * m) (fun k => ‖cval (b k) - B k‖) ≤ Real.sqrt m * e * Q) :
    ∃ O : ℕ → Cx F32, @bflyBlock F32 (scalar el) inv p (@fftTwiddle F32 (scalar el) n inv) ((List.range (p * m)).map b) fs m rest
        = .ok ((List.range (p * m)).map O) ∧
      (∀ k, k < p * m → IsFin (O k).r ∧ IsFin (O k).i) ∧
      l2 (p * m) (fun k => ‖cval (O k) - stageOut inv n p m fs B k‖)
        ≤ Real.sqrt (p * m : ℕ) * (e + kap p / 2 ^ 24) * Q := by
  have hs1 : 0 < p * m := Nat.mul_pos (by omega) hm
  have ht0 : 0 < tiny := by unfold tiny; positivity
  have hQ0 : 0 ≤ Q := by
    refine le_trans ?_ hQ2
    positivity
  have hm2 : Real.sqrt m ≤ 2 ^ 10 := by
    rw [Real.sqrt_le_iff]
    refine ⟨by positivity, ?_⟩
    have : m ≤ 2 ^ 20 := le_trans (Nat.le_mul_of_pos_left m (by omega)) hs
    have h : (m : ℝ) ≤ 2 ^ 20 := by exact_mod_cast this
    refine h.trans ?_
    norm_num
  have hbeta := stage_beta hm he1 hQ2 h1 h2
  have hmax : ∀ k, k < p * m → ‖cval (b k)‖ ≤ 2 ^ 108 := by
    intro k hk
    have a1 := le_l2 (fun k => ‖cval (b k)‖ + tiny) hk
    have a2 : Real.sqrt m * Q ≤ 2 ^ 10 * 2 ^ 97 := by gcongr
    norm_num at a1 a2 hbeta ⊢
    linarith
  obtain ⟨O, hO, hW⟩ := @bflyBlock_near F32 (scalar el) ⟨⟨nan, nan⟩⟩ inv p m fs rest (@fftTwiddle F32 (scalar el) n inv)
    ((List.range (p * m)).map b)
    (fun i q z => Within (radK p / 2 ^ 24 * ∑ j ∈ range p, (‖cval (b (i + j * m))‖ + tiny)) z
          (stageOut inv n p m fs (fun k => cval (b k)) (i + q * m)))
    (fun i hi => bflyCol_near hel hp hi hn hpos hb hmax)
  have idxs : ∀ k, k < p * m → k % m < m ∧ k / m < p ∧ k % m + k / m * m = k := by
    intro k hk
    refine ⟨Nat.mod_lt _ hm, ?_, ?_⟩
    · rw [Nat.div_lt_iff_lt_mul hm]; exact hk
    · rw [Nat.mul_comm]; exact Nat.mod_add_div k m
  refine ⟨O, hO, ?_, ?_⟩
  · intro k hk
    obtain ⟨i1, i2, i3⟩ := idxs k hk
    have := (hW _ _ i1 i2).1
    rwa [i3] at this
  · have hloc := stage_local (p := p) (m := m) (K := radK p / 2 ^ 24)
      (E := fun k => ‖cval (O k) - stageOut inv n p m fs (fun k => cval (b k)) k‖) (be := fun k => ‖cval (b k)‖ + tiny)
      (by have := radK_pos p; positivity) (fun _ => norm_nonneg _) (fun i q hi hq => (hW i q hi hq).2)
    have htri : l2 (p * m) (fun k => ‖cval (O k) - stageOut inv n p m fs B k‖)
        ≤ l2 (p * m) (fun k => ‖cval (O k) - stageOut inv n p m fs (fun k => cval (b k)) k‖)
          + l2 (p * m) (fun k => ‖stageOut inv n p m fs (fun k => cval (b k)) k - stageOut inv n p m fs B k‖) := by
      refine le_trans (l2_mono (fun k _ => norm_nonneg _) fun k _ => ?_) (l2_add_le _ _ _)
      exact norm_sub_le_norm_sub_add_norm_sub _ _ _
    rw [stage_prop hn hpos] at htri
    exact htri.trans (stage_total hp hQ0 hbeta h2 hloc)

/-! ### All stages -/

/-- the error of a transform in units of `2 ^ -24` -/
def kapSum (fac : List (ℕ × ℕ)) : ℕ := (fac.map fun f => kap f.1).sum

/-- the norm of a part of the input, with the tolerance -/
noncomputable def partQ (x : ℕ → Cx F32) (s fs fi : ℕ) : ℝ :=
  l2 s (fun t => ‖cval (x (fi + t * fs))‖ + 2 ^ 20 * tiny)

theorem partQ_split (x : ℕ → Cx F32) (p m fs fi : ℕ) :
    partQ x (p * m) fs fi ^ 2 = ∑ j ∈ range p, partQ x m (fs * p) (fi + j * fs) ^ 2 := by
  unfold partQ
  rw [l2_sq, Nat.mul_comm p m, sum_range_mul', Finset.sum_comm]
  refine Finset.sum_congr rfl fun j _ => ?_
  rw [l2_sq]
  refine Finset.sum_congr rfl fun t _ => ?_
  rw [show fi + (j + t * p) * fs = fi + j * fs + t * (fs * p) by ring]

theorem kfWork_near (hel : Accurate el) {inv : Bool} {n : ℕ} (hpos : 0 < n) (x : ℕ → Cx F32)
    (hx : ∀ k, k < n → IsFin (x k).r ∧ IsFin (x k).i) :
    ∀ (fac : List (ℕ × ℕ)) (s fs fi rest : ℕ), FacOk fac s → fs * s = n → fi < fs → s ≤ 2 ^ 20 → kapSum fac ≤ 2 ^ 12 →
      partQ x s fs fi ≤ 2 ^ 97 →
    ∃ O : ℕ → Cx F32, @kfWork F32 (scalar el) inv (@fftTwiddle F32 (scalar el) n inv) ((List.range n).map x) fac fs fi rest
        = .ok ((List.range s).map O) ∧ (∀ k, k < s → IsFin (O k).r ∧ IsFin (O k).i) ∧
      l2 s (fun k => ‖cval (O k) - ∑ t ∈ range s, cval (x (fi + t * fs)) * omega inv n ^ (fs * t * k)‖)
        ≤ Real.sqrt s * (kapSum fac / 2 ^ 24) * partQ x s fs fi
  | [], s, fs, fi, _, h, _, _, _, _, _ => by cases h
  | (p, m) :: fac, s, fs, fi, rest, h, hn, hfi, hs, hk, hQ => by
    obtain ⟨hp, rfl, hm⟩ := h.cons
    have hfs : 0 < fs := by omega
    have hm0 : 0 < m := by
      rcases hm with ⟨h, -⟩ | ⟨-, h⟩
      · omega
      · exact h.pos
    have ht0 : 0 < tiny := by unfold tiny; positivity
    have hkk : kapSum ((p, m) :: fac) = kap p + kapSum fac := by simp [kapSum]
    have hlt : ∀ i t, i < p → t < m → fi + i * fs + t * (fs * p) < n := by
      intro i t hi ht
      have h1 : (i + t * p) + 1 ≤ p * m := by
        calc (i + t * p) + 1 ≤ p + t * p := by omega
          _ = p * (t + 1) := by ring
          _ ≤ p * m := Nat.mul_le_mul_left _ ht
      calc fi + i * fs + t * (fs * p) = fi + fs * (i + t * p) := by ring
        _ < fs + fs * (i + t * p) := by omega
        _ = fs * ((i + t * p) + 1) := by ring
        _ ≤ fs * (p * m) := Nat.mul_le_mul_left _ h1
        _ = n := hn
    have key : ∀ i q, i < m → (i + q * m) % m = i ∧ (i + q * m) / m = q := by
      intro i q hi
      refine ⟨by rw [Nat.add_mul_mod_self_right, Nat.mod_eq_of_lt hi], ?_⟩
      rw [Nat.add_mul_div_right _ _ (by omega), Nat.div_eq_of_lt hi, Nat.zero_add]
    have hsplit := partQ_split x p m fs fi
    have hQn : 0 ≤ partQ x (p * m) fs fi := l2_nonneg _ _
    have hsub : ∀ j, j < p → partQ x m (fs * p) (fi + j * fs) ≤ partQ x (p * m) fs fi := by
      intro j hj
      refine (abs_le_of_sq_le_sq' ?_ hQn).2
      rw [hsplit]
      exact Finset.single_le_sum (f := fun j => partQ x m (fs * p) (fi + j * fs) ^ 2) (fun _ _ => sq_nonneg _)
        (Finset.mem_range.mpr hj)
    -- the exact partial transforms
    obtain ⟨D, hD⟩ : ∃ D : ℕ → ℕ → ℂ, D = fun j i => ∑ t ∈ range m, cval (x (fi + j * fs + t * (fs * p)))
        * omega inv n ^ (fs * p * t * i) := ⟨_, rfl⟩
    have hDn : ∀ j, ∑ i ∈ range m, ‖D j i‖ ^ 2 ≤ m * partQ x m (fs * p) (fi + j * fs) ^ 2 := by
      intro j
      rw [hD]
      have := part_norm (inv := inv) (n := n) (s := m) (fs := fs * p) (by rw [← hn]; ring) hpos
        (fun t => cval (x (fi + j * fs + t * (fs * p))))
      rw [this]
      unfold partQ
      rw [l2_sq]
      gcongr with t _
      linarith
    have hblk : ∃ b : ℕ → Cx F32,
        (if m = 1 then (List.range p).mapM fun i => idx ((List.range n).map x) (fi + i * fs)
          else do
            let parts ← (List.range p).mapM fun i =>
              @kfWork F32 (scalar el) inv (@fftTwiddle F32 (scalar el) n inv) ((List.range n).map x) fac (fs * p) (fi + i * fs)
                (rest + (p - 1 - i) * m)
            .ok parts.flatten) = .ok ((List.range (p * m)).map b) ∧
        (∀ k, k < p * m → IsFin (b k).r ∧ IsFin (b k).i) ∧
        ∀ j, j < p → ∑ i ∈ range m, ‖cval (b (i + j * m)) - D j i‖ ^ 2
          ≤ m * (kapSum fac / 2 ^ 24) ^ 2 * partQ x m (fs * p) (fi + j * fs) ^ 2 := by
      by_cases h1 : m = 1
      · subst h1
        refine ⟨fun j => x (fi + j * fs), ?_, ?_, ?_⟩
        · rw [if_pos rfl, Nat.mul_one]
          refine mapM_range_ok fun i hi => ?_
          have := hlt i 0 hi (by omega)
          rw [idx_map_range _ (by omega)]
        · intro k hk
          have := hlt k 0 (by omega) (by omega)
          exact hx _ (by omega)
        · intro j hj
          rw [hD]
          simp only [Finset.sum_range_one, Nat.zero_add, Nat.mul_one, Nat.zero_mul, Nat.mul_zero, Nat.add_zero, pow_zero, mul_one,
            sub_self, norm_zero]
          have : (0 : ℝ) ≤ ((1 : ℕ) : ℝ) * (kapSum fac / 2 ^ 24) ^ 2 * partQ x 1 (fs * p) (fi + j * fs) ^ 2 := by positivity
          simpa using this
      · have hf : FacOk fac m := by
          rcases hm with ⟨h, -⟩ | ⟨-, h⟩
          · exact absurd h h1
          · exact h
        have hrec : ∀ j, ∃ O : ℕ → Cx F32, j < p →
            @kfWork F32 (scalar el) inv (@fftTwiddle F32 (scalar el) n inv) ((List.range n).map x) fac (fs * p) (fi + j * fs)
                (rest + (p - 1 - j) * m)
              = .ok ((List.range m).map O) ∧ (∀ k, k < m → IsFin (O k).r ∧ IsFin (O k).i) ∧
            l2 m (fun i => ‖cval (O i) - D j i‖) ≤ Real.sqrt m * (kapSum fac / 2 ^ 24) * partQ x m (fs * p) (fi + j * fs) := by
          intro j
          by_cases hj : j < p
          · obtain ⟨O, o1, o2, o3⟩ := kfWork_near hel hpos x hx fac m (fs * p) (fi + j * fs) (rest + (p - 1 - j) * m) hf (by rw [← hn]; ring)
              (by
                calc fi + j * fs < fs + j * fs := by omega
                  _ = fs * (j + 1) := by ring
                  _ ≤ fs * p := Nat.mul_le_mul_left _ hj)
              (le_trans (Nat.le_mul_of_pos_left m (by omega)) hs) (by omega) ((hsub j hj).trans hQ)
            refine ⟨O, fun _ => ⟨o1, o2, ?_⟩⟩
            rw [hD]
            exact o3
          · exact ⟨fun _ => ⟨nan, nan⟩, fun h => absurd h hj⟩
        choose O hO using hrec
        refine ⟨fun k => O (k / m) (k % m), ?_, ?_, ?_⟩
        · rw [if_neg h1, mapM_range_ok (g := fun j => (List.range m).map (O j)) (fun j hj => (hO j hj).1), Res.bind_ok,
            ← flatten_map_range]
          congr 2
          refine List.map_congr_left fun j _ => List.map_congr_left fun i hi => ?_
          obtain ⟨k1, k2⟩ := key i j (List.mem_range.mp hi)
          rw [k1, k2]
        · intro k hk
          refine (hO (k / m) ?_).2.1 (k % m) (Nat.mod_lt _ hm0)
          rw [Nat.div_lt_iff_lt_mul hm0]; exact hk
        · intro j hj
          have o3 := (hO j hj).2.2
          have o4 := pow_le_pow_left₀ (l2_nonneg _ _) o3 2
          rw [l2_sq] at o4
          rw [mul_pow, mul_pow, Real.sq_sqrt (by positivity)] at o4
          refine le_trans (le_of_eq ?_) o4
          refine Finset.sum_congr rfl fun i hi => ?_
          obtain ⟨k1, k2⟩ := key i j (Finset.mem_range.mp hi)
          simp only [k1, k2]
    obtain ⟨b, hb1, hb2, hb3⟩ := hblk
    have he : (0 : ℝ) ≤ kapSum fac / 2 ^ 24 := by positivity
    obtain ⟨O, o1, o2, o3⟩ := stage_near (inv := inv) (Q := partQ x (p * m) fs fi) (e := kapSum fac / 2 ^ 24) hel hp hm0 hn hpos hb2
      (B := fun k => D (k / m) (k % m)) he
      (by
        rw [div_le_iff₀ (by positivity)]
        have : kapSum fac ≤ 2 ^ 12 := by omega
        have : (kapSum fac : ℝ) ≤ 2 ^ 12 := by exact_mod_cast this
        norm_num at this ⊢
        linarith)
      hs hQ
      (by
        unfold partQ
        rw [← l2_const _ (by positivity)]
        refine l2_mono (fun _ _ => by positivity) fun t _ => ?_
        have := norm_nonneg (cval (x (fi + t * fs)))
        linarith)
      (by
        refine l2_le_of_sq (by positivity) ?_
        rw [mul_pow, Real.sq_sqrt (by positivity), hsplit, sum_range_mul', Finset.mul_sum]
        refine Finset.sum_le_sum fun j _ => le_trans (le_of_eq ?_) (hDn j)
        refine Finset.sum_congr rfl fun i hi => ?_
        obtain ⟨k1, k2⟩ := key i j (Finset.mem_range.mp hi)
        simp only [k1, k2])
      (by
        refine l2_le_of_sq (by positivity) ?_
        rw [mul_pow, mul_pow, Real.sq_sqrt (by positivity), hsplit, sum_range_mul', Finset.mul_sum]
        refine Finset.sum_le_sum fun j hj => le_trans (le_of_eq ?_) (hb3 j (Finset.mem_range.mp hj))
        refine Finset.sum_congr rfl fun i hi => ?_
        obtain ⟨k1, k2⟩ := key i j (Finset.mem_range.mp hi)
        simp only [k1, k2])
    refine ⟨O, ?_, o2, ?_⟩
    · letI := scalar el
      rw [kfWork, hb1, Res.bind_ok]
      exact o1
    · rw [hkk]
      have e1 : l2 (p * m) (fun k => ‖cval (O k) - ∑ t ∈ range (p * m), cval (x (fi + t * fs)) * omega inv n ^ (fs * t * k)‖)
          = l2 (p * m) (fun k => ‖cval (O k) - stageOut inv n p m fs (fun k => D (k / m) (k % m)) k‖) := by
        refine l2_congr fun k hk => ?_
        rw [stageOut_dft (x := fun k => cval (x k)) (fi := fi) hn hpos hk]
        intro i j hi _
        obtain ⟨k1, k2⟩ := key i j hi
        simp only [k1, k2, hD]
      rw [e1]
      refine o3.trans (le_of_eq ?_)
      push_cast
      ring

/-- the transform in binary32 -/
theorem fft_near (hel : Accurate el) {inv : Bool} {n : ℕ} {fac : List (ℕ × ℕ)} (hfac : kfFactor n = .ok fac)
    (h : FacOk fac n) (hn : n ≤ 2 ^ 20) (hk : kapSum fac ≤ 2 ^ 12) (x : ℕ → Cx F32)
    (hx : ∀ k, k < n → IsFin (x k).r ∧ IsFin (x k).i) (hQ : l2 n (fun t => ‖cval (x t)‖ + 2 ^ 20 * tiny) ≤ 2 ^ 97) :
    ∃ O : ℕ → Cx F32, @fft F32 (scalar el) inv ((List.range n).map x) = .ok ((List.range n).map O) ∧
      (∀ k, k < n → IsFin (O k).r ∧ IsFin (O k).i) ∧
      l2 n (fun k => ‖cval (O k) - Fourier.dft inv n (fun k => cval (x k)) k‖)
        ≤ Real.sqrt n * (kapSum fac / 2 ^ 24) * l2 n (fun t => ‖cval (x t)‖ + 2 ^ 20 * tiny) := by
  have e : partQ x n 1 0 = l2 n (fun t => ‖cval (x t)‖ + 2 ^ 20 * tiny) := by
    unfold partQ
    simp only [Nat.zero_add, Nat.mul_one]
  obtain ⟨O, o1, o2, o3⟩ := kfWork_near hel h.pos x hx fac n 1 0 0 h (Nat.one_mul n) (by omega) hn hk (by rw [e]; exact hQ)
  refine ⟨O, ?_, o2, ?_⟩
  · letI := scalar el
    unfold fft
    rw [List.length_map, List.length_range, hfac, Res.bind_ok]
    exact o1
  · rw [e] at o3
    refine le_trans (le_of_eq ?_) o3
    refine l2_congr fun k _ => ?_
    congr 2
    unfold Fourier.dft
    refine Finset.sum_congr rfl fun j _ => ?_
    rw [Nat.zero_add, Nat.mul_one, Nat.one_mul, omega_pow]
    congr 4
    push_cast
    ring

end F32
end Lc3
