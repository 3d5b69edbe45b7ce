import Verif.Lemmas.SafeMdct
import Verif.Model.ScalarReal
import Verif.Spec.Fourier
import Mathlib.Algebra.BigOperators.Intervals
import Mathlib.Tactic.LinearCombination
import Mathlib.Tactic.FieldSimp
import Mathlib.Data.Nat.Prime.Basic
/-! The mixed radix transform in exact arithmetic. -/

namespace Lc3
open Scalar Finset

/-- a complex number of the model from a complex number of Mathlib -/
noncomputable def ofC (z : ℂ) : Cx ℝ := ⟨z.re, z.im⟩

/-- the complex number a pair of reals stands for -/
noncomputable def toC (z : Cx ℝ) : ℂ := ⟨z.r, z.i⟩

@[simp] theorem ofC_toC (z : Cx ℝ) : ofC (toC z) = z := rfl
@[simp] theorem toC_ofC (z : ℂ) : toC (ofC z) = z := rfl

theorem cx_mul_def (a b : Cx ℝ) : a * b = ⟨a.r * b.r - a.i * b.i, a.r * b.i + a.i * b.r⟩ := rfl
theorem cx_add_def (a b : Cx ℝ) : a + b = ⟨a.r + b.r, a.i + b.i⟩ := rfl
theorem cx_sub_def (a b : Cx ℝ) : a - b = ⟨a.r - b.r, a.i - b.i⟩ := rfl

theorem ofC_mul (a b : ℂ) : ofC a * ofC b = ofC (a * b) := by
  simp only [ofC, cx_mul_def, Complex.mul_re, Complex.mul_im]

theorem ofC_add (a b : ℂ) : ofC a + ofC b = ofC (a + b) := by
  simp only [ofC, cx_add_def, Complex.add_re, Complex.add_im]

theorem ofC_sub (a b : ℂ) : ofC a - ofC b = ofC (a - b) := by
  simp only [ofC, cx_sub_def, Complex.sub_re, Complex.sub_im]

theorem idx_map_range {β : Type} {n i : Nat} (F : Nat → β) (h : i < n) :
    idx ((List.range n).map F) i = .ok (F i) := by
  rw [idx_eq_ok (by simpa using h)]
  simp

theorem mapM_range_ok {β : Type} {n : Nat} {f : Nat → Res β} {g : Nat → β} (h : ∀ i, i < n → f i = .ok (g i)) :
    (List.range n).mapM f = .ok ((List.range n).map g) :=
  mapM_ok fun i hi => h i (List.mem_range.mp hi)

theorem flatten_map_range {β : Type} (F : Nat → β) (m : Nat) : ∀ p : Nat,
    ((List.range p).map fun j => (List.range m).map fun i => F (i + j * m)).flatten = (List.range (p * m)).map F
  | 0 => by simp
  | p + 1 => by
    rw [List.range_succ, List.map_append, List.flatten_append, flatten_map_range F m p, Nat.add_mul, Nat.one_mul,
      List.range_add, List.map_append]
    simp only [List.map_cons, List.map_nil, List.flatten_cons, List.flatten_nil, List.append_nil, List.map_map]
    congr 1
    refine List.map_congr_left fun i _ => ?_
    simp only [Function.comp]
    rw [Nat.add_comm]

/-- the columns of a stage, put together -/
theorem bflyBlock_ok {inv : Bool} {p m fs rest : Nat} {tw blk : List (Cx ℝ)} (F : Nat → Cx ℝ)
    (h : ∀ i, i < m → bflyCol inv p tw blk fs m rest i = .ok ((List.range p).map fun j => F (i + j * m))) :
    bflyBlock inv p tw blk fs m rest = .ok ((List.range (p * m)).map F) := by
  unfold bflyBlock
  rw [mapM_range_ok h, Res.bind_ok]
  have h2 : ((List.range p).mapM fun j => ((List.range m).map fun i => (List.range p).map fun j => F (i + j * m)).mapM
      fun c => idx c j) = .ok ((List.range p).map fun j => (List.range m).map fun i => F (i + j * m)) := by
    refine mapM_range_ok fun j hj => ?_
    rw [mapM_ok (g := fun c => c.getD j ⟨0, 0⟩)]
    · rw [List.map_map]
      congr 1
      refine List.map_congr_left fun i _ => ?_
      simp [hj]
    · intro c hc
      obtain ⟨i, -, rfl⟩ := List.mem_map.mp hc
      rw [idx_map_range _ hj]
      simp [hj]
  rw [h2, Res.bind_ok, flatten_map_range]

/-- the root of unity of a transform of size `n` -/
noncomputable def omega (inverse : Bool) (n : Nat) : ℂ :=
  Complex.exp ((if inverse then 1 else -1) * (2 * Real.pi * Complex.I / n))

theorem omega_pow (inv : Bool) (n k : Nat) :
    omega inv n ^ k = Complex.exp ((if inv then 1 else -1) * (2 * Real.pi * Complex.I * k / n)) := by
  rw [omega, ← Complex.exp_nat_mul]
  congr 1
  ring

theorem omega_root {inv : Bool} {n fs m p : Nat} (hn : fs * (p * m) = n) (hpos : 0 < n) :
    omega inv n ^ (fs * m) = omega inv p := by
  have hn' : (n : ℂ) = fs * (p * m) := by rw [← hn]; push_cast; ring
  have h0 : (n : ℂ) ≠ 0 := by exact_mod_cast hpos.ne'
  rw [omega_pow, omega]
  congr 2
  rw [hn'] at h0 ⊢
  have hfs : (fs : ℂ) ≠ 0 := fun h => h0 (by rw [h]; ring)
  have hp : (p : ℂ) ≠ 0 := fun h => h0 (by rw [h]; ring)
  have hm : (m : ℂ) ≠ 0 := fun h => h0 (by rw [h]; ring)
  push_cast
  field_simp

theorem omega_pow_self (inv : Bool) {p : Nat} (hp : 0 < p) : omega inv p ^ p = 1 := by
  have h0 : (p : ℂ) ≠ 0 := by exact_mod_cast hp.ne'
  rw [omega_pow, show (2 * Real.pi * Complex.I * p / p : ℂ) = 2 * Real.pi * Complex.I by field_simp]
  cases inv
  · simp only [Bool.false_eq_true, if_false, neg_mul, one_mul]
    rw [Complex.exp_neg, Complex.exp_two_pi_mul_I, inv_one]
  · simp only [if_true, one_mul]
    exact Complex.exp_two_pi_mul_I

/-- the exponent as a real angle -/
theorem omega_eq (inv : Bool) (p : Nat) :
    omega inv p = ⟨Real.cos (2 * Real.pi / p), (if inv then 1 else -1) * Real.sin (2 * Real.pi / p)⟩ := by
  have : ((if inv then 1 else -1) * (2 * Real.pi * Complex.I / p) : ℂ)
      = (((if inv then 1 else -1) * (2 * Real.pi / p) : ℝ) : ℂ) * Complex.I := by
    cases inv <;> push_cast <;> simp <;> ring
  rw [omega, this]
  apply Complex.ext
  · rw [Complex.exp_ofReal_mul_I_re]
    cases inv <;> simp
  · rw [Complex.exp_ofReal_mul_I_im]
    cases inv <;> simp

theorem omega_two (inv : Bool) : omega inv 2 = -1 := by
  rw [omega_eq]
  have : (2 * Real.pi / (2 : ℕ) : ℝ) = Real.pi := by push_cast; ring
  rw [this]
  apply Complex.ext <;> simp

theorem omega_four (inv : Bool) : omega inv 4 = ⟨0, if inv then 1 else -1⟩ := by
  rw [omega_eq]
  have : (2 * Real.pi / (4 : ℕ) : ℝ) = Real.pi / 2 := by push_cast; ring
  rw [this]
  simp

theorem omega_three (inv : Bool) : (omega inv 3).re = -1 / 2 := by
  rw [omega_eq]
  have : (2 * Real.pi / (3 : ℕ) : ℝ) = Real.pi - Real.pi / 3 := by push_cast; ring
  rw [this]
  simp only [Real.cos_pi_sub, Real.cos_pi_div_three]
  norm_num

theorem omega_conj (inv : Bool) {p : Nat} : omega inv p * (starRingEnd ℂ) (omega inv p) = 1 := by
  rw [Complex.mul_conj, omega_eq]
  have : Complex.normSq ⟨Real.cos (2 * Real.pi / p), (if inv then 1 else -1) * Real.sin (2 * Real.pi / p)⟩ = 1 := by
    rw [Complex.normSq_mk]
    cases inv <;> simp <;> nlinarith [Real.sin_sq_add_cos_sq (2 * Real.pi / p)]
  rw [this]; simp

/-- the last power is the conjugate -/
theorem omega_pow_pred (inv : Bool) {p : Nat} : omega inv (p + 1) ^ p = (starRingEnd ℂ) (omega inv (p + 1)) := by
  have h1 := omega_pow_self inv (p := p + 1) (by omega)
  have h2 := omega_conj inv (p := p + 1)
  have h0 : omega inv (p + 1) ≠ 0 := Complex.exp_ne_zero _
  apply mul_left_cancel₀ h0
  rw [h2, ← pow_succ', h1]

/-- the twiddle factors of the model are the powers of the root of unity -/
theorem fftTwiddle_eq (n : Nat) (inv : Bool) :
    (fftTwiddle n inv : List (Cx ℝ)) = (List.range n).map fun i => ofC (omega inv n ^ i) := by
  unfold fftTwiddle
  refine List.map_congr_left fun i _ => ?_
  have hq : (((if inv then 2 else -2) * (i : Rat) / n : Rat) : ℝ) * Real.pi
      = (if inv then 1 else -1) * (2 * Real.pi * i / n) := by
    cases inv <;> push_cast <;> simp <;> ring
  have hw : omega inv n ^ i = Complex.exp ((((if inv then 1 else -1) * (2 * Real.pi * i / n) : ℝ) : ℂ) * Complex.I) := by
    rw [omega_pow]
    congr 1
    cases inv <;> push_cast <;> simp <;> ring
  rw [hw]
  show (⟨Real.cos _, Real.sin _⟩ : Cx ℝ) = _
  rw [ofC, Complex.exp_ofReal_mul_I_re, Complex.exp_ofReal_mul_I_im, hq]

/-- entry `q` of column `i` of a stage: the defining sum over the rows -/
noncomputable def stageOut (inv : Bool) (n p m fs : Nat) (B : Nat → ℂ) (k : Nat) : ℂ :=
  ∑ j ∈ range p, B (k % m + j * m) * omega inv n ^ (fs * j * k)

theorem omega_split {inv : Bool} {n fs m p : Nat} (hn : fs * (p * m) = n) (hpos : 0 < n) (i j q : Nat) :
    omega inv n ^ (fs * j * (i + q * m)) = omega inv n ^ (i * (fs * j)) * omega inv p ^ (j * q) := by
  rw [show fs * j * (i + q * m) = i * (fs * j) + (fs * m) * (j * q) by ring, pow_add, pow_mul _ (fs * m),
    omega_root hn hpos]

theorem bflyCol_ok {inv : Bool} {n p m fs rest i : Nat} {B : Nat → ℂ} (hp : 2 ≤ p ∧ p ≤ 5) (hi : i < m)
    (hn : fs * (p * m) = n) (hpos : 0 < n) :
    bflyCol inv p (fftTwiddle n inv) ((List.range (p * m)).map fun k => ofC (B k)) fs m rest i
      = .ok ((List.range p).map fun q => ofC (stageOut inv n p m fs B (i + q * m))) := by
  have hfs : 1 ≤ fs := by
    rcases Nat.eq_zero_or_pos fs with rfl | h
    · simp at hn; omega
    · exact h
  have e1 : i * fs < m * fs := Nat.mul_lt_mul_of_pos_right hi hfs
  have key : ∀ j, j < p → i * (fs * j) < n := by
    intro j hj
    calc i * (fs * j) = i * fs * j := by ring
      _ ≤ m * fs * j := Nat.mul_le_mul_right _ (by omega)
      _ < m * fs * p := Nat.mul_lt_mul_of_pos_left hj (by omega)
      _ = n := by rw [← hn]; ring
  have key2 : ∀ j, j < p → fs * j * m < n := by
    intro j hj
    calc fs * j * m = m * fs * j := by ring
      _ < m * fs * p := Nat.mul_lt_mul_of_pos_left hj (by omega)
      _ = n := by rw [← hn]; ring
  have kb : ∀ j, j < p → i + m * j < p * m := by
    intro j hj
    calc i + m * j < m + m * j := by omega
      _ = m * (j + 1) := by ring
      _ ≤ m * p := Nat.mul_le_mul_left _ hj
      _ = p * m := Nat.mul_comm _ _
  have hT : ∀ j, j < p → idx (fftTwiddle n inv) (i * (fs * j)) = .ok (ofC (omega inv n ^ (i * (fs * j)))) := by
    intro j hj; rw [fftTwiddle_eq, idx_map_range _ (key j hj)]
  have hZ : ∀ j, j < p → idx (fftTwiddle n inv) (fs * j * m) = .ok (ofC (omega inv p ^ j)) := by
    intro j hj
    rw [fftTwiddle_eq, idx_map_range _ (key2 j hj), show fs * j * m = (fs * m) * j by ring, pow_mul, omega_root hn hpos]
  have hB : ∀ j, j < p → idx ((List.range (p * m)).map fun k => ofC (B k)) (i + m * j) = .ok (ofC (B (i + m * j))) := by
    intro j hj; rw [idx_map_range _ (kb j hj)]
  have hS : ∀ q, stageOut inv n p m fs B (i + q * m)
      = ∑ j ∈ range p, B (i + m * j) * omega inv n ^ (i * (fs * j)) * omega inv p ^ (j * q) := by
    intro q
    unfold stageOut
    refine Finset.sum_congr rfl fun j _ => ?_
    rw [omega_split hn hpos, Nat.add_mul_mod_self_right, Nat.mod_eq_of_lt hi, Nat.mul_comm j m]
    ring
  simp only [hS]
  obtain rfl | rfl | rfl | rfl : p = 2 ∨ p = 3 ∨ p = 4 ∨ p = 5 := by omega
  · have b0 := hB 0 (by omega)
    have b1 := hB 1 (by omega)
    have t1 := hT 1 (by omega)
    simp only [Nat.mul_zero, Nat.add_zero, Nat.mul_one] at b0 b1 t1
    simp only [bflyCol, bfly2, b0, b1, t1, Res.bind_ok, ofC_mul, ofC_add, ofC_sub, omega_two]
    simp [List.range_succ, Finset.sum_range_succ]
    ring_nf
  · have b0 := hB 0 (by omega)
    have b1 := hB 1 (by omega)
    have b2 := hB 2 (by omega)
    have t1 := hT 1 (by omega)
    have t2 := hT 2 (by omega)
    have z1 := hZ 1 (by omega)
    simp only [Nat.mul_zero, Nat.add_zero, Nat.mul_one, pow_one] at b0 b1 t1 z1
    simp only [bflyCol, bfly3, b0, b1, b2, t1, t2, z1, Res.bind_ok, ofC_mul, ofC_add, ofC_sub]
    have h3 := omega_pow_self inv (p := 3) (by omega)
    have hr := omega_three inv
    obtain ⟨s, hs⟩ : ∃ s, (omega inv 3).im = s := ⟨_, rfl⟩
    have h0 : omega inv 3 ^ 0 = 1 := pow_zero _
    have h1 : omega inv 3 ^ 1 = ⟨-1 / 2, s⟩ := by rw [pow_one]; exact Complex.ext hr hs
    have h2 : omega inv 3 ^ 2 = ⟨-1 / 2, -s⟩ := by
      have h2 := omega_pow_pred inv (p := 2)
      rw [h2]
      exact Complex.ext hr (by rw [Complex.conj_im, hs])
    have h4 : omega inv 3 ^ 4 = ⟨-1 / 2, s⟩ := by
      rw [show omega inv 3 ^ 4 = omega inv 3 ^ 3 * omega inv 3 ^ 1 by ring, h3, one_mul, h1]
    obtain ⟨P, hP⟩ : ∃ P : ℕ → ℂ, ∀ k, omega inv 3 ^ k = P k := ⟨_, fun _ => rfl⟩
    simp only [hP] at h0 h1 h2 h4
    simp only [hP, List.range_succ, List.range_zero, List.nil_append, List.map_cons, List.map_nil,
      Finset.sum_range_succ, Finset.sum_range_zero, List.cons_append, Nat.zero_mul, Nat.mul_zero, h0,
      h1, h2, h4, Nat.one_mul, Nat.reduceMul, Res.ok.injEq, List.cons.injEq, Nat.add_zero, zero_add, pow_zero, mul_one,
      and_true]
    generalize B (i + m) * omega inv n ^ (i * fs) = S1
    generalize B (i + m * 2) * omega inv n ^ (i * (fs * 2)) = S2
    generalize B i = S0
    refine ⟨by rw [add_assoc], ?_, ?_⟩
    · simp only [ofC, hs, Scalar.ofRat, Cx.mk.injEq, Complex.add_re, Complex.add_im, Complex.sub_re, Complex.sub_im,
        Complex.mul_re, Complex.mul_im]
      push_cast
      constructor <;> ring
    · simp only [ofC, hs, Scalar.ofRat, Cx.mk.injEq, Complex.add_re, Complex.add_im, Complex.sub_re, Complex.sub_im,
        Complex.mul_re, Complex.mul_im]
      push_cast
      constructor <;> ring
  · have b0 := hB 0 (by omega)
    have b1 := hB 1 (by omega)
    have b2 := hB 2 (by omega)
    have b3 := hB 3 (by omega)
    have t1 := hT 1 (by omega)
    have t2 := hT 2 (by omega)
    have t3 := hT 3 (by omega)
    simp only [Nat.mul_zero, Nat.add_zero, Nat.mul_one] at b0 b1 t1
    simp only [bflyCol, bfly4, b0, b1, b2, b3, t1, t2, t3, Res.bind_ok, ofC_mul, ofC_add, ofC_sub]
    have h0 : omega inv 4 ^ 0 = 1 := pow_zero _
    have h1 : omega inv 4 ^ 1 = ⟨0, if inv then 1 else -1⟩ := by rw [pow_one, omega_four]
    have h2 : omega inv 4 ^ 2 = -1 := by
      rw [show omega inv 4 ^ 2 = omega inv 4 ^ 1 * omega inv 4 ^ 1 by ring, h1]
      cases inv <;> apply Complex.ext <;> simp
    have h3 : omega inv 4 ^ 3 = ⟨0, if inv then -1 else 1⟩ := by
      rw [show omega inv 4 ^ 3 = omega inv 4 ^ 2 * omega inv 4 ^ 1 by ring, h1, h2]
      cases inv <;> apply Complex.ext <;> simp
    have h4 : omega inv 4 ^ 4 = 1 := omega_pow_self inv (by omega)
    have h6 : omega inv 4 ^ 6 = -1 := by
      rw [show omega inv 4 ^ 6 = omega inv 4 ^ 4 * omega inv 4 ^ 2 by ring, h4, h2, one_mul]
    have h9 : omega inv 4 ^ 9 = ⟨0, if inv then 1 else -1⟩ := by
      rw [show omega inv 4 ^ 9 = (omega inv 4 ^ 4) ^ 2 * omega inv 4 ^ 1 by ring, h4, h1, one_pow, one_mul]
    obtain ⟨P, hP⟩ : ∃ P : ℕ → ℂ, ∀ k, omega inv 4 ^ k = P k := ⟨_, fun _ => rfl⟩
    simp only [hP] at h0 h1 h2 h3 h4 h6 h9
    generalize hS1 : B (i + m) * omega inv n ^ (i * fs) = S1
    generalize hS2 : B (i + m * 2) * omega inv n ^ (i * (fs * 2)) = S2
    generalize hS3 : B (i + m * 3) * omega inv n ^ (i * (fs * 3)) = S3
    cases inv <;>
    · simp only [hP, List.range_succ, List.range_zero, List.nil_append, List.map_cons, List.map_nil,
        Finset.sum_range_succ, Finset.sum_range_zero, List.cons_append, Nat.zero_mul, Nat.mul_zero, h0,
        h1, h2, h3, h4, h6, h9, Nat.one_mul, Nat.reduceMul, Res.ok.injEq, List.cons.injEq, Nat.add_zero, zero_add,
        pow_zero, mul_one, and_true, hS1, hS2, hS3, if_true, Bool.false_eq_true, if_false]
      generalize B i = S0
      refine ⟨?_, ?_, ?_, ?_⟩ <;>
      · simp only [ofC, Cx.mk.injEq, Complex.add_re, Complex.add_im, Complex.sub_re, Complex.sub_im, Complex.neg_re,
          Complex.neg_im, Complex.one_re, Complex.one_im, Complex.mul_re, Complex.mul_im]
        constructor <;> ring
  · have b0 := hB 0 (by omega)
    have b1 := hB 1 (by omega)
    have b2 := hB 2 (by omega)
    have b3 := hB 3 (by omega)
    have b4 := hB 4 (by omega)
    have t1 := hT 1 (by omega)
    have t2 := hT 2 (by omega)
    have t3 := hT 3 (by omega)
    have t4 := hT 4 (by omega)
    have z1 := hZ 1 (by omega)
    have z2 := hZ 2 (by omega)
    simp only [Nat.mul_zero, Nat.add_zero, Nat.mul_one, pow_one] at b0 b1 t1 z1
    simp only [bflyCol, bfly5, b0, b1, b2, b3, b4, t1, show i * 2 * fs = i * (fs * 2) by ring,
      show i * 3 * fs = i * (fs * 3) by ring, show i * 4 * fs = i * (fs * 4) by ring, t2, t3, t4, z1, z2, Res.bind_ok,
      ofC_mul, ofC_add, ofC_sub]
    have h5 : omega inv 5 ^ 5 = 1 := omega_pow_self inv (by omega)
    have h0 : omega inv 5 ^ 0 = 1 := pow_zero _
    have h4 := omega_pow_pred inv (p := 4)
    have h3 : omega inv 5 ^ 3 = (starRingEnd ℂ) (omega inv 5 ^ 2) := by
      have hne : omega inv 5 ^ 2 ≠ 0 := pow_ne_zero _ (Complex.exp_ne_zero _)
      apply mul_left_cancel₀ hne
      rw [← pow_add, h5, map_pow, ← mul_pow, omega_conj, one_pow]
    have h1 : omega inv 5 ^ 1 = ⟨(omega inv 5).re, (omega inv 5).im⟩ := pow_one _
    have h2 : omega inv 5 ^ 2 = ⟨(omega inv 5 ^ 2).re, (omega inv 5 ^ 2).im⟩ := rfl
    obtain ⟨c1, hc1⟩ : ∃ s, (omega inv 5).re = s := ⟨_, rfl⟩
    obtain ⟨s1, hs1⟩ : ∃ s, (omega inv 5).im = s := ⟨_, rfl⟩
    obtain ⟨c2, hc2⟩ : ∃ s, (omega inv 5 ^ 2).re = s := ⟨_, rfl⟩
    obtain ⟨s2, hs2⟩ : ∃ s, (omega inv 5 ^ 2).im = s := ⟨_, rfl⟩
    rw [hc1, hs1] at h1
    rw [hc2, hs2] at h2
    have h4' : omega inv 5 ^ 4 = ⟨c1, -s1⟩ := by
      rw [h4]; exact Complex.ext (by rw [Complex.conj_re, hc1]) (by rw [Complex.conj_im, hs1])
    have h3' : omega inv 5 ^ 3 = ⟨c2, -s2⟩ := by
      rw [h3]; exact Complex.ext (by rw [Complex.conj_re, hc2]) (by rw [Complex.conj_im, hs2])
    clear h3 h4
    have h6 : omega inv 5 ^ 6 = ⟨c1, s1⟩ := by
      rw [show omega inv 5 ^ 6 = omega inv 5 ^ 5 * omega inv 5 ^ 1 by ring, h5, one_mul, h1]
    have h8 : omega inv 5 ^ 8 = ⟨c2, -s2⟩ := by
      rw [show omega inv 5 ^ 8 = omega inv 5 ^ 5 * omega inv 5 ^ 3 by ring, h5, one_mul, h3']
    have h9 : omega inv 5 ^ 9 = ⟨c1, -s1⟩ := by
      rw [show omega inv 5 ^ 9 = omega inv 5 ^ 5 * omega inv 5 ^ 4 by ring, h5, one_mul, h4']
    have h12 : omega inv 5 ^ 12 = ⟨c2, s2⟩ := by
      rw [show omega inv 5 ^ 12 = (omega inv 5 ^ 5) ^ 2 * omega inv 5 ^ 2 by ring, h5, one_pow, one_mul, h2]
    have h16 : omega inv 5 ^ 16 = ⟨c1, s1⟩ := by
      rw [show omega inv 5 ^ 16 = (omega inv 5 ^ 5) ^ 3 * omega inv 5 ^ 1 by ring, h5, one_pow, one_mul, h1]
    have hz : ofC (omega inv 5) = ⟨c1, s1⟩ := by rw [ofC, hc1, hs1]
    have hz2 : ofC (omega inv 5 ^ 2) = ⟨c2, s2⟩ := by rw [ofC, hc2, hs2]
    simp only [hz, hz2]
    obtain ⟨P, hP⟩ : ∃ P : ℕ → ℂ, ∀ k, omega inv 5 ^ k = P k := ⟨_, fun _ => rfl⟩
    simp only [hP] at h0 h1 h2 h3' h4' h6 h8 h9 h12 h16
    simp only [hP, List.range_succ, List.range_zero, List.nil_append, List.map_cons, List.map_nil,
      Finset.sum_range_succ, Finset.sum_range_zero, List.cons_append, Nat.zero_mul, Nat.mul_zero, h0,
      h1, h2, h3', h4', h6, h8, h9, h12, h16, Nat.one_mul, Nat.reduceMul, Res.ok.injEq, List.cons.injEq, Nat.add_zero,
      zero_add, pow_zero, mul_one, and_true]
    generalize B (i + m) * omega inv n ^ (i * fs) = S1
    generalize B (i + m * 2) * omega inv n ^ (i * (fs * 2)) = S2
    generalize B (i + m * 3) * omega inv n ^ (i * (fs * 3)) = S3
    generalize B (i + m * 4) * omega inv n ^ (i * (fs * 4)) = S4
    generalize B i = S0
    refine ⟨?_, ?_, ?_, ?_, ?_⟩ <;>
    · simp only [ofC, cx_add_def, cx_sub_def, Cx.mk.injEq, Complex.add_re, Complex.add_im, Complex.sub_re,
        Complex.sub_im, Complex.mul_re, Complex.mul_im]
      constructor <;> ring

theorem sum_range_mul' {M : Type} [AddCommMonoid M] (f : Nat → M) (p : Nat) : ∀ m : Nat,
    ∑ t ∈ range (m * p), f t = ∑ i ∈ range m, ∑ j ∈ range p, f (j + i * p)
  | 0 => by simp
  | m + 1 => by
    rw [Nat.add_mul, Nat.one_mul, Finset.sum_range_add, sum_range_mul' f p m, Finset.sum_range_succ]
    congr 1
    exact Finset.sum_congr rfl fun j _ => by rw [Nat.add_comm]

/-- a stage whose rows are partial transforms gives the transform -/
theorem stageOut_dft {inv : Bool} {n p m fs fi : Nat} {x : Nat → ℂ} (hn : fs * (p * m) = n) (hpos : 0 < n)
    {k : Nat} (hk : k < p * m) {B : Nat → ℂ}
    (hB : ∀ i j, i < m → j < p →
      B (i + j * m) = ∑ t ∈ range m, x (fi + j * fs + t * (fs * p)) * omega inv n ^ (fs * p * t * i)) :
    stageOut inv n p m fs B k = ∑ t ∈ range (p * m), x (fi + t * fs) * omega inv n ^ (fs * t * k) := by
  have hm : 0 < m := by
    rcases Nat.eq_zero_or_pos m with rfl | h
    · simp at hk
    · exact h
  have hw : omega inv n ^ n = 1 := omega_pow_self inv hpos
  unfold stageOut
  rw [Finset.sum_congr rfl fun j hj => by
    rw [hB (k % m) j (Nat.mod_lt _ hm) (Finset.mem_range.mp hj), Finset.sum_mul]]
  rw [Nat.mul_comm p m, sum_range_mul', Finset.sum_comm]
  refine Finset.sum_congr rfl fun t _ => Finset.sum_congr rfl fun j _ => ?_
  rw [show fi + (j + t * p) * fs = fi + j * fs + t * (fs * p) by ring, mul_assoc, ← pow_add]
  congr 1
  have hd := Nat.mod_add_div k m
  have : fs * (j + t * p) * k = fs * p * t * (k % m) + fs * j * k + n * (t * (k / m)) := by
    rw [← hn]
    calc fs * (j + t * p) * k = fs * j * k + fs * t * p * k := by ring
      _ = fs * j * k + fs * t * p * (k % m + m * (k / m)) := by rw [hd]
      _ = _ := by ring
  rw [this, pow_add _ _ (n * _), pow_mul _ n, hw, one_pow, mul_one]

theorem kfWork_ok {inv : Bool} {n : Nat} (hpos : 0 < n) (x : Nat → ℂ) : ∀ (fac : List (Nat × Nat)) (s fs fi rest : Nat),
    FacOk fac s → fs * s = n → fi < fs →
    kfWork inv (fftTwiddle n inv) ((List.range n).map fun k => ofC (x k)) fac fs fi rest
      = .ok ((List.range s).map fun k => ofC (∑ t ∈ range s, x (fi + t * fs) * omega inv n ^ (fs * t * k)))
  | [], s, fs, fi, _, h, _, _ => by cases h
  | (p, m) :: fac, s, fs, fi, rest, h, hn, hfi => by
    obtain ⟨hp, rfl, hm⟩ := h.cons
    have hfs : 0 < fs := by omega
    have hlt : ∀ i t, i < p → t < m → fi + i * fs + t * (fs * p) < n := by
      intro i t hi ht
      have h1 : (i + t * p) + 1 ≤ p * m := by
        calc (i + t * p) + 1 ≤ p + t * p := by omega
          _ = p * (t + 1) := by ring
          _ ≤ p * m := Nat.mul_le_mul_left _ ht
      calc fi + i * fs + t * (fs * p) = fi + fs * (i + t * p) := by ring
        _ < fs + fs * (i + t * p) := by omega
        _ = fs * ((i + t * p) + 1) := by ring
        _ ≤ fs * (p * m) := Nat.mul_le_mul_left _ h1
        _ = n := hn
    have hblk : ∃ B : Nat → ℂ, (∀ i j, i < m → j < p →
          B (i + j * m) = ∑ t ∈ range m, x (fi + j * fs + t * (fs * p)) * omega inv n ^ (fs * p * t * i)) ∧
        (if m = 1 then (List.range p).mapM fun i => idx ((List.range n).map fun k => ofC (x k)) (fi + i * fs)
          else do
            let parts ← (List.range p).mapM fun i =>
              kfWork inv (fftTwiddle n inv) ((List.range n).map fun k => ofC (x k)) fac (fs * p) (fi + i * fs)
                (rest + (p - 1 - i) * m)
            .ok parts.flatten) = .ok ((List.range (p * m)).map fun k => ofC (B k)) := by
      by_cases h1 : m = 1
      · subst h1
        refine ⟨fun j => x (fi + j * fs), ?_, ?_⟩
        · intro i j hi hj
          obtain rfl : i = 0 := by omega
          simp
        · rw [if_pos rfl, Nat.mul_one]
          refine mapM_range_ok fun i hi => ?_
          have := hlt i 0 hi (by omega)
          rw [idx_map_range _ (by omega)]
      · have hf : FacOk fac m := by
          rcases hm with ⟨h, -⟩ | ⟨-, h⟩
          · exact absurd h h1
          · exact h
        refine ⟨fun k => ∑ t ∈ range m, x (fi + k / m * fs + t * (fs * p)) * omega inv n ^ (fs * p * t * (k % m)), ?_, ?_⟩
        · intro i j hi hj
          have e1 : (i + j * m) / m = j := by
            rw [Nat.add_mul_div_right _ _ (by omega), Nat.div_eq_of_lt hi, Nat.zero_add]
          have e2 : (i + j * m) % m = i := by rw [Nat.add_mul_mod_self_right, Nat.mod_eq_of_lt hi]
          simp only [e1, e2]
        · rw [if_neg h1]
          rw [mapM_range_ok (g := fun j => (List.range m).map fun i => ofC
            (∑ t ∈ range m, x (fi + j * fs + t * (fs * p)) * omega inv n ^ (fs * p * t * i)))]
          · rw [Res.bind_ok, ← flatten_map_range _ m p]
            congr 2
            refine List.map_congr_left fun j _ => List.map_congr_left fun i hi => ?_
            have hi' := List.mem_range.mp hi
            have e1 : (i + j * m) / m = j := by
              rw [Nat.add_mul_div_right _ _ (by omega), Nat.div_eq_of_lt hi', Nat.zero_add]
            have e2 : (i + j * m) % m = i := by rw [Nat.add_mul_mod_self_right, Nat.mod_eq_of_lt hi']
            simp only [e1, e2]
          · intro j hj
            refine kfWork_ok hpos x fac m (fs * p) (fi + j * fs) _ hf (by rw [← hn]; ring) ?_
            calc fi + j * fs < fs + j * fs := by omega
              _ = fs * (j + 1) := by ring
              _ ≤ fs * p := Nat.mul_le_mul_left _ hj
    obtain ⟨B, hB, he⟩ := hblk
    rw [kfWork, he, Res.bind_ok, bflyBlock_ok (fun k => ofC (stageOut inv n p m fs B k))
      (fun i hi => bflyCol_ok hp hi hn hpos)]
    congr 1
    refine List.map_congr_left fun k hk => ?_
    rw [stageOut_dft hn hpos (List.mem_range.mp hk) hB]

/-- the transform of the model is the discrete Fourier transform, for every size whose radices are 2, 3, 4, 5 -/
theorem fft_ok {inv : Bool} {n : Nat} {fac : List (Nat × Nat)} (hfac : kfFactor n = .ok fac) (h : FacOk fac n)
    (x : Nat → ℂ) :
    fft inv ((List.range n).map fun k => ofC (x k)) = .ok ((List.range n).map fun k => ofC (Fourier.dft inv n x k)) := by
  unfold fft
  rw [List.length_map, List.length_range, hfac, Res.bind_ok, kfWork_ok h.pos x fac n 1 0 0 h (Nat.one_mul n) (by omega)]
  congr 1
  refine List.map_congr_left fun k _ => ?_
  unfold Fourier.dft
  congr 1
  refine Finset.sum_congr rfl fun j _ => ?_
  rw [Nat.zero_add, Nat.mul_one, Nat.one_mul, omega_pow]
  congr 4
  push_cast
  ring

/-- no prime factor is larger than five -/
def Smooth5 (n : Nat) : Prop := ∀ q, q.Prime → q ∣ n → q ≤ 5

theorem smooth5_div {n p : Nat} (h : Smooth5 n) (hd : p ∣ n) : Smooth5 (n / p) :=
  fun q hq hqd => h q hq (hqd.trans (Nat.div_dvd_of_dvd hd))

theorem smooth5_factor {n : Nat} (h : Smooth5 n) (hn : 2 ≤ n) : 2 ∣ n ∨ 3 ∣ n ∨ 5 ∣ n := by
  obtain ⟨q, hq, hd⟩ := Nat.exists_prime_and_dvd (show n ≠ 1 by omega)
  have h5 := h q hq hd
  have h2 := hq.two_le
  obtain rfl | rfl | rfl | rfl : q = 2 ∨ q = 3 ∨ q = 4 ∨ q = 5 := by omega
  · exact .inl hd
  · exact .inr (.inl hd)
  · exact absurd hq (by decide)
  · exact .inr (.inr hd)

/-- states of the factorisation loop, numbered by how much of the list of radices is left -/
def FacState (r p n : Nat) : Prop :=
  (r = 4 ∧ p = 4) ∨ (r = 3 ∧ p = 2 ∧ ¬ 4 ∣ n) ∨ (r = 2 ∧ p = 3 ∧ ¬ 2 ∣ n) ∨ (r = 1 ∧ p = 5 ∧ ¬ 2 ∣ n ∧ ¬ 3 ∣ n) ∨
    (r = 0 ∧ p = n ∧ (n = 2 ∨ n = 3 ∨ n = 5))

theorem kfFactorLoop_ok (N : Nat) : ∀ (fuel r p n : Nat), 2 ≤ n → n ≤ N → Smooth5 n → FacState r p n →
    2 * n + r < fuel → ∃ fac, kfFactorLoop (Nat.sqrt N) fuel p n = .ok fac ∧ FacOk fac n
  | 0, _, _, _, _, _, _, _, hf => by omega
  | fuel + 1, r, p, n, h2, hN, hs, hst, hf => by
    have hp : 2 ≤ p ∧ p ≤ 5 := by
      rcases hst with h | h | h | h | h <;> omega
    rw [kfFactorLoop]
    by_cases hd : n % p = 0
    · rw [if_neg (by simpa using hd)]
      have hdvd : p ∣ n := Nat.dvd_of_mod_eq_zero hd
      have hmul : p * (n / p) = n := Nat.mul_div_cancel' hdvd
      by_cases h1 : n / p ≤ 1
      · rw [if_pos h1]
        have : n / p = 1 := by
          rcases Nat.eq_zero_or_pos (n / p) with h | h
          · rw [h] at hmul; omega
          · omega
        rw [this] at hmul ⊢
        refine ⟨_, rfl, ?_⟩
        have := FacOk.last hp
        rw [show n = p by omega]
        exact this
      · rw [if_neg h1]
        have hle : 2 * (n / p) ≤ n := by
          calc 2 * (n / p) ≤ p * (n / p) := Nat.mul_le_mul_right _ hp.1
            _ = n := hmul
        have hdd : (n / p) ∣ n := Nat.div_dvd_of_dvd hdvd
        obtain ⟨fac, he, hk⟩ := kfFactorLoop_ok N fuel r p (n / p) (by omega) (by omega) (smooth5_div hs hdvd) (by
          rcases hst with h | ⟨h, hp', h'⟩ | ⟨h, hp', h'⟩ | ⟨h, hp', h', h''⟩ | ⟨h, hp', h'⟩
          · exact .inl h
          · exact .inr (.inl ⟨h, hp', fun c => h' (c.trans hdd)⟩)
          · exact .inr (.inr (.inl ⟨h, hp', fun c => h' (c.trans hdd)⟩))
          · exact .inr (.inr (.inr (.inl ⟨h, hp', fun c => h' (c.trans hdd), fun c => h'' (c.trans hdd)⟩)))
          · subst hp'
            rw [Nat.div_self (by omega)] at h1
            omega) (by omega)
        rw [he, Res.bind_ok]
        refine ⟨_, rfl, ?_⟩
        have := FacOk.step hp (by omega : n / p ≠ 1) hk
        rwa [hmul] at this
    · rw [if_pos hd]
      have hnd : ¬ p ∣ n := fun c => hd (Nat.mod_eq_zero_of_dvd c)
      have hsm := smooth5_factor hs h2
      have hsq : ∀ k, Nat.sqrt N < k → n < k * k := fun k hk => lt_of_le_of_lt hN (Nat.sqrt_lt.mp hk)
      rcases hst with ⟨h, rfl⟩ | ⟨h, rfl, h'⟩ | ⟨h, rfl, h'⟩ | ⟨h, rfl, h', h''⟩ | ⟨h, rfl, h'⟩
      · simp only [if_true]
        by_cases hc : 2 > Nat.sqrt N
        · rw [if_pos hc]
          have := hsq 2 hc
          exact kfFactorLoop_ok N fuel 0 n n h2 hN hs (by unfold FacState; omega) (by omega)
        · rw [if_neg hc]
          exact kfFactorLoop_ok N fuel 3 2 n h2 hN hs (.inr (.inl ⟨rfl, rfl, hnd⟩)) (by omega)
      · simp only [show ¬ (2 = 4) by omega, if_true, if_false]
        by_cases hc : 3 > Nat.sqrt N
        · rw [if_pos hc]
          have := hsq 3 hc
          exact kfFactorLoop_ok N fuel 0 n n h2 hN hs (by unfold FacState; omega) (by omega)
        · rw [if_neg hc]
          exact kfFactorLoop_ok N fuel 2 3 n h2 hN hs (.inr (.inr (.inl ⟨rfl, rfl, hnd⟩))) (by omega)
      · simp only [show ¬ (3 = 4) by omega, show ¬ (3 = 2) by omega, if_false]
        by_cases hc : 5 > Nat.sqrt N
        · rw [if_pos hc]
          have := hsq 5 hc
          exact kfFactorLoop_ok N fuel 0 n n h2 hN hs (by unfold FacState; omega) (by omega)
        · rw [if_neg hc]
          exact kfFactorLoop_ok N fuel 1 5 n h2 hN hs (.inr (.inr (.inr (.inl ⟨rfl, rfl, h', hnd⟩)))) (by omega)
      · omega
      · exact absurd (Nat.mod_self _) hd

/-- every size from two on without prime factors above five is factored into the radices 2, 3, 4, 5 -/
theorem kfFactor_smooth {n : Nat} (h2 : 2 ≤ n) (hs : Smooth5 n) : ∃ fac, kfFactor n = .ok fac ∧ FacOk fac n :=
  kfFactorLoop_ok n _ 4 4 n h2 le_rfl hs (.inl ⟨rfl, rfl⟩) (by omega)

end Lc3
