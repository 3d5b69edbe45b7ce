import Verif.Lemmas.F32Err
import Verif.Lemmas.Fft
import Verif.Spec.Rounding
/-! Rounding errors of complex arithmetic in binary32. -/

namespace Lc3.F32
open Scalar

theorem rnd_fin {x : ℚ} (h : |x| ≤ 2 ^ 127) : rnd x = fin (rndQ x) := by
  have h1 := rndQ_err x
  have h2 : |rndQ x| ≤ |x| + (|x| / 2 ^ 24 + 1 / 2 ^ 150) := by
    have := abs_sub_abs_le_abs_sub (rndQ x) x
    linarith
  have h3 : |rndQ x| < 2 ^ 128 := by
    refine h2.trans_lt ?_
    have : |x| / 2 ^ 24 ≤ 2 ^ 127 / 2 ^ 24 := by gcongr
    norm_num at this h ⊢
    linarith
  obtain ⟨h4, h5⟩ := abs_lt.1 h3
  unfold rnd
  rw [if_neg (by linarith), if_neg (by linarith)]

theorem rnd_val {x : ℚ} (h : |(x : ℝ)| ≤ 2 ^ 127) :
    IsFin (rnd x) ∧ |val (rnd x) - x| ≤ |(x : ℝ)| / 2 ^ 24 + 1 / 2 ^ 150 := by
  have h' : |x| ≤ 2 ^ 127 := by exact_mod_cast h
  rw [rnd_fin h']
  refine ⟨⟨_, rfl⟩, ?_⟩
  have := rndQ_err x
  show |((rndQ x : ℚ) : ℝ) - x| ≤ _
  have h3 : ((|rndQ x - x| : ℚ) : ℝ) ≤ ((|x| / 2 ^ 24 + 1 / 2 ^ 150 : ℚ) : ℝ) := by exact_mod_cast this
  push_cast at h3
  exact h3

theorem add_val {a b : F32} (ha : IsFin a) (hb : IsFin b) (h : |val a + val b| ≤ 2 ^ 127) :
    IsFin (add a b) ∧ |val (add a b) - (val a + val b)| ≤ |val a + val b| / 2 ^ 24 + 1 / 2 ^ 150 := by
  obtain ⟨p, rfl⟩ := ha
  obtain ⟨q, rfl⟩ := hb
  have e : val (fin p) + val (fin q) = ((p + q : ℚ) : ℝ) := by show (p : ℝ) + (q : ℝ) = _; push_cast; rfl
  rw [e] at h ⊢
  exact rnd_val h

theorem mul_val {a b : F32} (ha : IsFin a) (hb : IsFin b) (h : |val a * val b| ≤ 2 ^ 127) :
    IsFin (mul a b) ∧ |val (mul a b) - val a * val b| ≤ |val a * val b| / 2 ^ 24 + 1 / 2 ^ 150 := by
  obtain ⟨p, rfl⟩ := ha
  obtain ⟨q, rfl⟩ := hb
  have e : val (fin p) * val (fin q) = ((p * q : ℚ) : ℝ) := by show (p : ℝ) * (q : ℝ) = _; push_cast; rfl
  rw [e] at h ⊢
  exact rnd_val h

theorem neg_val {a : F32} (ha : IsFin a) : IsFin (neg a) ∧ val (neg a) = -val a := by
  obtain ⟨p, rfl⟩ := ha
  refine ⟨⟨_, rfl⟩, ?_⟩
  show ((-p : ℚ) : ℝ) = -(p : ℝ)
  push_cast
  rfl

theorem sub_val {a b : F32} (ha : IsFin a) (hb : IsFin b) (h : |val a - val b| ≤ 2 ^ 127) :
    IsFin (sub a b) ∧ |val (sub a b) - (val a - val b)| ≤ |val a - val b| / 2 ^ 24 + 1 / 2 ^ 150 := by
  obtain ⟨h1, h2⟩ := neg_val hb
  have := add_val ha h1 (by rw [h2, ← sub_eq_add_neg]; exact h)
  rw [h2, ← sub_eq_add_neg] at this
  exact this

theorem norm_comp {e A : ℂ} {c d : ℝ} (hc : 0 ≤ c) (hd : 0 ≤ d) (h1 : |e.re| ≤ |A.re| * c + d)
    (h2 : |e.im| ≤ |A.im| * c + d) : ‖e‖ ≤ ‖A‖ * c + 2 * d := by
  have hA := norm_nonneg A
  refine abs_le_of_sq_le_sq' ?_ (by positivity) |>.2
  have e1 : ‖e‖ ^ 2 = |e.re| ^ 2 + |e.im| ^ 2 := by
    rw [sq_abs, sq_abs, ← Complex.normSq_eq_norm_sq, Complex.normSq_apply]; ring
  have e2 : ‖A‖ ^ 2 = |A.re| ^ 2 + |A.im| ^ 2 := by
    rw [sq_abs, sq_abs, ← Complex.normSq_eq_norm_sq, Complex.normSq_apply]; ring
  have h3 := Complex.abs_re_le_norm A
  have h4 := Complex.abs_im_le_norm A
  have h5 : |e.re| ^ 2 ≤ (|A.re| * c + d) ^ 2 := pow_le_pow_left₀ (abs_nonneg _) h1 2
  have h6 : |e.im| ^ 2 ≤ (|A.im| * c + d) ^ 2 := pow_le_pow_left₀ (abs_nonneg _) h2 2
  have hcd : 0 ≤ c * d := mul_nonneg hc hd
  have h7 := mul_le_mul_of_nonneg_right h3 hcd
  have h8 := mul_le_mul_of_nonneg_right h4 hcd
  rw [e1]
  have : (‖A‖ * c + 2 * d) ^ 2 = (|A.re| ^ 2 + |A.im| ^ 2) * c ^ 2 + 4 * (‖A‖ * (c * d)) + 4 * d ^ 2 := by
    rw [← e2]; ring
  rw [this]
  nlinarith [sq_nonneg d]

theorem norm_le_comp {e : ℂ} {c : ℝ} (hc : 0 ≤ c) (h1 : |e.re| ≤ c) (h2 : |e.im| ≤ c) : ‖e‖ ≤ 71 / 50 * c := by
  refine abs_le_of_sq_le_sq' ?_ (by positivity) |>.2
  have e1 : ‖e‖ ^ 2 = |e.re| ^ 2 + |e.im| ^ 2 := by
    rw [sq_abs, sq_abs, ← Complex.normSq_eq_norm_sq, Complex.normSq_apply]; ring
  have h5 : |e.re| ^ 2 ≤ c ^ 2 := pow_le_pow_left₀ (abs_nonneg _) h1 2
  have h6 : |e.im| ^ 2 ≤ c ^ 2 := pow_le_pow_left₀ (abs_nonneg _) h2 2
  rw [e1]
  nlinarith [sq_nonneg c]

/-- `z` approximates `w`, whose magnitude is at most `m`, up to `k` units of `m / 2 ^ 24`. The lower bound on `m` absorbs
underflow. -/
structure Nr (k m : ℝ) (z : Cx F32) (w : Cx ℝ) : Prop where
  fr : IsFin z.r
  fi : IsFin z.i
  lo : 1 / 2 ^ 100 ≤ m
  k0 : 0 ≤ k
  bd : ‖toC w‖ ≤ m
  er : ‖cval z - toC w‖ ≤ k * m / 2 ^ 24

theorem Nr.norm_le {k m : ℝ} {z : Cx F32} {w : Cx ℝ} (h : Nr k m z w) : ‖cval z‖ ≤ m + k * m / 2 ^ 24 := by
  have := norm_le_insert' (cval z) (toC w)
  have := h.bd
  have := h.er
  linarith

/-- complex addition on components -/
def cadd (a b : Cx F32) : Cx F32 := ⟨add a.r b.r, add a.i b.i⟩

theorem cadd_val {a b : Cx F32} (ha : IsFin a.r ∧ IsFin a.i) (hb : IsFin b.r ∧ IsFin b.i)
    (h : ‖cval a + cval b‖ ≤ 2 ^ 127) :
    (IsFin (cadd a b).r ∧ IsFin (cadd a b).i) ∧
      ‖cval (cadd a b) - (cval a + cval b)‖ ≤ ‖cval a + cval b‖ * (1 / 2 ^ 24) + 2 * (1 / 2 ^ 150) := by
  have h1 := add_val ha.1 hb.1 ((Complex.abs_re_le_norm (cval a + cval b)).trans h)
  have h2 := add_val ha.2 hb.2 ((Complex.abs_im_le_norm (cval a + cval b)).trans h)
  refine ⟨⟨h1.1, h2.1⟩, norm_comp (by positivity) (by positivity) ?_ ?_⟩
  · have := h1.2
    rw [div_eq_mul_one_div] at this
    exact this
  · have := h2.2
    rw [div_eq_mul_one_div] at this
    exact this

theorem Nr.add {k1 k2 k m1 m2 : ℝ} {a b : Cx F32} {v w : Cx ℝ} (ha : Nr k1 m1 a v) (hb : Nr k2 m2 b w)
    (h1 : k1 ≤ k) (h2 : k2 ≤ k) (hk : k ≤ 1000) (hm : m1 + m2 ≤ 2 ^ 116) :
    Nr (k + 101 / 100) (m1 + m2) (cadd a b) ⟨v.r + w.r, v.i + w.i⟩ := by
  have hl1 := ha.lo
  have hl2 := hb.lo
  have hm1 : 0 < m1 := lt_of_lt_of_le (by positivity) hl1
  have hm2 : 0 < m2 := lt_of_lt_of_le (by positivity) hl2
  have hk0 := ha.k0.trans h1
  have er : ‖(cval a + cval b) - (toC v + toC w)‖ ≤ k * (m1 + m2) / 2 ^ 24 := by
    have e : (cval a + cval b) - (toC v + toC w) = (cval a - toC v) + (cval b - toC w) := by ring
    rw [e]
    refine (norm_add_le _ _).trans ?_
    have p1 := ha.er
    have p2 := hb.er
    have q1 : k1 * m1 / 2 ^ 24 ≤ k * m1 / 2 ^ 24 := by gcongr
    have q2 : k2 * m2 / 2 ^ 24 ≤ k * m2 / 2 ^ 24 := by gcongr
    have : k * (m1 + m2) / 2 ^ 24 = k * m1 / 2 ^ 24 + k * m2 / 2 ^ 24 := by ring
    linarith
  have bd : ‖toC v + toC w‖ ≤ m1 + m2 := (norm_add_le _ _).trans (add_le_add ha.bd hb.bd)
  have hkm : k * (m1 + m2) ≤ 1000 * (m1 + m2) := by gcongr
  have nb : ‖cval a + cval b‖ ≤ (m1 + m2) * (1 + 1000 / 2 ^ 24) := by
    have := norm_le_insert' (cval a + cval b) (toC v + toC w)
    have : k * (m1 + m2) / 2 ^ 24 ≤ 1000 * (m1 + m2) / 2 ^ 24 := by gcongr
    have e : (m1 + m2) * (1 + 1000 / 2 ^ 24) = (m1 + m2) + 1000 * (m1 + m2) / 2 ^ 24 := by ring
    linarith
  obtain ⟨hf, he⟩ := cadd_val ⟨ha.fr, ha.fi⟩ ⟨hb.fr, hb.fi⟩ (nb.trans (by
    norm_num at hm ⊢
    linarith))
  refine ⟨hf.1, hf.2, by linarith, by linarith, bd, ?_⟩
  have e : cval (cadd a b) - toC ⟨v.r + w.r, v.i + w.i⟩
      = (cval (cadd a b) - (cval a + cval b)) + ((cval a + cval b) - (toC v + toC w)) := by
    have : toC ⟨v.r + w.r, v.i + w.i⟩ = toC v + toC w := by apply Complex.ext <;> rfl
    rw [this]; ring
  rw [e]
  refine (norm_add_le _ _).trans ?_
  norm_num at he er nb hl1 hl2 ⊢
  linarith

theorem Nr.neg {k m : ℝ} {a : Cx F32} {v : Cx ℝ} (ha : Nr k m a v) : Nr k m ⟨neg a.r, neg a.i⟩ ⟨-v.r, -v.i⟩ := by
  have h1 := neg_val ha.fr
  have h2 := neg_val ha.fi
  have e1 : cval ⟨F32.neg a.r, F32.neg a.i⟩ = -cval a := by
    apply Complex.ext
    · exact h1.2
    · exact h2.2
  have e2 : toC ⟨-v.r, -v.i⟩ = -toC v := by apply Complex.ext <;> rfl
  refine ⟨h1.1, h2.1, ha.lo, ha.k0, ?_, ?_⟩
  · rw [e2, norm_neg]; exact ha.bd
  · rw [e1, e2, ← neg_sub', norm_neg]; exact ha.er

/-- rotation by a quarter turn -/
theorem Nr.rot {k m : ℝ} {a : Cx F32} {v : Cx ℝ} (ha : Nr k m a v) : Nr k m ⟨a.i, F32.neg a.r⟩ ⟨v.i, -v.r⟩ := by
  have h1 := neg_val ha.fr
  have e1 : cval ⟨a.i, F32.neg a.r⟩ = -Complex.I * cval a := by
    apply Complex.ext
    · simp [cval]
    · simp only [cval, h1.2]; simp
  have e2 : toC ⟨v.i, -v.r⟩ = -Complex.I * toC v := by apply Complex.ext <;> simp [toC]
  refine ⟨ha.fi, h1.1, ha.lo, ha.k0, ?_, ?_⟩
  · rw [e2, norm_mul, norm_neg, Complex.norm_I, one_mul]; exact ha.bd
  · rw [e1, e2, ← mul_sub, norm_mul, norm_neg, Complex.norm_I, one_mul]; exact ha.er

/-- rotation by a quarter turn the other way -/
theorem Nr.rot' {k m : ℝ} {a : Cx F32} {v : Cx ℝ} (ha : Nr k m a v) : Nr k m ⟨F32.neg a.i, a.r⟩ ⟨-v.i, v.r⟩ := by
  have h1 := neg_val ha.fi
  have e1 : cval ⟨F32.neg a.i, a.r⟩ = Complex.I * cval a := by
    apply Complex.ext
    · simp only [cval, h1.2]; simp
    · simp [cval]
  have e2 : toC ⟨-v.i, v.r⟩ = Complex.I * toC v := by apply Complex.ext <;> simp [toC]
  refine ⟨h1.1, ha.fr, ha.lo, ha.k0, ?_, ?_⟩
  · rw [e2, norm_mul, Complex.norm_I, one_mul]; exact ha.bd
  · rw [e1, e2, ← mul_sub, norm_mul, Complex.norm_I, one_mul]; exact ha.er

theorem Nr.sub {k1 k2 k m1 m2 : ℝ} {a b : Cx F32} {v w : Cx ℝ} (ha : Nr k1 m1 a v) (hb : Nr k2 m2 b w)
    (h1 : k1 ≤ k) (h2 : k2 ≤ k) (hk : k ≤ 1000) (hm : m1 + m2 ≤ 2 ^ 116) :
    Nr (k + 101 / 100) (m1 + m2) ⟨F32.sub a.r b.r, F32.sub a.i b.i⟩ ⟨v.r - w.r, v.i - w.i⟩ := by
  have := ha.add hb.neg h1 h2 hk hm
  simp only [← sub_eq_add_neg] at this
  exact this

/-- a coefficient of magnitude at most one -/
structure Co (c : F32) (d : ℝ) : Prop where
  fin : IsFin c
  bd : |d| ≤ 1
  er : |val c - d| ≤ 1 / 2 ^ 24

theorem Co.abs_le {c : F32} {d : ℝ} (h : Co c d) : |val c| ≤ 1 + 1 / 2 ^ 24 := by
  have := abs_sub_abs_le_abs_sub (val c) d
  have := h.bd
  have := h.er
  linarith

theorem Nr.smul {k m : ℝ} {a : Cx F32} {v : Cx ℝ} {c : F32} {d : ℝ} (ha : Nr k m a v) (hc : Co c d) (hk : k ≤ 1000)
    (hm : m ≤ 2 ^ 116) : Nr (k + 201 / 100) m ⟨mul a.r c, mul a.i c⟩ ⟨v.r * d, v.i * d⟩ := by
  have hl := ha.lo
  have hm0 : 0 < m := lt_of_lt_of_le (by positivity) hl
  have hk0 := ha.k0
  have hkm : k * m ≤ 1000 * m := by gcongr
  have nb : ‖cval a‖ ≤ m * (1 + 1000 / 2 ^ 24) := by
    have := ha.norm_le
    have : k * m / 2 ^ 24 ≤ 1000 * m / 2 ^ 24 := by gcongr
    have e : m * (1 + 1000 / 2 ^ 24) = m + 1000 * m / 2 ^ 24 := by ring
    linarith
  have hcab := hc.abs_le
  have big : ∀ x : ℝ, |x| ≤ ‖cval a‖ → |x * val c| ≤ 2 ^ 127 := by
    intro x hx
    rw [abs_mul]
    have : |x| * |val c| ≤ (m * (1 + 1000 / 2 ^ 24)) * 2 := by
      refine mul_le_mul (hx.trans nb) ?_ (abs_nonneg _) (by positivity)
      refine hcab.trans ?_
      norm_num
    norm_num at this hm ⊢
    linarith
  have h1 := mul_val ha.fr hc.fin (big _ (Complex.abs_re_le_norm (cval a)))
  have h2 := mul_val ha.fi hc.fin (big _ (Complex.abs_im_le_norm (cval a)))
  have he : ‖cval ⟨mul a.r c, mul a.i c⟩ - cval a * (val c : ℂ)‖ ≤ ‖cval a * (val c : ℂ)‖ * (1 / 2 ^ 24) + 2 * (1 / 2 ^ 150) := by
    refine norm_comp (by positivity) (by positivity) ?_ ?_
    · have := h1.2
      rw [div_eq_mul_one_div] at this
      simpa [cval] using this
    · have := h2.2
      rw [div_eq_mul_one_div] at this
      simpa [cval] using this
  have e2 : toC ⟨v.r * d, v.i * d⟩ = toC v * (d : ℂ) := by apply Complex.ext <;> simp [toC]
  have ncd : ‖(d : ℂ)‖ ≤ 1 := by rw [Complex.norm_real]; exact hc.bd
  have ncc : ‖(val c : ℂ)‖ ≤ 1 + 1 / 2 ^ 24 := by rw [Complex.norm_real]; exact hcab
  refine ⟨h1.1, h2.1, hl, by linarith, ?_, ?_⟩
  · rw [e2, norm_mul]
    have := mul_le_mul ha.bd ncd (norm_nonneg _) hm0.le
    linarith
  · rw [e2]
    have e : cval ⟨mul a.r c, mul a.i c⟩ - toC v * (d : ℂ)
        = (cval ⟨mul a.r c, mul a.i c⟩ - cval a * (val c : ℂ)) + ((cval a - toC v) * (val c : ℂ)
          + toC v * ((val c : ℂ) - d)) := by ring
    rw [e]
    refine (norm_add_le _ _).trans ((add_le_add_right (norm_add_le _ _) _).trans ?_)
    have t1 : ‖(cval a - toC v) * (val c : ℂ)‖ ≤ k * m / 2 ^ 24 * (1 + 1 / 2 ^ 24) := by
      rw [norm_mul]
      exact mul_le_mul ha.er ncc (norm_nonneg _) (by positivity)
    have t2 : ‖toC v * ((val c : ℂ) - d)‖ ≤ m * (1 / 2 ^ 24) := by
      rw [norm_mul, ← Complex.ofReal_sub, Complex.norm_real]
      exact mul_le_mul ha.bd hc.er (norm_nonneg _) hm0.le
    have t3 : ‖cval a * (val c : ℂ)‖ ≤ (m * (1 + 1000 / 2 ^ 24)) * (1 + 1 / 2 ^ 24) := by
      rw [norm_mul]
      exact mul_le_mul nb ncc (norm_nonneg _) (by positivity)
    norm_num at he t1 t2 t3 hl hkm ⊢
    linarith

/-- complex multiplication on components -/
def cmul (a b : Cx F32) : Cx F32 :=
  ⟨F32.sub (mul a.r b.r) (mul a.i b.i), F32.add (mul a.r b.i) (mul a.i b.r)⟩

/-- a sum of two products -/
theorem dot_val {x y : ℝ} {p q : F32} {R : ℝ} (hR : |x| + |y| ≤ R) (hb : R ≤ 2 ^ 120)
    (hp : IsFin p ∧ |val p - x| ≤ |x| / 2 ^ 24 + 1 / 2 ^ 150) (hq : IsFin q ∧ |val q - y| ≤ |y| / 2 ^ 24 + 1 / 2 ^ 150) :
    IsFin (F32.add p q) ∧ |val (F32.add p q) - (x + y)| ≤ R * (201 / 100 / 2 ^ 24) + 4 / 2 ^ 150 := by
  have hR0 : 0 ≤ R := (add_nonneg (abs_nonneg x) (abs_nonneg y)).trans hR
  have h1 : |(val p + val q) - (x + y)| ≤ R / 2 ^ 24 + 2 / 2 ^ 150 := by
    have e : (val p + val q) - (x + y) = (val p - x) + (val q - y) := by ring
    rw [e]
    refine (abs_add_le _ _).trans ?_
    have : R / 2 ^ 24 + 2 / 2 ^ 150 ≥ (|x| + |y|) / 2 ^ 24 + 2 / 2 ^ 150 := by gcongr
    have e2 : (|x| + |y|) / 2 ^ 24 = |x| / 2 ^ 24 + |y| / 2 ^ 24 := by ring
    have e3 : (2 : ℝ) / 2 ^ 150 = 1 / 2 ^ 150 + 1 / 2 ^ 150 := by ring
    linarith [hp.2, hq.2]
  have h2 : |val p + val q| ≤ R + (R / 2 ^ 24 + 2 / 2 ^ 150) := by
    have := abs_sub_abs_le_abs_sub (val p + val q) (x + y)
    have := abs_add_le x y
    linarith
  obtain ⟨hf, he⟩ := add_val hp.1 hq.1 (h2.trans (by norm_num at hb ⊢; linarith))
  refine ⟨hf, ?_⟩
  have e : val (F32.add p q) - (x + y) = (val (F32.add p q) - (val p + val q)) + ((val p + val q) - (x + y)) := by ring
  rw [e]
  refine (abs_add_le _ _).trans ?_
  norm_num at h1 h2 he ⊢
  linarith

theorem cs_abs (a b : ℂ) : |a.re * b.re| + |a.im * b.im| ≤ ‖a‖ * ‖b‖ := by
  refine abs_le_of_sq_le_sq' ?_ (by positivity) |>.2
  have e1 : ‖a‖ ^ 2 = |a.re| ^ 2 + |a.im| ^ 2 := by
    rw [sq_abs, sq_abs, ← Complex.normSq_eq_norm_sq, Complex.normSq_apply]; ring
  have e2 : ‖b‖ ^ 2 = |b.re| ^ 2 + |b.im| ^ 2 := by
    rw [sq_abs, sq_abs, ← Complex.normSq_eq_norm_sq, Complex.normSq_apply]; ring
  rw [mul_pow, e1, e2, abs_mul, abs_mul]
  nlinarith [sq_nonneg (|a.re| * |b.im| - |a.im| * |b.re|)]

theorem cmul_val {a b : Cx F32} (ha : IsFin a.r ∧ IsFin a.i) (hb : IsFin b.r ∧ IsFin b.i)
    (h : ‖cval a‖ * ‖cval b‖ ≤ 2 ^ 120) :
    (IsFin (cmul a b).r ∧ IsFin (cmul a b).i) ∧
      ‖cval (cmul a b) - cval a * cval b‖ ≤ ‖cval a‖ * ‖cval b‖ * (3 / 2 ^ 24) + 6 / 2 ^ 150 := by
  have c1 : |val a.r * val b.r| + |val a.i * val b.i| ≤ ‖cval a‖ * ‖cval b‖ := cs_abs (cval a) (cval b)
  have c2 : |val a.r * val b.i| + |val a.i * val b.r| ≤ ‖cval a‖ * ‖cval b‖ := by
    have := cs_abs (cval a) ⟨val b.i, val b.r⟩
    have e : ‖(⟨val b.i, val b.r⟩ : ℂ)‖ = ‖cval b‖ := by
      rw [← abs_of_nonneg (norm_nonneg (⟨val b.i, val b.r⟩ : ℂ)), ← abs_of_nonneg (norm_nonneg (cval b)), ← sq_eq_sq_iff_abs_eq_abs,
        ← Complex.normSq_eq_norm_sq, ← Complex.normSq_eq_norm_sq, Complex.normSq_apply, Complex.normSq_apply]
      show val b.i * val b.i + val b.r * val b.r = val b.r * val b.r + val b.i * val b.i
      ring
    rw [e] at this
    exact this
  have hbig : (‖cval a‖ * ‖cval b‖ : ℝ) ≤ 2 ^ 127 := h.trans (by norm_num)
  have p1 := mul_val ha.1 hb.1 (by have := abs_nonneg (val a.i * val b.i); linarith)
  have p2 := mul_val ha.2 hb.2 (by have := abs_nonneg (val a.r * val b.r); linarith)
  have p3 := mul_val ha.1 hb.2 (by have := abs_nonneg (val a.i * val b.r); linarith)
  have p4 := mul_val ha.2 hb.1 (by have := abs_nonneg (val a.r * val b.i); linarith)
  have n2 := neg_val p2.1
  have d1 := dot_val (x := val a.r * val b.r) (y := -(val a.i * val b.i)) (by rw [abs_neg]; exact c1) h p1
    ⟨n2.1, by rw [n2.2, abs_neg, ← neg_sub', abs_neg]; exact p2.2⟩
  have d2 := dot_val c2 h p3 p4
  refine ⟨⟨d1.1, d2.1⟩, ?_⟩
  have := norm_le_comp (e := cval (cmul a b) - cval a * cval b)
    (c := ‖cval a‖ * ‖cval b‖ * (201 / 100 / 2 ^ 24) + 4 / 2 ^ 150) (by positivity) (by
      have := d1.2
      rw [← sub_eq_add_neg] at this
      exact this) (d2.2)
  have h0 : 0 ≤ ‖cval a‖ * ‖cval b‖ := by positivity
  norm_num at this ⊢
  linarith

theorem Nr.mul {k m : ℝ} {a t : Cx F32} {v s : Cx ℝ} (ha : Nr k m a v) (ht : Nr (3 / 2) 1 t s) (hk : k ≤ 1000)
    (hm : m ≤ 2 ^ 116) : Nr (k + 451 / 100) m (cmul a t) ⟨v.r * s.r - v.i * s.i, v.r * s.i + v.i * s.r⟩ := by
  have hl := ha.lo
  have hm0 : 0 < m := lt_of_lt_of_le (by positivity) hl
  have hk0 := ha.k0
  have hkm : k * m ≤ 1000 * m := by gcongr
  have nb : ‖cval a‖ ≤ m * (1 + 1000 / 2 ^ 24) := by
    have := ha.norm_le
    have : k * m / 2 ^ 24 ≤ 1000 * m / 2 ^ 24 := by gcongr
    have e : m * (1 + 1000 / 2 ^ 24) = m + 1000 * m / 2 ^ 24 := by ring
    linarith
  have nt : ‖cval t‖ ≤ 1 + 3 / 2 / 2 ^ 24 := by
    have := ht.norm_le
    rw [mul_one] at this
    exact this
  have t3 : ‖cval a‖ * ‖cval t‖ ≤ (m * (1 + 1000 / 2 ^ 24)) * (1 + 3 / 2 / 2 ^ 24) :=
    mul_le_mul nb nt (norm_nonneg _) (by positivity)
  obtain ⟨hf, he⟩ := cmul_val ⟨ha.fr, ha.fi⟩ ⟨ht.fr, ht.fi⟩ (t3.trans (by norm_num at hm ⊢; linarith))
  have e2 : toC ⟨v.r * s.r - v.i * s.i, v.r * s.i + v.i * s.r⟩ = toC v * toC s := by
    apply Complex.ext <;> simp [toC]
  refine ⟨hf.1, hf.2, hl, by linarith, ?_, ?_⟩
  · rw [e2, norm_mul]
    have := mul_le_mul ha.bd ht.bd (norm_nonneg _) hm0.le
    linarith
  · rw [e2]
    have e : cval (cmul a t) - toC v * toC s
        = (cval (cmul a t) - cval a * cval t) + ((cval a - toC v) * cval t + toC v * (cval t - toC s)) := by ring
    rw [e]
    refine (norm_add_le _ _).trans ((add_le_add_right (norm_add_le _ _) _).trans ?_)
    have t1 : ‖(cval a - toC v) * cval t‖ ≤ k * m / 2 ^ 24 * (1 + 3 / 2 / 2 ^ 24) := by
      rw [norm_mul]
      exact mul_le_mul ha.er nt (norm_nonneg _) (by positivity)
    have t2 : ‖toC v * (cval t - toC s)‖ ≤ m * (3 / 2 * 1 / 2 ^ 24) := by
      rw [norm_mul]
      exact mul_le_mul ha.bd ht.er (norm_nonneg _) hm0.le
    norm_num at he t1 t2 t3 hl hkm ⊢
    linarith

/-- the same with the coefficient as the first factor -/
theorem Nr.mul' {k m : ℝ} {a t : Cx F32} {v s : Cx ℝ} (ht : Nr (3 / 2) 1 t s) (ha : Nr k m a v) (hk : k ≤ 1000)
    (hm : m ≤ 2 ^ 116) : Nr (k + 451 / 100) m (cmul t a) ⟨s.r * v.r - s.i * v.i, s.r * v.i + s.i * v.r⟩ := by
  have h := ha.mul ht hk hm
  have c : ∀ p q : F32, F32.mul p q = F32.mul q p := by
    intro p q
    cases p <;> cases q <;> simp [F32.mul, mul_comm, Bool.or_comm, bne_comm]
  have d : ∀ p q : F32, F32.add p q = F32.add q p := by
    intro p q
    cases p <;> cases q <;> simp [F32.add, add_comm, eq_comm]
    split_ifs with h <;> simp [h]
  have e1 : cmul t a = cmul a t := by
    unfold cmul
    rw [c t.r a.r, c t.i a.i, c t.r a.i, c t.i a.r, d]
  have e2 : (⟨s.r * v.r - s.i * v.i, s.r * v.i + s.i * v.r⟩ : Cx ℝ) = ⟨v.r * s.r - v.i * s.i, v.r * s.i + v.i * s.r⟩ := by
    congr 1 <;> ring
  rw [e1, e2]
  exact h

end Lc3.F32
