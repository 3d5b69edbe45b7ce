import Verif.Lemmas.FinEncSns
import Verif.Lemmas.Silence32Sns
/-!
# Scale factors in binary32

The scale factors of decoder and encoder are near those of exact arithmetic.
-/

namespace Lc3
open Scalar Tables Spec
namespace F32

variable {el : Elem}

/-- pulses times a row -/
noncomputable def rowSum (p : List (ℤ × ℚ)) : ℝ := (p.map fun x => (x.1 : ℝ) * (x.2 : ℝ)).sum

theorem rowSum_le : ∀ p : List (ℤ × ℚ), (∀ x ∈ p, |x.2| ≤ (352 / 1000 : ℚ)) → |rowSum p| ≤ 352 / 1000 * pulseSum (p.map Prod.fst)
  | [], _ => by simp [rowSum, pulseSum]
  | x :: p, h => by
    have ih := rowSum_le p fun y hy => h y (by simp [hy])
    have e1 : rowSum (x :: p) = (x.1 : ℝ) * (x.2 : ℝ) + rowSum p := by simp [rowSum]
    have e2 : pulseSum ((x :: p).map Prod.fst) = x.1.natAbs + pulseSum (p.map Prod.fst) := by simp [pulseSum]
    have hd : |(x.2 : ℝ)| ≤ 352 / 1000 := by
      have : ((|x.2| : ℚ) : ℝ) ≤ ((352 / 1000 : ℚ) : ℝ) := by exact_mod_cast h x (by simp)
      push_cast at this
      exact this
    have hm : |(x.1 : ℝ)| = x.1.natAbs := by
      rw [← Int.cast_abs, Int.abs_eq_natAbs]
      rfl
    rw [e1, e2]
    push_cast
    refine (abs_add_le _ _).trans ?_
    rw [abs_mul, hm]
    have h0 : (0 : ℝ) ≤ x.1.natAbs := by positivity
    nlinarith

/-- a quotient of two values with small relative errors -/
theorem div_ab {g N : ℝ} {a n : F32} (ha : Ab g (|g| / 2 ^ 24 + 1 / 2 ^ 150) a) (hn : IsFin n) (hN : |val n - N| ≤ N / 2 ^ 24) (h1 : 1 ≤ N)
    (hg : |g| ≤ 2 ^ 100) : Ab (g / N) (|g| / N / 2 ^ 22 + 1 / 2 ^ 140) (F32.div a n) := by
  obtain ⟨v, hv⟩ : ∃ v, v = val n := ⟨_, rfl⟩
  obtain ⟨α, hα⟩ : ∃ α, α = val a := ⟨_, rfl⟩
  have ha2 := ha.2
  rw [← hα] at ha2
  rw [← hv] at hN
  have hv1 : N * (1 - 1 / 2 ^ 24) ≤ v := by
    have := (abs_le.1 hN).1
    linarith
  have hv0 : 0 < v := by
    have : 0 < N * (1 - 1 / 2 ^ 24) := by norm_num; linarith
    linarith
  have hN0 : 0 < N := by linarith
  obtain ⟨G, hG⟩ : ∃ G, G = |g| / N := ⟨_, rfl⟩
  have hG0 : 0 ≤ G := by rw [hG]; positivity
  have hGg : |g| = G * N := by rw [hG, div_mul_cancel₀ _ hN0.ne']
  -- the exact quotient
  have e1 : |α / v - g / N| ≤ G * (5 / 2 ^ 25) + 1 / 2 ^ 148 := by
    have e : α / v - g / N = (α - g) / v + g / N * ((N - v) / v) := by
      field_simp
      ring
    rw [e]
    refine (abs_add_le _ _).trans ?_
    rw [abs_mul, abs_div, abs_div, abs_div, abs_of_pos hv0, abs_of_pos hN0, abs_sub_comm N v, ← hG]
    have k1 : |α - g| / v ≤ (G * N / 2 ^ 24 + 1 / 2 ^ 150) / (N * (1 - 1 / 2 ^ 24)) := by
      rw [← hGg]
      exact div_le_div₀ (by positivity) ha2 (by norm_num; linarith) hv1
    have k2 : |v - N| / v ≤ (N / 2 ^ 24) / (N * (1 - 1 / 2 ^ 24)) := div_le_div₀ (by positivity) hN (by norm_num; linarith) hv1
    have k3 : (G * N / 2 ^ 24 + 1 / 2 ^ 150) / (N * (1 - 1 / 2 ^ 24)) ≤ G * (5 / 2 ^ 26) + 1 / 2 ^ 148 := by
      rw [div_le_iff₀ (by norm_num; linarith)]
      have : 0 ≤ G * N := by positivity
      norm_num
      nlinarith
    have k4 : (N / 2 ^ 24) / (N * (1 - 1 / 2 ^ 24)) ≤ 5 / 2 ^ 26 := by
      rw [div_le_iff₀ (by norm_num; linarith)]
      norm_num
      linarith
    have k5 := mul_le_mul_of_nonneg_left (k2.trans k4) hG0
    have k6 := k1.trans k3
    have : G * (5 / 2 ^ 25) = G * (5 / 2 ^ 26) + G * (5 / 2 ^ 26) := by ring
    linarith
  have hgN : |g / N| = G := by rw [abs_div, abs_of_pos hN0, hG]
  have hG2 : G ≤ 2 ^ 100 := by
    rw [hG]
    exact (div_le_self (abs_nonneg _) h1).trans hg
  have e2 : |α / v| ≤ G * (1 + 5 / 2 ^ 25) + 1 / 2 ^ 148 := by
    have := abs_sub_abs_le_abs_sub (α / v) (g / N)
    linarith
  obtain ⟨f1, f2⟩ := div_val ha.1 hn (by rw [← hv]; exact hv0.ne') (by
    rw [← hα, ← hv]
    refine e2.trans ?_
    norm_num at hG2 ⊢
    linarith)
  rw [← hα, ← hv] at f2
  refine ⟨f1, ?_⟩
  rw [← hG]
  have e3 := abs_add_le (val (F32.div a n) - α / v) (α / v - g / N)
  rw [sub_add_sub_cancel] at e3
  refine e3.trans ((add_le_add f2 e1).trans ?_)
  have e4 : |α / v| / 2 ^ 24 ≤ (G * (1 + 5 / 2 ^ 25) + 1 / 2 ^ 148) / 2 ^ 24 := by gcongr
  refine (add_le_add (add_le_add_left e4 _) le_rfl).trans ?_
  norm_num
  linarith

/-- one term of a row -/
theorem term_ab {u C : ℝ} {fx : ℤ → F32} (hu : 0 ≤ u) (hu1 : u ≤ 1) (hC : C ≤ 8)
    (hfx : ∀ v : ℤ, v.natAbs ≤ 11 → Ab (v * u) (v.natAbs * u / 2 ^ 22 + 1 / 2 ^ 140) (fx v)) {v : ℤ} (hv : v.natAbs ≤ 11) {d : ℚ}
    (hd : |d| ≤ (352 / 1000 : ℚ)) {acc : F32} {A e : ℝ} (h : Ab A e acc)
    (hM : |A| + 352 / 1000 * (v.natAbs * u) + e + (v.natAbs * u / 2 ^ 22 + 1 / 2 ^ 136) ≤ C) :
    Ab (A + v * d * u) (e + v.natAbs * u / 2 ^ 22 + (C / 2 ^ 24 + 1 / 2 ^ 135)) (F32.add acc (F32.mul (fx v) (rnd d))) := by
  obtain ⟨w, hw⟩ : ∃ w : ℝ, w = v.natAbs * u := ⟨_, rfl⟩
  have h11 : (v.natAbs : ℝ) ≤ 11 := by exact_mod_cast hv
  have hw0 : 0 ≤ w := by rw [hw]; positivity
  have hw1 : w ≤ 11 := by rw [hw]; nlinarith [show (0 : ℝ) ≤ v.natAbs by positivity]
  have hx := hfx v hv
  rw [← hw] at hx hM ⊢
  have hd' : |(d : ℝ)| ≤ 352 / 1000 := by
    have : ((|d| : ℚ) : ℝ) ≤ ((352 / 1000 : ℚ) : ℝ) := by exact_mod_cast hd
    push_cast at this
    exact this
  have hvw : |(v : ℝ) * u| = w := by
    rw [abs_mul, abs_of_nonneg hu, hw, ← Int.cast_abs, Int.abs_eq_natAbs]
    rfl
  have b := ab_rnd hd' (by norm_num)
  have hprod : |(v : ℝ) * u * (d : ℝ)| ≤ 352 / 1000 * w := by
    rw [abs_mul, hvw]
    nlinarith
  obtain ⟨D, hD⟩ : ∃ D, D = |(d : ℝ)| := ⟨_, rfl⟩
  rw [← hD] at hd'
  have hD0 : 0 ≤ D := by rw [hD]; positivity
  have p := hx.mul b (M := 36 / 100 * w + 1 / 2 ^ 130) (by
    rw [hvw, ← hD]
    have : D * (w / 2 ^ 22 + 1 / 2 ^ 140) ≤ 352 / 1000 * (w / 2 ^ 22 + 1 / 2 ^ 140) := mul_le_mul_of_nonneg_right hd' (by positivity)
    norm_num at this hprod ⊢
    linarith) (by norm_num; linarith)
  have p' : Ab (v * u * d) (w / 2 ^ 22 + 1 / 2 ^ 136) (F32.mul (fx v) (rnd d)) := by
    refine p.mono ?_
    rw [hvw, ← hD]
    have : D * (w / 2 ^ 22 + 1 / 2 ^ 140) ≤ 352 / 1000 * (w / 2 ^ 22 + 1 / 2 ^ 140) := mul_le_mul_of_nonneg_right hd' (by positivity)
    norm_num at this ⊢
    linarith
  have q := h.add p' (M := C) (by
    have := abs_add_le A ((v : ℝ) * u * d)
    linarith) (by norm_num; linarith)
  rw [show A + (v : ℝ) * u * d = A + v * d * u by ring] at q
  refine q.mono ?_
  norm_num
  linarith

/-- one row of the synthesis -/
theorem row_ab {u C : ℝ} {fx : ℤ → F32} (hu : 0 ≤ u) (hu1 : u ≤ 1) (hC0 : 0 ≤ C) (hC : C ≤ 8)
    (hfx : ∀ v : ℤ, v.natAbs ≤ 11 → Ab (v * u) (v.natAbs * u / 2 ^ 22 + 1 / 2 ^ 140) (fx v)) :
    ∀ (p : List (ℤ × ℚ)) (acc : F32) (A e : ℝ), (∀ x ∈ p, |x.2| ≤ (352 / 1000 : ℚ)) → Ab A e acc →
    pulseSum (p.map Prod.fst) ≤ 11 →
    |A| + 352 / 1000 * (pulseSum (p.map Prod.fst) * u) + e + pulseSum (p.map Prod.fst) * u / 2 ^ 22 + p.length * (C / 2 ^ 24 + 1 / 2 ^ 135) ≤ C →
    Ab (A + rowSum p * u) (e + pulseSum (p.map Prod.fst) * u / 2 ^ 22 + p.length * (C / 2 ^ 24 + 1 / 2 ^ 135))
      (p.foldl (fun acc (x : ℤ × ℚ) => F32.add acc (F32.mul (fx x.1) (rnd x.2))) acc)
  | [], acc, A, e, _, h, _, _ => by
    have : A + rowSum [] * u = A := by simp [rowSum]
    rw [this]
    refine h.mono ?_
    simp [pulseSum]
  | x :: p, acc, A, e, hp, h, hS, hP => by
    have hs : pulseSum ((x :: p).map Prod.fst) = x.1.natAbs + pulseSum (p.map Prod.fst) := by simp [pulseSum]
    have hr : rowSum (x :: p) = (x.1 : ℝ) * (x.2 : ℝ) + rowSum p := by simp [rowSum]
    rw [hs] at hS hP ⊢
    rw [hr]
    rw [List.length_cons] at hP ⊢
    rw [Nat.cast_add, Nat.cast_add] at hP ⊢
    rw [Nat.cast_one] at hP ⊢
    obtain ⟨w, hw⟩ : ∃ w : ℝ, w = x.1.natAbs * u := ⟨_, rfl⟩
    obtain ⟨P, hPd⟩ : ∃ P : ℝ, P = pulseSum (p.map Prod.fst) * u := ⟨_, rfl⟩
    obtain ⟨L, hL⟩ : ∃ L : ℝ, L = p.length * (C / 2 ^ 24 + 1 / 2 ^ 135) := ⟨_, rfl⟩
    have hw0 : 0 ≤ w := by rw [hw]; positivity
    have hP0 : 0 ≤ P := by rw [hPd]; positivity
    have hL0 : 0 ≤ L := by rw [hL]; positivity
    have e1 : ((x.1.natAbs : ℝ) + (pulseSum (p.map Prod.fst) : ℝ)) * u = w + P := by rw [hw, hPd]; ring
    have e2 : ((p.length : ℝ) + 1) * (C / 2 ^ 24 + 1 / 2 ^ 135) = L + (C / 2 ^ 24 + 1 / 2 ^ 135) := by rw [hL]; ring
    rw [e1, e2] at hP ⊢
    have h11 : x.1.natAbs ≤ 11 := by omega
    have hC24 : 0 ≤ C / 2 ^ 24 := by positivity
    have b := term_ab hu hu1 hC hfx h11 (hp x (by simp)) h (by
      rw [← hw]
      norm_num at hP hC24 ⊢
      linarith)
    rw [← hw] at b
    have hx2 : |(x.2 : ℝ)| ≤ 352 / 1000 := by
      have : ((|x.2| : ℚ) : ℝ) ≤ ((352 / 1000 : ℚ) : ℝ) := by exact_mod_cast hp x (by simp)
      push_cast at this
      exact this
    have hA' : |A + x.1 * x.2 * u| ≤ |A| + 352 / 1000 * w := by
      refine (abs_add_le _ _).trans ?_
      have : |(x.1 : ℝ) * x.2 * u| ≤ 352 / 1000 * w := by
        rw [abs_mul, abs_mul, abs_of_nonneg hu, ← Int.cast_abs, Int.abs_eq_natAbs, hw]
        have h0 : (0 : ℝ) ≤ x.1.natAbs * u := by positivity
        show (x.1.natAbs : ℝ) * |(x.2 : ℝ)| * u ≤ _
        nlinarith
      linarith
    have ih := row_ab hu hu1 hC0 hC hfx p _ _ _ (fun z hz => hp z (by simp [hz])) b (by omega) (by
      rw [← hPd, ← hL]
      norm_num at hP hA' ⊢
      linarith)
    rw [← hPd, ← hL] at ih
    rw [List.foldl_cons, show A + ((x.1 : ℝ) * x.2 + rowSum p) * u = A + x.1 * x.2 * u + rowSum p * u by ring]
    refine ih.mono ?_
    norm_num
    linarith

/-- one row, from zero -/
theorem row_ab0 {u s : ℝ} {fx : ℤ → F32} (hu : 0 ≤ u) (hu1 : u ≤ 1)
    (hfx : ∀ v : ℤ, v.natAbs ≤ 11 → Ab (v * u) (v.natAbs * u / 2 ^ 22 + 1 / 2 ^ 140) (fx v)) {p : List (ℤ × ℚ)} (hl : p.length = 16)
    (hd : ∀ x ∈ p, |x.2| ≤ (352 / 1000 : ℚ)) (h11 : pulseSum (p.map Prod.fst) ≤ 11) (hs : pulseSum (p.map Prod.fst) * u ≤ s) (hs1 : 1 ≤ s)
    (hs11 : s ≤ 11) :
    Ab (rowSum p * u) (5 / 2 * s / 2 ^ 22) (p.foldl (fun acc (x : ℤ × ℚ) => F32.add acc (F32.mul (fx x.1) (rnd x.2))) (fin 0)) := by
  have h0 : Ab 0 0 (fin 0) := ⟨⟨_, rfl⟩, by show |((0 : ℚ) : ℝ) - 0| ≤ 0; simp⟩
  have := row_ab (C := 37 / 100 * s) hu hu1 (by linarith) (by linarith) hfx p (fin 0) 0 0 hd h0 h11 (by
    rw [hl, abs_zero]
    norm_num
    linarith)
  rw [zero_add] at this
  refine this.mono ?_
  rw [hl]
  norm_num
  linarith

/-- a scale factor: code vector plus the product of gain and row -/
theorem factor_ab {c t s e f : ℝ} {x a b : F32} (hx : Ab c (5 / 2 ^ 24 + 1 / 2 ^ 150) x) (hc : |c| ≤ 5) (ha : Ab t e a) (hb : Ab s f b)
    (hts : |t * s| ≤ 577 / 100) (he : |t| * f + |s| * e + e * f ≤ 48 / 2 ^ 22) :
    Ab (c + t * s) (1 / 2 ^ 16) (F32.add x (F32.mul a b)) := by
  have p := ha.mul hb (M := 6) (by generalize |t * s| = z at *; norm_num at he ⊢; linarith) (by norm_num)
  have p' := p.mono (e' := 50 / 2 ^ 22) (by norm_num at he ⊢; linarith)
  have := abs_add_le c (t * s)
  refine (hx.add p' (M := 11) (by norm_num; linarith) (by norm_num)).mono ?_
  norm_num

theorem decFactor_ab {g N S R : ℝ} {a n b x : F32} {c : ℝ} (hx : Ab c (5 / 2 ^ 24 + 1 / 2 ^ 150) x) (hc : |c| ≤ 5)
    (ha : Ab g (|g| / 2 ^ 24 + 1 / 2 ^ 150) a) (hn : IsFin n) (hN : |val n - N| ≤ N / 2 ^ 24) (h1 : 1 ≤ N) (hg : |g| ≤ 6)
    (hS11 : S ≤ 11) (hgS : |g| / N * S ≤ 1631 / 100) (hR : |R| ≤ 352 / 1000 * S) (hb : Ab R (5 / 2 * S / 2 ^ 22) b) :
    Ab (c + g / N * R) (1 / 2 ^ 16) (F32.add x (F32.mul (F32.div a n) b)) := by
  have hd := div_ab ha hn hN h1 (hg.trans (by norm_num))
  obtain ⟨t, ht⟩ : ∃ t, t = |g| / N := ⟨_, rfl⟩
  have ht0 : 0 ≤ t := by rw [ht]; positivity
  have ht6 : t ≤ 6 := by rw [ht]; exact (div_le_self (abs_nonneg _) h1).trans hg
  have hta : |g / N| = t := by rw [ht, abs_div, abs_of_pos (by linarith : 0 < N)]
  rw [← ht] at hd hgS
  refine factor_ab hx hc hd hb ?_ ?_
  · rw [abs_mul, hta]
    calc t * |R| ≤ t * (352 / 1000 * S) := mul_le_mul_of_nonneg_left hR ht0
      _ = 352 / 1000 * (t * S) := by ring
      _ ≤ 577 / 100 := by nlinarith
  · rw [hta]
    have k1 : t * (5 / 2 * S / 2 ^ 22) = 5 / 2 / 2 ^ 22 * (t * S) := by ring
    have k2 : |R| * (t / 2 ^ 22 + 1 / 2 ^ 140) ≤ 352 / 1000 / 2 ^ 22 * (t * S) + 4 / 2 ^ 140 := by
      calc |R| * (t / 2 ^ 22 + 1 / 2 ^ 140) ≤ (352 / 1000 * S) * (t / 2 ^ 22 + 1 / 2 ^ 140) := mul_le_mul_of_nonneg_right hR (by positivity)
        _ = 352 / 1000 / 2 ^ 22 * (t * S) + 352 / 1000 * S / 2 ^ 140 := by ring
        _ ≤ _ := by norm_num; linarith
    have k3 : (t / 2 ^ 22 + 1 / 2 ^ 140) * (5 / 2 * S / 2 ^ 22) ≤ 5 / 2 / 2 ^ 44 * (t * S) + 30 / 2 ^ 162 := by
      have : (t / 2 ^ 22 + 1 / 2 ^ 140) * (5 / 2 * S / 2 ^ 22) = 5 / 2 / 2 ^ 44 * (t * S) + 5 / 2 * S / 2 ^ 162 := by ring
      rw [this]
      norm_num
      linarith
    rw [k1]
    generalize t * S = z at *
    norm_num at hgS k2 k3 ⊢
    linarith

theorem encFactor_ab {g N S R : ℝ} {a b x : F32} {c : ℝ} (hx : Ab c (5 / 2 ^ 24 + 1 / 2 ^ 150) x) (hc : |c| ≤ 5)
    (ha : Ab g (|g| / 2 ^ 24 + 1 / 2 ^ 150) a) (hS11 : S ≤ 11) (hgS : |g| * S ≤ 1631 / 100) (hR : |R / N| ≤ 352 / 1000 * S) (hb : Ab (R / N) (5 / 2 * S / 2 ^ 22) b) :
    Ab (c + g / N * R) (1 / 2 ^ 16) (F32.add x (F32.mul a b)) := by
  rw [show g / N * R = g * (R / N) by ring]
  obtain ⟨t, ht⟩ : ∃ t, t = |g| := ⟨_, rfl⟩
  have ht0 : 0 ≤ t := by rw [ht]; positivity
  rw [← ht] at ha hgS
  refine factor_ab hx hc ha hb ?_ ?_
  · rw [abs_mul, ← ht]
    calc t * |R / N| ≤ t * (352 / 1000 * S) := mul_le_mul_of_nonneg_left hR ht0
      _ = 352 / 1000 * (t * S) := by ring
      _ ≤ 577 / 100 := by nlinarith
  · rw [← ht]
    have k1 : t * (5 / 2 * S / 2 ^ 22) = 5 / 2 / 2 ^ 22 * (t * S) := by ring
    have k2 : |R / N| * (t / 2 ^ 24 + 1 / 2 ^ 150) ≤ 352 / 1000 / 2 ^ 24 * (t * S) + 4 / 2 ^ 150 := by
      calc |R / N| * (t / 2 ^ 24 + 1 / 2 ^ 150) ≤ (352 / 1000 * S) * (t / 2 ^ 24 + 1 / 2 ^ 150) := mul_le_mul_of_nonneg_right hR (by positivity)
        _ = 352 / 1000 / 2 ^ 24 * (t * S) + 352 / 1000 * S / 2 ^ 150 := by ring
        _ ≤ _ := by norm_num; linarith
    have k3 : (t / 2 ^ 24 + 1 / 2 ^ 150) * (5 / 2 * S / 2 ^ 22) ≤ 5 / 2 / 2 ^ 46 * (t * S) + 30 / 2 ^ 172 := by
      have : (t / 2 ^ 24 + 1 / 2 ^ 150) * (5 / 2 * S / 2 ^ 22) = 5 / 2 / 2 ^ 46 * (t * S) + 5 / 2 * S / 2 ^ 172 := by ring
      rw [this]
      norm_num
      linarith
    rw [k1]
    generalize t * S = z at *
    norm_num at hgS k2 k3 ⊢
    linarith

/-! ## The decoder -/

theorem ab_rnd' {q : ℚ} (hB : |(q : ℝ)| ≤ 2 ^ 120) : Ab (q : ℝ) (|(q : ℝ)| / 2 ^ 24 + 1 / 2 ^ 150) (rnd q) := ab_rnd le_rfl hB

theorem sqSum_real (y : List ℤ) : ((sqSum y : ℚ) : ℝ) = (y.map fun v : ℤ => (v : ℝ) ^ 2).sum := by
  induction y with
  | nil => simp [sqSum]
  | cons v y ih =>
    have h : sqSum (v :: y) = v.natAbs * v.natAbs + sqSum y := by simp [sqSum]
    rw [h, List.map_cons, List.sum_cons, ← ih]
    push_cast
    congr 1
    rw [← sq, ← Int.cast_natCast (R := ℝ) v.natAbs, Int.natCast_natAbs, Int.cast_abs, sq_abs]

/-- the scale factor of code vector, gain and pulses in exact arithmetic, with lists -/
theorem shapedFactor_eq {cs : List ℚ} {g : ℚ} {y : List ℤ} (hy : y.length = 16) {n : ℕ} (hn : n < 16) :
    shapedFactor (fun n => (cs.getD n 0 : ℝ)) g (fun i => (y.getD i 0 : ℝ)) (fun n i => ((D.getD n []).getD i 0 : ℝ)) n =
      (cs.getD n 0 : ℝ) + (g : ℝ) / Real.sqrt ((sqSum y : ℚ) : ℝ) * rowSum (y.zip (D.getD n [])) := by
  unfold shapedFactor
  have hD : n < D.length := by rw [D_length]; exact hn
  have hrl : (D.getD n []).length = 16 := by
    rw [getD_of_lt hD]
    exact D_rows _ (List.getElem_mem _)
  rw [sqSum_real, list_sum16 0 _ hy]
  congr 2
  unfold rowSum
  rw [list_sum16 (0, 0) _ (by rw [List.length_zip]; omega)]
  refine Finset.sum_congr rfl fun i hi => ?_
  rw [Finset.mem_range] at hi
  simp only
  rw [getD_of_lt (show i < (y.zip (D.getD n [])).length by rw [List.length_zip]; omega), getD_of_lt (show i < y.length by omega),
    getD_of_lt (show i < (D.getD n []).length by omega), List.getElem_zip]

theorem d_getD_mem {n : ℕ} (hn : n < 16) : D.getD n [] ∈ D := by
  rw [getD_of_lt (by rw [D_length]; exact hn)]
  exact List.getElem_mem _

/-- the norm of the pulses -/
theorem norm_facts {y : List ℤ} {g : ℚ} {r : ℚ} (hS : pulseSum y ≤ 11) (hS1 : 1 ≤ pulseSum y) (hgS : g ^ 2 * pulseSum y ≤ 266)
    (hre : |(r : ℝ) - Real.sqrt ((sqSum y : ℚ) : ℝ)| ≤ Real.sqrt ((sqSum y : ℚ) : ℝ) / 2 ^ 24) :
    1 ≤ Real.sqrt ((sqSum y : ℚ) : ℝ) ∧ |(g : ℝ)| / Real.sqrt ((sqSum y : ℚ) : ℝ) * pulseSum y ≤ 1631 / 100 ∧ r ≠ 0 := by
  obtain ⟨t, ht⟩ : ∃ t, t = Real.sqrt (pulseSum y : ℝ) := ⟨_, rfl⟩
  have hS1' : (1 : ℝ) ≤ pulseSum y := by exact_mod_cast hS1
  have hS11 : (pulseSum y : ℝ) ≤ 11 := by exact_mod_cast hS
  have ht2 : t ^ 2 = pulseSum y := by rw [ht, Real.sq_sqrt (by linarith)]
  have ht1 : 1 ≤ t := by rw [ht, Real.one_le_sqrt]; exact hS1'
  have hN' : t ≤ Real.sqrt ((sqSum y : ℚ) : ℝ) := by
    rw [ht]
    refine Real.sqrt_le_sqrt ?_
    have := pulseSum_le_sq y
    push_cast
    exact_mod_cast this
  have hgt : |(g : ℝ)| * t ≤ 1631 / 100 := by
    have h1 : ((g ^ 2 * pulseSum y : ℚ) : ℝ) ≤ ((266 : ℚ) : ℝ) := by exact_mod_cast hgS
    push_cast at h1
    rw [← ht2] at h1
    have h2 : (|(g : ℝ)| * t) ^ 2 ≤ (1631 / 100) ^ 2 := by
      rw [mul_pow, sq_abs]
      refine h1.trans ?_
      norm_num
    exact le_of_sq_le_sq h2 (by norm_num)
  generalize Real.sqrt ((sqSum y : ℚ) : ℝ) = N at *
  refine ⟨by linarith, ?_, ?_⟩
  · rw [← ht2, div_mul_eq_mul_div, div_le_iff₀ (by linarith)]
    have : 0 ≤ |(g : ℝ)| := abs_nonneg _
    calc |(g : ℝ)| * t ^ 2 = |(g : ℝ)| * t * t := by ring
      _ ≤ 1631 / 100 * t := mul_le_mul_of_nonneg_right hgt (by linarith)
      _ ≤ 1631 / 100 * N := by linarith
  · rintro rfl
    have := (abs_le.1 hre).1
    norm_num at this
    linarith

/-- the scale factors of the decoder -/
theorem scaleFactors_ab (he : Accurate el) {sns : SnsVq} {l : List F32} (e : @snsScaleFactors F32 (scalar el) sns = .ok l) :
    ∃ (lf hf : List ℚ) (y : List ℤ) (g : ℚ), LFCB[sns.indLf]? = some lf ∧ HFCB[sns.indHf]? = some hf ∧ snsPulses sns = .ok y ∧
      y.length = 16 ∧ snsGain sns = .ok g ∧ l.length = 16 ∧ ∀ n < 16, Ab
        (shapedFactor (fun n => ((lf ++ hf).getD n 0 : ℝ)) g (fun i => (y.getD i 0 : ℝ)) (fun n i => ((D.getD n []).getD i 0 : ℝ)) n)
        (1 / 2 ^ 16) (l.getD n (fin 0)) := by
  letI := scalar el
  unfold snsScaleFactors at e
  obtain ⟨lf, h1, e⟩ := bind_ok_inv e
  obtain ⟨hf, h2, e⟩ := bind_ok_inv e
  obtain ⟨y, h3, e⟩ := bind_ok_inv e
  obtain ⟨g, h4, e⟩ := bind_ok_inv e
  obtain ⟨hg, hS, hgS⟩ := pulses_gain h3 h4
  have l1 := LFCB_shape.2 lf (idx_mem h1)
  have l2 := HFCB_shape.2 hf (idx_mem h2)
  have hy : y.length = 16 := snsPulses_length h3
  have hlfhf : (lf ++ hf).length = 16 := by simp [l1, l2]
  have hl : ((lf ++ hf).zip D).length = 16 := by simp [D_length, l1, l2]
  have hN : sqSum y ≤ 121 := (sqSum_le y).trans (by nlinarith)
  obtain ⟨r, hr, hre⟩ := he.sqrt (sqSum y : ℚ) (by positivity)
  have hnorm : @snsNorm F32 (scalar el) y = fin r := by
    have h0 : @Scalar.zero F32 (scalar el) = fin ((0 : ℕ) : ℚ) := by rw [zero_eq]; simp
    have hsum := norm_sum y 0 (by omega)
    rw [Nat.zero_add] at hsum
    unfold snsNorm
    rw [h0]
    exact (congrArg el.sqrt hsum).trans hr
  have hg' : |(g : ℝ)| ≤ 6 := by
    have : ((|g| : ℚ) : ℝ) ≤ ((6 : ℚ) : ℝ) := by exact_mod_cast hg
    push_cast at this
    exact this
  refine ⟨lf, hf, y, g, idx_ok_iff.1 h1, idx_ok_iff.1 h2, h3, hy, h4, ?_, ?_⟩
  · cases e
    rw [List.length_map, hl]
  intro n hn
  rw [shapedFactor_eq hy hn]
  cases e
  rw [getD_of_lt (d := fin 0) (by rw [List.length_map, hl]; exact hn), List.getElem_map, List.getElem_zip, hnorm]
  have hDn : D[n]'(by rw [D_length]; exact hn) = D.getD n [] := (getD_of_lt _).symm
  have hcn : (lf ++ hf)[n]'(by omega) = (lf ++ hf).getD n 0 := (getD_of_lt _).symm
  simp only
  rw [hDn, hcn]
  have hc : |(((lf ++ hf).getD n 0 : ℚ) : ℝ)| ≤ 5 := by
    have hm : (lf ++ hf).getD n 0 ∈ lf ++ hf := by
      rw [getD_of_lt (by omega)]
      exact List.getElem_mem _
    have : |(lf ++ hf).getD n 0| ≤ (5 : ℚ) := by
      rcases List.mem_append.1 hm with h | h
      · exact lfcb_le lf (idx_mem h1) _ h
      · exact hfcb_le hf (idx_mem h2) _ h
    have : ((|(lf ++ hf).getD n 0| : ℚ) : ℝ) ≤ ((5 : ℚ) : ℝ) := by exact_mod_cast this
    push_cast at this
    exact this
  generalize (lf ++ hf).getD n 0 = c at hc ⊢
  have hrow := d_getD_mem hn
  have hd := d_le _ hrow
  have hrl := D_rows _ hrow
  generalize D.getD n [] = row at hrow hd hrl ⊢
  have hfst : (y.zip row).map Prod.fst = y := List.map_fst_zip (by omega)
  have hz : (y.zip row).length = 16 := by rw [List.length_zip]; omega
  have hdz : ∀ x ∈ y.zip row, |x.2| ≤ (352 / 1000 : ℚ) := fun x hx => hd _ (List.of_mem_zip hx).2
  have hfx : ∀ v : ℤ, v.natAbs ≤ 11 → Ab ((v : ℝ) * 1) (v.natAbs * 1 / 2 ^ 22 + 1 / 2 ^ 140) (rnd (v : ℚ)) := by
    intro v hv
    rw [mul_one]
    exact (ab_int (by rw [abs_le]; omega)).mono (by positivity)
  have hS11 : (pulseSum y : ℝ) ≤ 11 := by exact_mod_cast hS
  have hrs := rowSum_le _ hdz
  rw [hfst] at hrs
  have hx := ab_rnd hc (by norm_num)
  have hrg := ab_rnd' (q := g) (hg'.trans (by norm_num))
  have hrowb : ∀ s : ℝ, 1 ≤ s → s ≤ 11 → (pulseSum y : ℝ) ≤ s → Ab (rowSum (y.zip row)) (5 / 2 * s / 2 ^ 22) (@snsRow F32 (scalar el) y row) := by
    intro s s1 s2 s3
    have := row_ab0 (u := 1) (s := s) zero_le_one le_rfl hfx hz hdz (by rw [hfst]; exact hS) (by rw [hfst, mul_one]; exact s3) s1 s2
    rw [mul_one] at this
    have h0 : @Scalar.zero F32 (scalar el) = fin 0 := zero_eq
    unfold snsRow
    rw [h0]
    exact this
  rcases Nat.eq_zero_or_pos (sqSum y) with h0 | h0
  · have hS0 : pulseSum y = 0 := by have := pulseSum_le_sq y; omega
    have hr0 : r = 0 := by
      rw [h0] at hre
      simpa using hre
    have heq : @Scalar.eq F32 (scalar el) (fin r) (@Scalar.zero F32 (scalar el)) = true := by
      rw [zero_eq, hr0]
      rfl
    rw [heq]
    simp only [Bool.not_true, Bool.false_eq_true, if_false]
    have hR0 : rowSum (y.zip row) = 0 := by
      rw [hS0] at hrs
      simpa using hrs
    have hb := hrowb 1 le_rfl (by norm_num) (by rw [hS0]; norm_num)
    rw [hR0] at hb ⊢
    have := factor_ab hx hc hrg hb (by norm_num) (by
      have := abs_nonneg (g : ℝ)
      norm_num
      nlinarith)
    rw [mul_zero] at this ⊢
    exact this
  · have hS1 : 1 ≤ pulseSum y := by
      by_contra hc
      have h00 : pulseSum y = 0 := by omega
      have := sqSum_le y
      rw [h00] at this
      omega
    obtain ⟨n1, n2, n3⟩ := norm_facts hS hS1 hgS hre
    have hne : @Scalar.eq F32 (scalar el) (fin r) (@Scalar.zero F32 (scalar el)) = false := by
      rw [zero_eq]
      exact decide_eq_false n3
    rw [hne]
    simp only [Bool.not_false, if_true]
    have hS1' : (1 : ℝ) ≤ pulseSum y := by exact_mod_cast hS1
    exact decFactor_ab (n := fin r) hx hc hrg ⟨r, rfl⟩ hre n1 hg' hS11 n2 hrs (hrowb _ hS1' hS11 le_rfl)

end F32
end Lc3
