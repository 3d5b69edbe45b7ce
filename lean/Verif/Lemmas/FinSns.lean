import Verif.Lemmas.FinTnsBand
import Verif.Model.SnsDec
import Verif.Props.Shaping
import Mathlib.Tactic.FieldSimp
/-! Sizes in the decoder in binary32: the spectral noise shaping. -/

namespace Lc3.F32
open Scalar Tables

variable {el : Elem}

/-! ### The pulses -/

/-- the sum of the magnitudes -/
def pulseSum (y : List ℤ) : ℕ := (y.map Int.natAbs).sum

/-- the sum of the squares -/
def sqSum (y : List ℤ) : ℕ := (y.map fun v => v.natAbs * v.natAbs).sum

theorem pulseSum_append (x y : List ℤ) : pulseSum (x ++ y) = pulseSum x + pulseSum y := by simp [pulseSum]

theorem pulseSum_zeros (n : ℕ) : pulseSum (List.replicate n 0) = 0 := by simp [pulseSum]

theorem pulseSum_le_sq : ∀ y : List ℤ, pulseSum y ≤ sqSum y
  | [] => le_rfl
  | v :: y => by
    have := pulseSum_le_sq y
    simp only [pulseSum, sqSum, List.map_cons, List.sum_cons] at this ⊢
    have h : v.natAbs ≤ v.natAbs * v.natAbs := Nat.le_mul_self _
    omega

theorem mind2vec_abs (k : ℕ) (neg : Bool) : (mind2vecOne k neg).natAbs = k := by
  unfold mind2vecOne
  split <;> simp

theorem deenumLoop_abs : ∀ (n k : ℕ) (neg : Bool) (ind : ℕ) (l : List ℤ), deenumLoop n k neg ind = .ok l → pulseSum l ≤ k
  | 0, k, neg, ind, l, e => by
    simp only [deenumLoop, Res.ok.injEq] at e
    subst e
    simp [pulseSum]
  | n + 1, k, neg, ind, l, e => by
    rw [deenumLoop] at e
    obtain ⟨row, -, e⟩ := bind_ok_inv e
    split at e
    · obtain ⟨⟨ka, diff⟩, -, e⟩ := bind_ok_inv e
      obtain ⟨kd, h2, e⟩ := bind_ok_inv e
      obtain ⟨h2, h2'⟩ := usub_ok_inv h2
      split at e
      · obtain ⟨k', h3, e⟩ := bind_ok_inv e
        obtain ⟨h3, h3'⟩ := usub_ok_inv h3
        obtain ⟨l', h4, e⟩ := bind_ok_inv e
        cases e
        have := deenumLoop_abs _ _ _ _ _ h4
        simp only [pulseSum, List.map_cons, List.sum_cons, mind2vec_abs] at this ⊢
        omega
      · obtain ⟨l', h4, e⟩ := bind_ok_inv e
        cases e
        have := deenumLoop_abs _ _ _ _ _ h4
        simp only [pulseSum, List.map_cons, List.sum_cons, Int.natAbs_zero] at this ⊢
        omega
    · cases e
      have := pulseSum_zeros n
      simp only [pulseSum, List.map_cons, List.sum_cons, mind2vec_abs] at this ⊢
      omega

theorem table_le {t : List ℚ} {num : List ℤ} {den : ℕ} {B : ℚ} (ht : t = num.map fun n => mkRat n den) (hd : 0 < den)
    (hn : ∀ n ∈ num, |(n : ℚ)| ≤ B * den) : ∀ g ∈ t, |g| ≤ B := by
  subst ht
  intro g hg
  obtain ⟨n, hn1, rfl⟩ := List.mem_map.1 hg
  rw [Rat.mkRat_eq_div, abs_div, div_le_iff₀ (by positivity)]
  have := hn n hn1
  rwa [Nat.abs_cast]

theorem intTable_le {num : List ℤ} {K : ℕ} {B : ℚ} (h : ∀ n ∈ num, n.natAbs ≤ K) (hK : (K : ℚ) ≤ B) : ∀ n ∈ num, |(n : ℚ)| ≤ B := by
  intro n hn
  have := h n hn
  rw [← Int.cast_abs, Int.abs_eq_natAbs]
  refine le_trans ?_ hK
  exact_mod_cast this

/-- the gains and the pulses fit together -/
theorem pulses_gain {sns : SnsVq} {y : List ℤ} {g : ℚ} (h1 : snsPulses sns = .ok y) (h2 : snsGain sns = .ok g) :
    |g| ≤ 6 ∧ pulseSum y ≤ 11 ∧ g ^ 2 * pulseSum y ≤ 266 := by
  have key : ∀ (K : ℕ) (B : ℚ), |g| ≤ B → pulseSum y ≤ K → B ≤ 6 → K ≤ 11 → B ^ 2 * K ≤ 266 → |g| ≤ 6 ∧ pulseSum y ≤ 11 ∧ g ^ 2 * pulseSum y ≤ 266 := by
    intro K B hg hy hB hK hBK
    refine ⟨hg.trans hB, hy.trans hK, le_trans ?_ hBK⟩
    have e1 : g ^ 2 ≤ B ^ 2 := by
      rw [← sq_abs]
      exact pow_le_pow_left₀ (abs_nonneg _) hg 2
    have e2 : (pulseSum y : ℚ) ≤ K := by exact_mod_cast hy
    exact mul_le_mul e1 e2 (by positivity) (by positivity)
  unfold snsPulses at h1
  unfold snsGain at h2
  generalize (sns.submodeMsb <<< 1) + sns.submodeLsb = m at h1 h2
  match m with
  | 0 =>
    obtain ⟨a, ha, h1⟩ := bind_ok_inv h1
    obtain ⟨b, hb, h1⟩ := bind_ok_inv h1
    cases h1
    have k1 := deenumLoop_abs _ _ _ _ _ ha
    have k2 := deenumLoop_abs _ _ _ _ _ hb
    refine key 11 (12054 / 4096) ?_ (by rw [pulseSum_append]; omega) (by norm_num) le_rfl (by norm_num)
    exact table_le (t := SNS_VQ_REG_ADJ_GAINS) rfl (by decide) (intTable_le (K := 12054) (by decide) (by norm_num [SNS_VQ_REG_ADJ_GAINS_den])) g (idx_mem h2)
  | 1 =>
    obtain ⟨a, ha, h1⟩ := bind_ok_inv h1
    cases h1
    have k1 := deenumLoop_abs _ _ _ _ _ ha
    refine key 10 (21014 / 4096) ?_ (by rw [pulseSum_append, pulseSum_zeros]; omega) (by norm_num) (by norm_num) (by norm_num)
    exact table_le (t := SNS_VQ_REG_LF_ADJ_GAINS) rfl (by decide) (intTable_le (K := 21014) (by decide) (by norm_num [SNS_VQ_REG_LF_ADJ_GAINS_den])) g (idx_mem h2)
  | 2 =>
    have k1 := deenumLoop_abs _ _ _ _ _ h1
    refine key 8 (14808 / 4096) ?_ k1 (by norm_num) (by norm_num) (by norm_num)
    exact table_le (t := SNS_VQ_NEAR_ADJ_GAINS) rfl (by decide) (intTable_le (K := 14808) (by decide) (by norm_num [SNS_VQ_NEAR_ADJ_GAINS_den])) g (idx_mem h2)
  | 3 =>
    have k1 := deenumLoop_abs _ _ _ _ _ h1
    refine key 6 (19882 / 4096) ?_ k1 (by norm_num) (by norm_num) (by norm_num)
    exact table_le (t := SNS_VQ_FAR_ADJ_GAINS) rfl (by decide) (intTable_le (K := 19882) (by decide) (by norm_num [SNS_VQ_FAR_ADJ_GAINS_den])) g (idx_mem h2)
  | _ + 4 => cases h1

theorem lfcb_le : ∀ r ∈ LFCB, ∀ v ∈ r, |v| ≤ (5 : ℚ) := by
  intro r hr v hv
  obtain ⟨n, hn, rfl⟩ := List.mem_map.1 hr
  have h : ∀ r ∈ LFCB_num, ∀ n ∈ r, n.natAbs ≤ 5000000000000000000 := by decide
  exact table_le (num := n) (den := LFCB_den) rfl (by decide) (intTable_le (h n hn) (by norm_num [LFCB_den])) v hv

theorem hfcb_le : ∀ r ∈ HFCB, ∀ v ∈ r, |v| ≤ (5 : ℚ) := by
  intro r hr v hv
  obtain ⟨n, hn, rfl⟩ := List.mem_map.1 hr
  have h : ∀ r ∈ HFCB_num, ∀ n ∈ r, n.natAbs ≤ 5 * HFCB_den := by decide
  exact table_le (num := n) (den := HFCB_den) rfl (by decide) (intTable_le (h n hn) (by push_cast; exact le_rfl)) v hv

theorem d_le : ∀ r ∈ D, ∀ v ∈ r, |v| ≤ (352 / 1000 : ℚ) := by
  intro r hr v hv
  obtain ⟨n, hn, rfl⟩ := List.mem_map.1 hr
  have h : ∀ r ∈ D_num, ∀ n ∈ r, n.natAbs ≤ 35200000000000000 := by decide
  exact table_le (num := n) (den := D_den) rfl (by decide) (intTable_le (h n hn) (by norm_num [D_den])) v hv

/-! ### The scale factors -/

theorem norm_sum : ∀ (y : List ℤ) (a : ℕ), a + sqSum y ≤ 2 ^ 10 →
    y.foldl (fun acc (x : ℤ) => F32.add acc (F32.mul (rnd (x : ℚ)) (rnd (x : ℚ)))) (fin (a : ℚ)) = fin ((a + sqSum y : ℕ) : ℚ)
  | [], a, _ => by simp [sqSum]
  | v :: y, a, h => by
    have hs : sqSum (v :: y) = v.natAbs * v.natAbs + sqSum y := by simp [sqSum]
    have hv : v.natAbs ≤ v.natAbs * v.natAbs := Nat.le_mul_self _
    rw [List.foldl_cons]
    have e1 : rnd (v : ℚ) = fin v := rnd_int (by rw [Int.abs_eq_natAbs]; omega)
    have hvv : (v : ℚ) * (v : ℚ) = ((v.natAbs * v.natAbs : ℕ) : ℚ) := by
      rw [← Int.cast_mul, ← Int.natAbs_mul_self' v]
      norm_cast
    generalize hw : v.natAbs * v.natAbs = w at *
    have e2 : F32.mul (fin (v : ℚ)) (fin (v : ℚ)) = fin (w : ℚ) := by
      show rnd ((v : ℚ) * (v : ℚ)) = _
      rw [hvv, rnd_nat (by omega)]
    have e3 : F32.add (fin (a : ℚ)) (fin (w : ℚ)) = fin ((a + w : ℕ) : ℚ) := by
      show rnd ((a : ℚ) + (w : ℚ)) = _
      have : (a : ℚ) + (w : ℚ) = ((a + w : ℕ) : ℚ) := by push_cast; ring
      rw [this, rnd_nat (by omega)]
    rw [e1, e2, e3, norm_sum y _ (by omega), hs, Nat.add_assoc]

theorem sqSum_le : ∀ y : List ℤ, sqSum y ≤ pulseSum y * pulseSum y
  | [] => le_rfl
  | v :: y => by
    have ih := sqSum_le y
    have h1 : sqSum (v :: y) = v.natAbs * v.natAbs + sqSum y := by simp [sqSum]
    have h2 : pulseSum (v :: y) = v.natAbs + pulseSum y := by simp [pulseSum]
    rw [h1, h2]
    nlinarith [Nat.zero_le (v.natAbs * pulseSum y)]

/-- one term of a row -/
theorem term_bd {v : ℤ} {d : ℚ} {acc : F32} {P : ℝ} (hv : v.natAbs ≤ 11) (hd : |d| ≤ (352 / 1000 : ℚ)) (h : Bd P acc) (hP : P ≤ 8) :
    Bd (P + v.natAbs * (353 / 1000) + 1 / 2 ^ 17) (F32.add acc (F32.mul (rnd (v : ℚ)) (rnd d))) := by
  obtain ⟨m, hm⟩ : ∃ m : ℝ, m = v.natAbs := ⟨_, rfl⟩
  have hm1 : m ≤ 11 := by rw [hm]; exact_mod_cast hv
  have hm0 : 0 ≤ m := by rw [hm]; positivity
  have b1 : Bd (m + 1 / 2 ^ 21) (rnd (v : ℚ)) := by
    rw [rnd_int (by rw [abs_le]; omega)]
    refine ⟨⟨_, rfl⟩, ?_⟩
    show |((v : ℚ) : ℝ)| ≤ _
    have : |((v : ℚ) : ℝ)| = m := by
      rw [hm, Rat.cast_intCast, ← Int.cast_abs, Int.abs_eq_natAbs]
      rfl
    rw [this]
    linarith
  have hd' : |(d : ℝ)| ≤ 352 / 1000 := by
    have : ((|d| : ℚ) : ℝ) ≤ ((352 / 1000 : ℚ) : ℝ) := by exact_mod_cast hd
    push_cast at this
    exact this
  have b2 : Bd (3521 / 10000) (rnd d) := (bd_rnd hd' (by norm_num) (by norm_num)).mono (by norm_num)
  rw [← hm]
  clear hm
  have b3 := b1.mul b2 (by norm_num; linarith) (by norm_num; linarith)
  have b3' : Bd (m * (353 / 1000) + 1 / 2 ^ 20) (F32.mul (rnd (v : ℚ)) (rnd d)) := b3.mono (by norm_num; linarith)
  have hP0 := h.nonneg
  refine (h.add b3' (by norm_num; linarith) (by norm_num; linarith)).mono ?_
  norm_num
  linarith

/-- one row of the synthesis -/
theorem row_bd : ∀ (p : List (ℤ × ℚ)) (acc : F32) (P : ℝ), (∀ x ∈ p, |x.2| ≤ (352 / 1000 : ℚ)) →
    Bd P acc → pulseSum (p.map Prod.fst) ≤ 11 → P + pulseSum (p.map Prod.fst) * (353 / 1000) + p.length * (1 / 2 ^ 17) ≤ 8 →
    Bd (P + pulseSum (p.map Prod.fst) * (353 / 1000) + p.length * (1 / 2 ^ 17))
      (p.foldl (fun acc (x : ℤ × ℚ) => F32.add acc (F32.mul (rnd (x.1 : ℚ)) (rnd x.2))) acc)
  | [], acc, P, _, h, _, _ => by
    refine h.mono ?_
    simp [pulseSum]
  | x :: p, acc, P, hp, h, hS, hP => by
    have hs : pulseSum ((x :: p).map Prod.fst) = x.1.natAbs + pulseSum (p.map Prod.fst) := by simp [pulseSum]
    rw [hs] at hS hP ⊢
    rw [List.length_cons] at hP ⊢
    rw [Nat.cast_add, Nat.cast_add] at hP ⊢
    rw [Nat.cast_one] at hP ⊢
    have h0 : (0 : ℝ) ≤ pulseSum (p.map Prod.fst) * (353 / 1000) + p.length * (1 / 2 ^ 17) := by positivity
    have h1 : (0 : ℝ) ≤ x.1.natAbs := by positivity
    have b := term_bd (v := x.1) (d := x.2) (by omega) (hp x (by simp)) h (by linarith)
    rw [List.foldl_cons]
    refine (row_bd p _ _ (fun z hz => hp z (by simp [hz])) b (by omega) (by linarith)).mono ?_
    linarith

theorem gain_bd {g r t : ℝ} {a n : F32} (ha : Bd ((|g| + 1 / 2 ^ 30) * (1 + 1 / 2 ^ 23)) a) (hn : IsFin n) (hr : val n = r)
    (ht : 1 ≤ t) (ht4 : t ≤ 4) (hg : |g| ≤ 6) (h : t * (1 - 1 / 2 ^ 24) ≤ r) : Bd ((|g| + 1 / 2 ^ 18) / t) (F32.div a n) := by
  have hg0 := abs_nonneg g
  have h2 : t * (1 - 1 / 2 ^ 24) ≤ |val n| := by rw [hr]; exact h.trans (le_abs_self r)
  have h0 : 0 < t * (1 - 1 / 2 ^ 24) := by norm_num; linarith
  have e : (|g| + 1 / 2 ^ 30) * (1 + 1 / 2 ^ 23) / (t * (1 - 1 / 2 ^ 24)) = ((|g| + 1 / 2 ^ 30) * (1 + 1 / 2 ^ 23) / (1 - 1 / 2 ^ 24)) / t := by
    rw [mul_comm t, ← div_div]
  refine (ha.div hn h0 h2 ?_ ?_).mono ?_
  · rw [e, le_div_iff₀ (by linarith)]
    norm_num
    linarith
  · rw [e, div_le_iff₀ (by linarith)]
    norm_num
    linarith
  · rw [e, div_mul_eq_mul_div, div_le_div_iff_of_pos_right (by linarith)]
    norm_num
    linarith

theorem gainRow_bd {g t S : ℝ} {a b : F32} (ht : 1 ≤ t) (ht4 : t ≤ 4) (hg : |g| ≤ 6) (hgt : |g| * t ≤ 1631 / 100) (hS : t ^ 2 = S)
    (ha : Bd ((|g| + 1 / 2 ^ 18) / t) a) (hb : Bd (S * (353 / 1000) + 16 * (1 / 2 ^ 17)) b) : Bd (581 / 100) (F32.mul a b) := by
  have hg0 := abs_nonneg g
  obtain ⟨u, hu⟩ : ∃ u, u = (|g| + 1 / 2 ^ 18) / t := ⟨_, rfl⟩
  have hut : u * t = |g| + 1 / 2 ^ 18 := by rw [hu, div_mul_cancel₀ _ (by linarith)]
  have hu0 : 0 < u := by rw [hu]; positivity
  have hu7 : u ≤ 7 := by nlinarith
  have hulo : 1 / 2 ^ 20 ≤ u := by
    rw [hu, le_div_iff₀ (by linarith)]
    norm_num
    linarith
  rw [← hu] at ha
  have e : u * (S * (353 / 1000) + 16 * (1 / 2 ^ 17)) = (|g| * t + 1 / 2 ^ 18 * t) * (353 / 1000) + u * (16 * (1 / 2 ^ 17)) := by
    rw [← hS, ← add_mul, ← hut]
    ring
  have h0 : 0 ≤ |g| * t := by positivity
  refine (ha.mul hb ?_ ?_).mono ?_
  · rw [e]; norm_num at hulo ⊢; linarith
  · rw [e]; norm_num; linarith
  · rw [e]; norm_num; linarith

theorem bd_scaleFactors (he : Tame el) {sns : SnsVq} {l : List F32} (e : @snsScaleFactors F32 (scalar el) sns = .ok l) : AllBd 11 l := by
  letI := scalar el
  unfold snsScaleFactors at e
  obtain ⟨lf, h1, e⟩ := bind_ok_inv e
  obtain ⟨hf, h2, e⟩ := bind_ok_inv e
  obtain ⟨y, h3, e⟩ := bind_ok_inv e
  obtain ⟨g, h4, e⟩ := bind_ok_inv e
  obtain ⟨hg, hS, hgS⟩ := pulses_gain h3 h4
  have hlf := lfcb_le lf (idx_mem h1)
  have hhf := hfcb_le hf (idx_mem h2)
  -- the norm
  have hN : sqSum y ≤ 121 := (sqSum_le y).trans (by nlinarith)
  obtain ⟨r, hr, hre⟩ := he.sqrt (sqSum y : ℚ) (by positivity)
  have hnorm : @snsNorm F32 (scalar el) y = fin r := by
    have h0 : @Scalar.zero F32 (scalar el) = fin ((0 : ℕ) : ℚ) := by rw [zero_eq]; simp
    have hsum := norm_sum y 0 (by omega)
    rw [Nat.zero_add] at hsum
    unfold snsNorm
    rw [h0]
    exact (congrArg el.sqrt hsum).trans hr
  have hg' : |(g : ℝ)| ≤ 6 := by
    have : ((|g| : ℚ) : ℝ) ≤ ((6 : ℚ) : ℝ) := by exact_mod_cast hg
    push_cast at this
    exact this
  -- rows
  have hrow : ∀ row ∈ D, Bd ((pulseSum y : ℝ) * (353 / 1000) + 16 * (1 / 2 ^ 17)) (@snsRow F32 (scalar el) y row) := by
    intro row hrw
    have hd := d_le row hrw
    have hlen : row.length = 16 := by
      have h : ∀ r ∈ D_num, r.length = 16 := by decide
      obtain ⟨n, hn, rfl⟩ := List.mem_map.1 hrw
      rw [List.length_map]
      exact h n hn
    have hy : y.length = 16 := snsPulses_length h3
    have hfst : (y.zip row).map Prod.fst = y := List.map_fst_zip (by omega)
    have h0 : @Scalar.zero F32 (scalar el) = fin 0 := zero_eq
    have hz : (y.zip row).length = 16 := by rw [List.length_zip]; omega
    have hS' : (pulseSum y : ℝ) ≤ 11 := by exact_mod_cast hS
    have hb := row_bd (y.zip row) (fin 0) 0 (fun x hx => hd _ (List.of_mem_zip hx).2) (bd_zero le_rfl) (by rw [hfst]; exact hS)
      (by rw [hfst, hz]; norm_num; linarith)
    rw [hfst, hz, zero_add] at hb
    unfold snsRow
    rw [h0]
    exact_mod_cast hb
  -- gain times row
  have hprod : ∀ row ∈ D, Bd (581 / 100) (F32.mul (if !(@Scalar.eq F32 (scalar el) (@snsNorm F32 (scalar el) y) (@Scalar.zero F32 (scalar el))) then
      F32.div (rnd g) (@snsNorm F32 (scalar el) y) else rnd g) (@snsRow F32 (scalar el) y row)) := by
    intro row hrw
    have hb := hrow row hrw
    rw [hnorm]
    have hrg : Bd ((|(g : ℝ)| + 1 / 2 ^ 30) * (1 + 1 / 2 ^ 23)) (rnd g) :=
      bd_rnd (by linarith [show (0 : ℝ) ≤ 1 / 2 ^ 30 by positivity]) (by norm_num; linarith [abs_nonneg (g : ℝ)]) (by norm_num; linarith)
    rcases Nat.eq_zero_or_pos (sqSum y) with h0 | h0
    · have hS0 : pulseSum y = 0 := by have := pulseSum_le_sq y; omega
      have hr0 : r = 0 := by
        rw [h0] at hre
        simpa using hre
      have heq : @Scalar.eq F32 (scalar el) (fin r) (@Scalar.zero F32 (scalar el)) = true := by
        rw [zero_eq, hr0]
        rfl
      have hb' : Bd (1 / 2 ^ 10) (@snsRow F32 (scalar el) y row) := hb.mono (by rw [hS0]; norm_num)
      rw [heq]
      simp only [Bool.not_true, Bool.false_eq_true, if_false]
      have hrg' : Bd 7 (rnd g) := hrg.mono (by norm_num; linarith)
      exact (hrg'.mul hb' (by norm_num) (by norm_num)).mono (by norm_num)
    · have hS1 : 1 ≤ pulseSum y := by
        by_contra hc
        have h00 : pulseSum y = 0 := by omega
        have := sqSum_le y
        rw [h00] at this
        omega
      obtain ⟨t, ht⟩ : ∃ t, t = Real.sqrt (pulseSum y : ℝ) := ⟨_, rfl⟩
      have hS1' : (1 : ℝ) ≤ pulseSum y := by exact_mod_cast hS1
      have hS11 : (pulseSum y : ℝ) ≤ 11 := by exact_mod_cast hS
      have ht2 : t ^ 2 = pulseSum y := by rw [ht, Real.sq_sqrt (by linarith)]
      have ht1 : 1 ≤ t := by rw [ht, Real.one_le_sqrt]; exact hS1'
      have ht4 : t ≤ 4 := by nlinarith
      have hN' : t ≤ Real.sqrt ((sqSum y : ℚ) : ℝ) := by
        rw [ht]
        refine Real.sqrt_le_sqrt ?_
        have := pulseSum_le_sq y
        push_cast
        exact_mod_cast this
      have hrt : t * (1 - 1 / 2 ^ 24) ≤ (r : ℝ) := by
        generalize Real.sqrt ((sqSum y : ℚ) : ℝ) = q at *
        have := (abs_le.1 hre).1
        norm_num at this ⊢
        linarith
      have hgt : |(g : ℝ)| * t ≤ 1631 / 100 := by
        have h1 : ((g ^ 2 * pulseSum y : ℚ) : ℝ) ≤ ((266 : ℚ) : ℝ) := by exact_mod_cast hgS
        push_cast at h1
        rw [← ht2] at h1
        have h2 : (|(g : ℝ)| * t) ^ 2 ≤ (1631 / 100) ^ 2 := by
          rw [mul_pow, sq_abs]
          refine h1.trans ?_
          norm_num
        exact le_of_sq_le_sq h2 (by norm_num)
      have hne : @Scalar.eq F32 (scalar el) (fin r) (@Scalar.zero F32 (scalar el)) = false := by
        rw [zero_eq]
        show decide (r = 0) = false
        rw [decide_eq_false_iff_not]
        rintro rfl
        norm_num at hrt
        linarith
      rw [hne]
      simp only [Bool.not_false, if_true]
      have hd := gain_bd (n := fin r) hrg ⟨r, rfl⟩ rfl ht1 ht4 hg' hrt
      exact gainRow_bd ht1 ht4 hg' hgt ht2 hd hb
  cases e
  intro a ha
  obtain ⟨⟨c, row⟩, hm, rfl⟩ := List.mem_map.1 ha
  obtain ⟨hm1, hm2⟩ := List.of_mem_zip hm
  have hc : |c| ≤ (5 : ℚ) := by
    rcases List.mem_append.1 hm1 with hm1 | hm1
    · exact hlf c hm1
    · exact hhf c hm1
  have hc' : |(c : ℝ)| ≤ 5 := by
    have : ((|c| : ℚ) : ℝ) ≤ ((5 : ℚ) : ℝ) := by exact_mod_cast hc
    push_cast at this
    exact this
  have b1 := bd_rnd hc' (by norm_num) (by norm_num)
  exact (b1.add (hprod row hm2) (by norm_num) (by norm_num)).mono (by norm_num)

end Lc3.F32
