import Verif.Lemmas.FinEncLines
/-! Sizes in the encoder in binary32: the quantised scale factors and the shaped lines. -/

namespace Lc3
open Scalar Tables Spec

/-- the chosen vector is the normalised candidate of the chosen shape; the gain is zero or a gain of this shape -/
def ChoiceMem {α : Type} [Scalar α] (xs : Nat → List α) (s : SnsChoice α) : Prop :=
  s.shapeJ < 4 ∧ s.xq = xs s.shapeJ ∧ (s.gain = zero ∨ ∃ g ∈ gainsOf s.shapeJ, s.gain = ofRat g)

theorem choiceMem_step {α : Type} [Scalar α] (xs : Nat → List α) {j : Nat} (hj : j < 4) (t : List α) {n : Nat} {s : SnsChoice α}
    (h : ChoiceMem xs s) : ChoiceMem xs (snsTryGains t (xs j) j ((gainsOf j).take n) 0 s) := by
  rcases snsTryGains_cases t (xs j) j ((gainsOf j).take n) 0 s with e | ⟨k, g, d, h1, h2⟩
  · rw [e]; exact h
  · rw [h2]
    exact ⟨hj, rfl, .inr ⟨g, List.mem_of_mem_take (List.mem_of_getElem? h1), rfl⟩⟩

theorem snsChoose_mem {α : Type} [Scalar α] (t : List α) (xs : Nat → List α) :
    ChoiceMem xs (snsChoose t (xs 0) (xs 1) (xs 2) (xs 3)) := by
  unfold snsChoose
  simp only
  refine choiceMem_step xs (j := 3) (by norm_num) t (n := 7) ?_
  refine choiceMem_step xs (j := 2) (by norm_num) t (n := 3) ?_
  refine choiceMem_step xs (j := 1) (by norm_num) t (n := 3) ?_
  refine choiceMem_step xs (j := 0) (by norm_num) t (n := 1) ?_
  exact ⟨by norm_num, rfl, .inl rfl⟩

end Lc3

namespace Lc3.F32
open Scalar Tables Spec

variable {el : Elem}

/-! ## The normalised vector -/

/-- pulses and gain of a shape -/
theorem shape_gain {j : ℕ} {y : List ℤ} {g : ℚ} (hv : ShapeVector j y) (hg : g ∈ gainsOf j) :
    |g| ≤ 6 ∧ 1 ≤ pulseSum y ∧ pulseSum y ≤ 11 ∧ g ^ 2 * pulseSum y ≤ 266 := by
  have key : ∀ (K : ℕ) (B : ℚ), |g| ≤ B → pulseSum y = K → B ≤ 6 → 1 ≤ K → K ≤ 11 → B ^ 2 * K ≤ 266 →
      |g| ≤ 6 ∧ 1 ≤ pulseSum y ∧ pulseSum y ≤ 11 ∧ g ^ 2 * pulseSum y ≤ 266 := by
    intro K B hg hy hB hK1 hK hBK
    refine ⟨hg.trans hB, by omega, by omega, le_trans ?_ hBK⟩
    have e1 : g ^ 2 ≤ B ^ 2 := by
      rw [← sq_abs]
      exact pow_le_pow_left₀ (abs_nonneg _) hg 2
    have e2 : (pulseSum y : ℚ) ≤ K := by exact_mod_cast hy.le
    exact mul_le_mul e1 e2 (by positivity) (by positivity)
  have hsplit : pulseSum y = unitPulses (y.take 10) + unitPulses (y.drop 10) := by
    conv_lhs => rw [← List.take_append_drop 10 y, pulseSum_append]
    rfl
  obtain ⟨-, hv⟩ := hv
  match j, hv, hg with
  | 0, hv, hg =>
    refine key 11 (12054 / 4096) ?_ (by rw [hsplit, hv.1, hv.2]) (by norm_num) (by norm_num) le_rfl (by norm_num)
    exact table_le (t := SNS_VQ_REG_ADJ_GAINS) rfl (by decide) (intTable_le (K := 12054) (by decide) (by norm_num [SNS_VQ_REG_ADJ_GAINS_den])) g hg
  | 1, hv, hg =>
    refine key 10 (21014 / 4096) ?_ (by rw [hsplit, hv.1, hv.2]) (by norm_num) (by norm_num) (by norm_num) (by norm_num)
    exact table_le (t := SNS_VQ_REG_LF_ADJ_GAINS) rfl (by decide) (intTable_le (K := 21014) (by decide) (by norm_num [SNS_VQ_REG_LF_ADJ_GAINS_den])) g hg
  | 2, hv, hg =>
    refine key 8 (14808 / 4096) ?_ hv (by norm_num) (by norm_num) (by norm_num) (by norm_num)
    exact table_le (t := SNS_VQ_NEAR_ADJ_GAINS) rfl (by decide) (intTable_le (K := 14808) (by decide) (by norm_num [SNS_VQ_NEAR_ADJ_GAINS_den])) g hg
  | 3, hv, hg =>
    refine key 6 (19882 / 4096) ?_ hv (by norm_num) (by norm_num) (by norm_num) (by norm_num)
    exact table_le (t := SNS_VQ_FAR_ADJ_GAINS) rfl (by decide) (intTable_le (K := 19882) (by decide) (by norm_num [SNS_VQ_FAR_ADJ_GAINS_den])) g hg
  | _ + 4, hv, hg => exact hv.elim

theorem enc_norm_sum : ∀ (y : List ℤ) (a : ℕ), a + sqSum y ≤ 2 ^ 10 →
    y.foldl (fun acc (x : ℤ) => if x ≠ 0 then F32.add acc (F32.mul (rnd (x : ℚ)) (rnd (x : ℚ))) else acc) (fin (a : ℚ)) =
      fin ((a + sqSum y : ℕ) : ℚ)
  | [], a, _ => by simp [sqSum]
  | v :: y, a, h => by
    have hs : sqSum (v :: y) = v.natAbs * v.natAbs + sqSum y := by simp [sqSum]
    rw [List.foldl_cons]
    by_cases hv : v = 0
    · subst hv
      have hs' : sqSum (0 :: y) = sqSum y := by simp [sqSum]
      rw [hs'] at h ⊢
      rw [if_neg (by simp)]
      exact enc_norm_sum y a h
    · rw [if_pos hv]
      have h1 := norm_sum [v] a (by simp [sqSum]; omega)
      rw [List.foldl_cons, List.foldl_nil] at h1
      rw [h1, enc_norm_sum y _ (by simp [sqSum] at h ⊢; omega)]
      congr 2
      simp [sqSum]
      omega

/-- one entry of the normalised vector -/
def normEntry (r : ℚ) (v : ℤ) : F32 := if v ≠ 0 then F32.div (rnd (v : ℚ)) (fin r) else rnd (v : ℚ)

/-- the normalised vector, entry by entry -/
theorem normalize_eq (he : Accurate el) {y : List ℤ} (hl : y.length ≤ 16) (hS : pulseSum y ≤ 11) :
    ∃ r : ℚ, @snsNormalize F32 (scalar el) y = (y ++ List.replicate (16 - y.length) 0).map (normEntry r) ∧
      |(r : ℝ) - Real.sqrt ((sqSum y : ℚ) : ℝ)| ≤ Real.sqrt ((sqSum y : ℚ) : ℝ) / 2 ^ 24 := by
  have hN : sqSum y ≤ 121 := (sqSum_le y).trans (by nlinarith)
  obtain ⟨r, hr, hre⟩ := he.sqrt (sqSum y : ℚ) (by positivity)
  refine ⟨r, ?_, hre⟩
  have h0 : @Scalar.zero F32 (scalar el) = fin ((0 : ℕ) : ℚ) := by rw [zero_eq]; simp
  have hsum := enc_norm_sum y 0 (by omega)
  rw [Nat.zero_add] at hsum
  have hz : rnd ((0 : ℤ) : ℚ) = fin 0 := by
    have := rnd_int (n := 0) (by norm_num)
    simpa using this
  have hnorm : @Scalar.sqrt F32 (scalar el) (y.foldl (fun s v => if v ≠ 0 then @HAdd.hAdd F32 F32 F32 (@instHAdd F32 (scalar el).toAdd) s
      (@HMul.hMul F32 F32 F32 (@instHMul F32 (scalar el).toMul) (@ofInt F32 (scalar el) v) (@ofInt F32 (scalar el) v)) else s)
        (@Scalar.zero F32 (scalar el))) = fin r := by
    rw [h0]
    exact (congrArg el.sqrt hsum).trans hr
  unfold snsNormalize
  simp only
  rw [hnorm, List.map_append, List.map_replicate]
  congr 2

theorem normEntry_bd {r : ℚ} {t : ℝ} (ht : 1 ≤ t) (ht4 : t ≤ 4) (hr : t * (1 - 1 / 2 ^ 24) ≤ (r : ℝ)) {v : ℤ} (hv : v.natAbs ≤ 11) :
    Bd (v.natAbs * ((1 + 1 / 2 ^ 21) / t) + 1 / 2 ^ 21) (normEntry r v) := by
  obtain ⟨m, hm⟩ : ∃ m : ℝ, m = v.natAbs := ⟨_, rfl⟩
  have hm1 : m ≤ 11 := by rw [hm]; exact_mod_cast hv
  have hm0 : 0 ≤ m := by rw [hm]; positivity
  have hval : |((v : ℚ) : ℝ)| = m := by
    rw [hm, Rat.cast_intCast, ← Int.cast_abs, Int.abs_eq_natAbs]
    rfl
  have hrnd : rnd (v : ℚ) = fin v := rnd_int (by rw [abs_le]; omega)
  unfold normEntry
  rw [hrnd, ← hm]
  have hu : 0 < (1 + 1 / 2 ^ 21) / t := by positivity
  split
  · rename_i hne
    have hm1' : 1 ≤ m := by
      rw [hm]
      have : 1 ≤ v.natAbs := by omega
      exact_mod_cast this
    have b1 : Bd m (fin (v : ℚ)) := ⟨⟨_, rfl⟩, hval.le⟩
    have h0 : 0 < t * (1 - 1 / 2 ^ 24) := by norm_num; linarith
    have e : m / (t * (1 - 1 / 2 ^ 24)) = (m / (1 - 1 / 2 ^ 24)) / t := by rw [mul_comm t, ← div_div]
    refine (b1.div (b := fin r) ⟨_, rfl⟩ h0 (hr.trans (le_abs_self _)) ?_ ?_).mono ?_
    · rw [e, le_div_iff₀ (by linarith)]
      norm_num
      linarith
    · rw [e, div_le_iff₀ (by linarith)]
      norm_num
      linarith
    · have hle : m / (t * (1 - 1 / 2 ^ 24)) * (1 + 1 / 2 ^ 23) ≤ m * ((1 + 1 / 2 ^ 21) / t) := by
        rw [e, div_mul_eq_mul_div, ← mul_div_assoc, div_le_div_iff_of_pos_right (by linarith)]
        norm_num
        linarith
      exact hle.trans (by linarith [show (0 : ℝ) < 1 / 2 ^ 21 by positivity])
  · refine ⟨⟨_, rfl⟩, ?_⟩
    rename_i hne
    have : v = 0 := by simpa using hne
    subst this
    show |(((0 : ℤ) : ℚ) : ℝ)| ≤ _
    rw [Int.cast_zero, Rat.cast_zero, abs_zero]
    have : 0 ≤ m * ((1 + 1 / 2 ^ 21) / t) := mul_nonneg hm0 hu.le
    linarith [show (0 : ℝ) < 1 / 2 ^ 21 by positivity]

/-- one term of a row -/
theorem enc_term_bd {m u : ℝ} {d : ℚ} {acc x : F32} {P : ℝ} (hm0 : 0 ≤ m) (hm : m ≤ 11) (hu : 0 ≤ u) (hu1 : u ≤ 101 / 100)
    (hx : Bd (m * u + 1 / 2 ^ 21) x) (hd : |d| ≤ (352 / 1000 : ℚ)) (h : Bd P acc) (hP : P ≤ 8) :
    Bd (P + m * u * (353 / 1000) + 1 / 2 ^ 17) (F32.add acc (F32.mul x (rnd d))) := by
  have hd' : |(d : ℝ)| ≤ 352 / 1000 := by
    have : ((|d| : ℚ) : ℝ) ≤ ((352 / 1000 : ℚ) : ℝ) := by exact_mod_cast hd
    push_cast at this
    exact this
  have b2 : Bd (3521 / 10000) (rnd d) := (bd_rnd hd' (by norm_num) (by norm_num)).mono (by norm_num)
  obtain ⟨w, hw⟩ : ∃ w, w = m * u := ⟨_, rfl⟩
  have hw0 : 0 ≤ w := by rw [hw]; positivity
  have hw12 : w ≤ 12 := by rw [hw]; nlinarith
  rw [← hw] at hx ⊢
  have b3 := hx.mul b2 (by norm_num; linarith) (by norm_num; linarith)
  have b3' : Bd (w * (353 / 1000) + 1 / 2 ^ 20) (F32.mul x (rnd d)) := b3.mono (by norm_num; linarith)
  have hP0 := h.nonneg
  refine (h.add b3' (by norm_num; linarith) (by norm_num; linarith)).mono ?_
  norm_num
  linarith

/-- one row of the synthesis -/
theorem enc_row_bd {u : ℝ} {fx : ℤ → F32} (hu : 0 ≤ u) (hu1 : u ≤ 101 / 100)
    (hfx : ∀ v : ℤ, v.natAbs ≤ 11 → Bd (v.natAbs * u + 1 / 2 ^ 21) (fx v)) :
    ∀ (p : List (ℤ × ℚ)) (acc : F32) (P : ℝ), (∀ x ∈ p, |x.2| ≤ (352 / 1000 : ℚ)) →
    Bd P acc → pulseSum (p.map Prod.fst) ≤ 11 → P + pulseSum (p.map Prod.fst) * u * (353 / 1000) + p.length * (1 / 2 ^ 17) ≤ 8 →
    Bd (P + pulseSum (p.map Prod.fst) * u * (353 / 1000) + p.length * (1 / 2 ^ 17))
      (p.foldl (fun acc (x : ℤ × ℚ) => F32.add acc (F32.mul (fx x.1) (rnd x.2))) acc)
  | [], acc, P, _, h, _, _ => by
    refine h.mono ?_
    simp [pulseSum]
  | x :: p, acc, P, hp, h, hS, hP => by
    have hs : pulseSum ((x :: p).map Prod.fst) = x.1.natAbs + pulseSum (p.map Prod.fst) := by simp [pulseSum]
    rw [hs] at hS hP ⊢
    rw [List.length_cons] at hP ⊢
    rw [Nat.cast_add, Nat.cast_add] at hP ⊢
    rw [Nat.cast_one] at hP ⊢
    have h0 : (0 : ℝ) ≤ pulseSum (p.map Prod.fst) * u * (353 / 1000) + p.length * (1 / 2 ^ 17) := by positivity
    have h1 : (0 : ℝ) ≤ x.1.natAbs * u * (353 / 1000) := by positivity
    have h11 : x.1.natAbs ≤ 11 := by omega
    have b := enc_term_bd (m := x.1.natAbs) (by positivity) (by exact_mod_cast h11) hu hu1 (hfx x.1 h11) (hp x (by simp)) h (by
      norm_num at hP h0 h1 ⊢; nlinarith)
    rw [List.foldl_cons]
    refine (enc_row_bd hu hu1 hfx p _ _ (fun z hz => hp z (by simp [hz])) b (by omega) (by norm_num at hP ⊢; linarith)).mono ?_
    linarith

/-- gain times row -/
theorem enc_gainRow_bd {g t S : ℝ} {a b : F32} (ht : 1 ≤ t) (ht4 : t ≤ 4) (hg : |g| ≤ 6) (hgt : |g| * t ≤ 1631 / 100) (hS : t ^ 2 = S)
    (ha : Bd ((|g| + 1 / 2 ^ 30) * (1 + 1 / 2 ^ 23)) a)
    (hb : Bd (S * ((1 + 1 / 2 ^ 21) / t) * (353 / 1000) + 16 * (1 / 2 ^ 17)) b) : Bd (581 / 100) (F32.mul a b) := by
  have hg0 := abs_nonneg g
  have e1 : S * ((1 + 1 / 2 ^ 21) / t) = t * (1 + 1 / 2 ^ 21) := by
    rw [← hS]
    field_simp
  rw [e1] at hb
  have hgt0 : 0 ≤ |g| * t := by positivity
  generalize |g| = G at *
  have e2 : (G + 1 / 2 ^ 30) * (1 + 1 / 2 ^ 23) * (t * (1 + 1 / 2 ^ 21) * (353 / 1000) + 16 * (1 / 2 ^ 17)) =
      (1 + 1 / 2 ^ 23) * ((G * t + t / 2 ^ 30) * (1 + 1 / 2 ^ 21) * (353 / 1000) + (G + 1 / 2 ^ 30) * (16 * (1 / 2 ^ 17))) := by ring
  refine (ha.mul hb ?_ ?_).mono ?_
  · rw [e2]; norm_num; linarith
  · rw [e2]; norm_num; linarith
  · rw [e2]; norm_num; linarith

/-- the gain times a row of the normalised vector -/
theorem enc_prod_bd (he : Accurate el) {j : ℕ} {y : List ℤ} {g : ℚ} {a : F32} (hl : y.length ≤ 16)
    (hv : ShapeVector j (y ++ List.replicate (16 - y.length) 0)) (hg : g ∈ gainsOf j) (ha : a = fin 0 ∨ a = rnd g) {row : List ℚ} (hrow : row ∈ D) :
    Bd (581 / 100) (F32.mul a (((@snsNormalize F32 (scalar el) y).zip row).foldl (fun f q => F32.add f (F32.mul q.1 (rnd q.2))) (fin 0))) := by
  obtain ⟨hg6, hS1, hS11, hgS⟩ := shape_gain hv hg
  have hlen16 := hv.1
  have hps : pulseSum (y ++ List.replicate (16 - y.length) 0) = pulseSum y := by rw [pulseSum_append, pulseSum_zeros]; omega
  rw [hps] at hS1 hS11 hgS
  obtain ⟨r, hr, hre⟩ := normalize_eq he hl hS11
  obtain ⟨t, ht⟩ : ∃ t, t = Real.sqrt (pulseSum y : ℝ) := ⟨_, rfl⟩
  have hS1' : (1 : ℝ) ≤ pulseSum y := by exact_mod_cast hS1
  have hS11' : (pulseSum y : ℝ) ≤ 11 := by exact_mod_cast hS11
  have ht2 : t ^ 2 = pulseSum y := by rw [ht, Real.sq_sqrt (by linarith)]
  have ht1 : 1 ≤ t := by rw [ht, Real.one_le_sqrt]; exact hS1'
  have ht4 : t ≤ 4 := by nlinarith
  have hg' : |(g : ℝ)| ≤ 6 := by
    have : ((|g| : ℚ) : ℝ) ≤ ((6 : ℚ) : ℝ) := by exact_mod_cast hg6
    push_cast at this
    exact this
  have hN' : t ≤ Real.sqrt ((sqSum y : ℚ) : ℝ) := by
    rw [ht]
    refine Real.sqrt_le_sqrt ?_
    have := pulseSum_le_sq y
    push_cast
    exact_mod_cast this
  have hrt : t * (1 - 1 / 2 ^ 24) ≤ (r : ℝ) := by
    generalize Real.sqrt ((sqSum y : ℚ) : ℝ) = q at *
    have := (abs_le.1 hre).1
    norm_num at this ⊢
    linarith
  have hgt : |(g : ℝ)| * t ≤ 1631 / 100 := by
    have h1 : ((g ^ 2 * pulseSum y : ℚ) : ℝ) ≤ ((266 : ℚ) : ℝ) := by exact_mod_cast hgS
    push_cast at h1
    rw [← ht2] at h1
    have h2 : (|(g : ℝ)| * t) ^ 2 ≤ (1631 / 100) ^ 2 := by
      rw [mul_pow, sq_abs]
      refine h1.trans ?_
      norm_num
    exact le_of_sq_le_sq h2 (by norm_num)
  have hd := d_le row hrow
  have hrl : row.length = 16 := by
    have h : ∀ r ∈ D_num, r.length = 16 := by decide
    obtain ⟨n, hn, rfl⟩ := List.mem_map.1 hrow
    rw [List.length_map]
    exact h n hn
  obtain ⟨Y, hY⟩ : ∃ Y, Y = y ++ List.replicate (16 - y.length) 0 := ⟨_, rfl⟩
  rw [← hY] at hr hlen16 hps
  have hfst : (Y.zip row).map Prod.fst = Y := List.map_fst_zip (by omega)
  have hz : (Y.zip row).length = 16 := by rw [List.length_zip]; omega
  have hu : (0 : ℝ) ≤ (1 + 1 / 2 ^ 21) / t := by positivity
  have hu1 : (1 + 1 / 2 ^ 21) / t ≤ (101 / 100 : ℝ) := by
    rw [div_le_iff₀ (by linarith)]
    norm_num
    linarith
  have hb := enc_row_bd hu hu1 (fun v hv => normEntry_bd ht1 ht4 hrt hv) (Y.zip row) (fin 0) 0 (fun x hx => hd _ (List.of_mem_zip hx).2)
    (bd_zero le_rfl) (by rw [hfst, hps]; exact hS11) (by
      rw [hfst, hz, hps]
      generalize (1 + 1 / 2 ^ 21) / t = u at *
      norm_num
      nlinarith)
  rw [hfst, hz, hps, zero_add] at hb
  have hfold : ((@snsNormalize F32 (scalar el) y).zip row).foldl (fun f q => F32.add f (F32.mul q.1 (rnd q.2))) (fin 0) =
      (Y.zip row).foldl (fun acc (x : ℤ × ℚ) => F32.add acc (F32.mul (normEntry r x.1) (rnd x.2))) (fin 0) := by
    rw [hr, List.zip_map_left, List.foldl_map]
    rfl
  rw [hfold]
  have hrg : Bd ((|(g : ℝ)| + 1 / 2 ^ 30) * (1 + 1 / 2 ^ 23)) a := by
    rcases ha with rfl | rfl
    · exact bd_zero (by positivity)
    · exact bd_rnd (by linarith [show (0 : ℝ) ≤ 1 / 2 ^ 30 by positivity]) (by norm_num; linarith [abs_nonneg (g : ℝ)]) (by norm_num; linarith)
  exact enc_gainRow_bd ht1 ht4 hg' hgt ht2 hrg (by exact_mod_cast hb)

/-- the quantised scale factors -/
theorem bd_snsStage2 (he : Accurate el) {r1 st1 : List F32} {s2 : SnsStage2 F32} (hl : r1.length = 16)
    (hr : ∀ v ∈ r1, ∀ q, v = fin q → q = 0 ∨ 1 / 2 ^ 40 ≤ |q|) (hst : AllBd (501 / 100) st1)
    (e : @snsStage2 F32 (scalar el) r1 st1 = .ok s2) : AllBd 11 s2.scfq := by
  have hw := (snsStage2_iff el hl hr).1 ⟨s2, e⟩
  letI := scalar el
  have hlen : (@snsRotate F32 (scalar el) r1).length = 16 := @snsRotate_length F32 (scalar el) r1
  have hz : rnd 0 = .fin 0 := by unfold rnd; rw [rndQ_zero]; norm_num
  obtain ⟨h0, h5⟩ := snsProject_f32 el ((@snsRotate F32 (scalar el) r1).map absF) (by simpa using hlen) (fun v hv => by
    obtain ⟨w, hw, rfl⟩ := List.mem_map.1 hv
    exact absVal_of_rep (rotate_rep el hl w hw)) (rotate_notTiny el hl hr)
  obtain ⟨c, ec, c1, c2, c3, c4, c5, c6⟩ := @snsCands_of_search F32 (F32.scalar el) _ hlen h0 (le_trans h5 (by norm_num))
  have hw := hw c ec
  have e0 : (∃ a ∈ (@snsRotate F32 (scalar el) r1).drop 10, F32.lt (fin 0) (absF a) = true) ↔
      ∃ a ∈ (@snsRotate F32 (scalar el) r1).drop 10, Scalar.lt (zero : F32) (absS a) = true := by
    rw [← hz]
    exact Iff.rfl
  rw [e0] at hw
  obtain ⟨ys, hys⟩ : ∃ ys : ℕ → List ℤ, ys = fun j => match j with | 0 => c.y0 | 1 => c.y1 | 2 => c.y2 | _ => c.y3 := ⟨_, rfl⟩
  have y0 : ys 0 = c.y0 := congrFun hys 0
  have y1 : ys 1 = c.y1 := congrFun hys 1
  have y2 : ys 2 = c.y2 := congrFun hys 2
  have y3 : ys 3 = c.y3 := congrFun hys 3
  have hch := snsChoose_mem (@snsRotate F32 (scalar el) r1) (fun j => (snsNormalize (ys j) : List F32))
  rw [y0, y1, y2, y3] at hch
  unfold snsStage2 at e
  simp only at e
  rw [ec, Res.bind_ok] at e
  generalize snsChoose (@snsRotate F32 (scalar el) r1) (snsNormalize c.y0) (snsNormalize c.y1) (snsNormalize c.y2) (snsNormalize c.y3) = s at hw hch e
  obtain ⟨g1, g2, g3⟩ := hch
  have hv : (ys s.shapeJ).length ≤ 16 ∧ ShapeVector s.shapeJ (ys s.shapeJ ++ List.replicate (16 - (ys s.shapeJ).length) 0) := by
    have hsh : s.shapeJ = 0 ∨ s.shapeJ = 1 ∨ s.shapeJ = 2 ∨ s.shapeJ = 3 := by omega
    have full : ∀ {j : ℕ} {y : List ℤ}, ShapeVector j y → y.length ≤ 16 ∧ ShapeVector j (y ++ List.replicate (16 - y.length) 0) := by
      intro j y h
      have := h.1
      rw [this]
      exact ⟨by omega, by simpa using h⟩
    rcases hsh with e | e | e | e <;> rw [e]
    · rw [y0]
      refine full ?_
      rcases hw with hw | hw
      · exact absurd e hw
      · exact c5.2 hw
    · rw [y1, c1]
      exact ⟨by norm_num, c2⟩
    · rw [y2]
      exact full c3
    · rw [y3]
      exact full c4
  obtain ⟨⟨J, lsa, lsb⟩, -, e⟩ := bind_ok_inv e
  cases e
  intro a ha
  obtain ⟨⟨x, row⟩, hm, rfl⟩ := List.mem_map.1 ha
  obtain ⟨hm1, hm2⟩ := List.of_mem_zip hm
  have hprod : Bd (581 / 100) (F32.mul s.gain (((@snsNormalize F32 (scalar el) (ys s.shapeJ)).zip row).foldl
      (fun f q => F32.add f (F32.mul q.1 (rnd q.2))) (fin 0))) := by
    rcases g3 with g3 | ⟨g, hg, g3⟩
    · obtain ⟨g, hg⟩ : ∃ g, g ∈ gainsOf s.shapeJ := by
        have hsh : s.shapeJ = 0 ∨ s.shapeJ = 1 ∨ s.shapeJ = 2 ∨ s.shapeJ = 3 := by omega
        rcases hsh with e | e | e | e <;> rw [e] <;> exact List.exists_mem_of_ne_nil _ (by decide)
      exact enc_prod_bd he hv.1 hv.2 hg (.inl (g3.trans zero_eq)) hm2
    · exact enc_prod_bd he hv.1 hv.2 hg (.inr g3) hm2
  have hfin := ((hst x hm1).add hprod (by norm_num) (by norm_num)).mono (show _ ≤ (11 : ℝ) by norm_num)
  have hzero : (zero : F32) = fin 0 := zero_eq
  simp only
  rw [g2, hzero]
  exact hfin

/-- the shaped lines -/
theorem bd_snsEncRun (he : EncFunctions el) {f : SamplingFrequency} {d : FrameDuration} (hnb : (Lc3Config.new f d).nb = 64) {x eb : List F32} {attack : Bool}
    {r : SnsEncResult F32} (hx : AllBd (2 ^ 28) x) (e : @snsEncRun F32 (scalar el) (Lc3Config.new f d) x eb attack = .ok r) :
    AllBd (2 ^ 50) r.x := by
  letI := scalar el
  unfold snsEncRun at e
  split at e
  · cases e
  obtain ⟨scf, h1, e⟩ := bind_ok_inv e
  obtain ⟨⟨lf, hf, st1, r1⟩, h2, e⟩ := bind_ok_inv e
  obtain ⟨s2, h3, e⟩ := bind_ok_inv e
  obtain ⟨g, h4, e⟩ := bind_ok_inv e
  obtain ⟨tab, h5, e⟩ := bind_ok_inv e
  obtain ⟨l, h6, e⟩ := bind_ok_inv e
  cases e
  simp only
  obtain ⟨a1, a2, a3, a4⟩ := snsStage1_f32 el (snsTarget_f32 el h1) h2
  have hst : AllBd (501 / 100) st1 := by
    unfold snsStage1 at h2
    split at h2
    · cases h2
    obtain ⟨a, k1, h2⟩ := bind_ok_inv h2
    obtain ⟨b, k2, h2⟩ := bind_ok_inv h2
    cases h2
    intro v hv
    obtain ⟨c, hc, rfl⟩ := List.mem_map.1 hv
    have hc5 : |c| ≤ (5 : ℚ) := by
      rcases List.mem_append.1 hc with hc | hc
      · exact lfcb_le a (idx_mem k1) c hc
      · exact hfcb_le b (idx_mem k2) c hc
    have hc' : |(c : ℝ)| ≤ 5 := by
      have : ((|c| : ℚ) : ℝ) ≤ ((5 : ℚ) : ℝ) := by exact_mod_cast hc5
      push_cast at this
      exact this
    exact (bd_rnd hc' (by norm_num) (by norm_num)).mono (by norm_num)
  have hscf := bd_snsStage2 he.toAccurate a3 a4 hst h3
  have hg : AllBd (2 ^ 21) g := by
    unfold snsEncFactors snsReduceEnc at h4
    rw [hnb, show usub 64 64 = .ok 0 from rfl, Res.bind_ok, if_neg (by norm_num), Res.bind_ok] at h4
    cases h4
    intro a ha
    obtain ⟨z, hz, rfl⟩ := List.mem_map.1 ha
    obtain ⟨⟨q, hq⟩, hb⟩ := (bd_interp hscf z hz).neg
    have hb' : |(q : ℝ)| ≤ 1926 / 100 := by
      rw [hq] at hb
      exact hb
    obtain ⟨c, hc, hce⟩ := he.exp2 q (by
      have : |(q : ℝ)| ≤ ((80 : ℚ) : ℝ) := hb'.trans (by norm_num)
      exact_mod_cast this)
    have : (exp2 (-z) : F32) = fin c := by
      show el.exp2 (F32.neg z) = _
      rw [hq]
      exact hc
    rw [this]
    refine ⟨⟨c, rfl⟩, ?_⟩
    show |(c : ℝ)| ≤ _
    refine hce.trans ?_
    have k1 : (2 : ℝ) ^ (q : ℝ) ≤ (2 : ℝ) ^ (20 : ℝ) :=
      Real.rpow_le_rpow_of_exponent_le (by norm_num) (by have := le_abs_self (q : ℝ); linarith)
    rw [show (20 : ℝ) = ((20 : ℕ) : ℝ) by norm_num, Real.rpow_natCast] at k1
    norm_num at k1 ⊢
    linarith
  have hm : ∀ a g, Bd (2 ^ 28) a → Bd (2 ^ 21) g → Bd (2 ^ 50) (F32.mul a g) := by
    intro a g ha hg
    exact (ha.mul hg (by norm_num) (by norm_num)).mono (by norm_num)
  have hfirst : ∃ i, ∀ j, idx tab 0 = .ok j → i = j := by
    cases h0 : idx tab 0 with
    | ok j => exact ⟨j, fun k hk => by cases hk; rfl⟩
    | err => exact ⟨0, fun k hk => by cases hk⟩
    | panic => exact ⟨0, fun k hk => by cases hk⟩
  obtain ⟨i, hi⟩ := hfirst
  exact (bd_shapeLoop (by norm_num) hm _ 0 i x l (hg.take _) hi ((hx.mono (by norm_num)).take _) (hx.drop _) h6).2

end Lc3.F32
