import Verif.Lemmas.SnsRotation
import Verif.Props.SnsPulses
/-! In binary32 the target of the pulse search is never a very small number different from zero. -/

namespace Lc3
open Spec Tables Scalar
namespace F32

theorem rep_rndQ (q : ℚ) : Rep (rndQ q) := by
  have hu : (0 : ℚ) < 2 ^ ulpExp q := zpow_pos (by norm_num) _
  have hlt : |q / 2 ^ ulpExp q| ≤ 2 ^ 24 := by
    rw [abs_div, abs_of_pos hu, div_le_iff₀ hu]
    have h1 := log_self_lt |q|
    have h2 : (2 : ℚ) ^ (Int.log 2 |q| + 1) ≤ 2 ^ (24 + ulpExp q) :=
      zpow_le_zpow_right₀ (by norm_num) (by unfold ulpExp; omega)
    rw [zpow_add₀ (by norm_num : (2 : ℚ) ≠ 0) 24, show (2 : ℚ) ^ (24 : ℤ) = 2 ^ 24 by norm_num] at h2
    exact (h1.le.trans h2)
  obtain ⟨l1, l2⟩ := abs_le.1 hlt
  have m1 : roundEven (q / 2 ^ ulpExp q) ≤ 2 ^ 24 := roundEven_le (by push_cast; exact l2)
  have m2 : -2 ^ 24 ≤ roundEven (q / 2 ^ ulpExp q) := roundEven_ge (by push_cast; exact l1)
  have he : -149 ≤ ulpExp q := by unfold ulpExp; omega
  have h2u : (2 : ℚ) ^ (ulpExp q + 1) = 2 ^ ulpExp q * 2 := by rw [zpow_add₀ (by norm_num)]; norm_num
  unfold rndQ
  generalize roundEven (q / 2 ^ ulpExp q) = m at m1 m2
  by_cases hm : |m| < 2 ^ 24
  · exact ⟨m, ulpExp q, rfl, hm, he⟩
  · have : m = 2 ^ 24 ∨ m = -2 ^ 24 := by
      rw [abs_lt] at hm
      norm_num at hm m1 m2 ⊢
      omega
    rcases this with rfl | rfl
    · refine ⟨2 ^ 23, ulpExp q + 1, ?_, by norm_num, by omega⟩
      rw [h2u]; push_cast; ring
    · refine ⟨-2 ^ 23, ulpExp q + 1, ?_, by norm_num, by omega⟩
      rw [h2u]; push_cast; ring

theorem rnd_eq_fin {x y : ℚ} (h : rnd x = fin y) : y = rndQ x := by
  unfold rnd at h
  split at h
  · cases h
  · split at h
    · cases h
    · injection h with h; exact h.symm

theorem isF32_rnd (x : ℚ) : IsF32 (rnd x) := fun q h => by rw [rnd_eq_fin h]; exact rep_rndQ x

/-- a finite sum has finite summands -/
theorem add_eq_fin {a b : F32} {y : ℚ} (h : F32.add a b = fin y) : ∃ p q, a = fin p ∧ b = fin q ∧ y = rndQ (p + q) := by
  cases a with
  | nan => simp [F32.add] at h
  | inf s =>
    cases b with
    | nan => simp [F32.add] at h
    | inf t => simp only [F32.add] at h; split_ifs at h
    | fin q => simp [F32.add] at h
  | fin p =>
    cases b with
    | nan => simp [F32.add] at h
    | inf t => simp [F32.add] at h
    | fin q => exact ⟨p, q, rfl, rfl, rnd_eq_fin h⟩

/-- a finite product has finite factors -/
theorem mul_eq_fin {a b : F32} {y : ℚ} (h : F32.mul a b = fin y) : ∃ p q, a = fin p ∧ b = fin q ∧ y = rndQ (p * q) := by
  cases a with
  | nan => simp [F32.mul] at h
  | inf s =>
    cases b with
    | nan => simp [F32.mul] at h
    | inf t => simp only [F32.mul] at h; split_ifs at h
    | fin q => simp only [F32.mul] at h; split_ifs at h
  | fin p =>
    cases b with
    | nan => simp [F32.mul] at h
    | inf t => simp only [F32.mul] at h; split_ifs at h
    | fin q => exact ⟨p, q, rfl, rfl, rnd_eq_fin h⟩

theorem isF32_add (a b : F32) : IsF32 (F32.add a b) := fun q h => by
  obtain ⟨_, _, -, -, rfl⟩ := add_eq_fin h
  exact rep_rndQ _

theorem isF32_mul (a b : F32) : IsF32 (F32.mul a b) := fun q h => by
  obtain ⟨_, _, -, -, rfl⟩ := mul_eq_fin h
  exact rep_rndQ _

/-- one step of the rotation -/
def rotStep (s : F32) (p : F32 × ℚ) : F32 := F32.add s (F32.mul p.1 (rnd p.2))

/-- the factors of a finite sum are finite -/
theorem rotFold_fin : ∀ (l : List (F32 × ℚ)) (s : F32) {y : ℚ}, l.foldl rotStep s = fin y →
    ∃ (p : ℚ) (rs : List ℚ), s = fin p ∧ l.map Prod.fst = rs.map fin
  | [], s, y, h => ⟨y, [], h, rfl⟩
  | x :: l, s, y, h => by
    rw [List.foldl_cons] at h
    obtain ⟨p', rs, e1, e2⟩ := rotFold_fin l _ h
    obtain ⟨p, q, rfl, e4, -⟩ := add_eq_fin e1
    obtain ⟨r, d, e5, -, -⟩ := mul_eq_fin e4
    exact ⟨p, r :: rs, rfl, by rw [List.map_cons, List.map_cons, e2, e5]⟩

theorem rotFold_zero : ∀ (l : List (F32 × ℚ)) {y : ℚ}, l.foldl rotStep (fin 0) = fin y → (∀ x ∈ l, x.1 = fin 0) → y = 0
  | [], y, h, _ => by injection h with h; exact h.symm
  | x :: l, y, h, h0 => by
    rw [List.foldl_cons] at h
    obtain ⟨p', rs, e1, -⟩ := rotFold_fin l _ h
    have hx := h0 x (by simp)
    obtain ⟨p, q, e3, e4, e5⟩ := add_eq_fin e1
    obtain ⟨r, d, e6, -, e8⟩ := mul_eq_fin e4
    rw [hx] at e6
    injection e3 with e3
    injection e6 with e6
    rw [← e6, zero_mul, rndQ_zero] at e8
    rw [← e3, e8, add_zero, rndQ_zero] at e5
    rw [e1, e5] at h
    exact rotFold_zero l h fun x hx => h0 x (by simp [hx])

/-- rounding error of the sum -/
theorem rotFold_err {M : ℚ} (hM : 1 / 2 ^ 100 ≤ M) : ∀ (l : List (F32 × ℚ)) (rs : List ℚ) (p : ℚ) {y : ℚ}, l.foldl rotStep (fin p) = fin y →
    l.map Prod.fst = rs.map fin → (∀ r ∈ rs, |r| ≤ M) → (∀ x ∈ l, |x.2| ≤ 1) → |p| + l.length * (2 * M) ≤ 32 * M →
    |y - (p + ((rs.zip (l.map Prod.snd)).map fun x => x.1 * x.2).sum)| ≤ l.length * (11 * M / 2 ^ 22)
  | [], rs, p, y, h, hr, hrM, hd, hp => by
    injection h with h
    have : rs = [] := by simpa using hr.symm
    simp [h, this]
  | x :: l, [], p, y, h, hr, hrM, hd, hp => by simp at hr
  | x :: l, r :: rs, p, y, h, hr, hrM, hd, hp => by
    rw [List.foldl_cons] at h
    rw [List.map_cons, List.map_cons, List.cons.injEq] at hr
    obtain ⟨hx, hr⟩ := hr
    obtain ⟨p', rs', e1, -⟩ := rotFold_fin l _ h
    obtain ⟨pp, q, e3, e4, e5⟩ := add_eq_fin e1
    obtain ⟨r', d, e6, e7, e8⟩ := mul_eq_fin e4
    injection e3 with e3
    rw [hx] at e6
    injection e6 with e6
    have e9 := rnd_eq_fin e7
    subst e3 e6 e9
    have hrM' := hrM r (by simp)
    have hd' := hd x (by simp)
    have hM0 : 0 < M := lt_of_lt_of_le (by positivity) hM
    have a1 := rndQ_err x.2
    have a2 := rndQ_err (r * rndQ x.2)
    rw [← e8] at a2
    have a3 := rndQ_err (p + q)
    rw [← e5] at a3
    have hd1 : |rndQ x.2 - x.2| ≤ 1 / 2 ^ 23 := by
      refine a1.trans ?_
      calc |x.2| / 2 ^ 24 + 1 / 2 ^ 150 ≤ 1 / 2 ^ 24 + 1 / 2 ^ 150 := by gcongr
        _ ≤ _ := by norm_num
    have hd2 : |rndQ x.2| ≤ 2 := by
      calc |rndQ x.2| = |(rndQ x.2 - x.2) + x.2| := by ring_nf
        _ ≤ |rndQ x.2 - x.2| + |x.2| := abs_add_le _ _
        _ ≤ 1 / 2 ^ 23 + 1 := add_le_add hd1 hd'
        _ ≤ 2 := by norm_num
    have b1 : |r * rndQ x.2 - r * x.2| ≤ M / 2 ^ 23 := by
      rw [← mul_sub, abs_mul]
      calc |r| * |rndQ x.2 - x.2| ≤ M * (1 / 2 ^ 23) := mul_le_mul hrM' hd1 (abs_nonneg _) hM0.le
        _ = _ := by ring
    have b0 : |r * x.2| ≤ M := by
      rw [abs_mul]
      calc |r| * |x.2| ≤ M * 1 := mul_le_mul hrM' hd' (abs_nonneg _) hM0.le
        _ = M := mul_one M
    have b2 : |r * rndQ x.2| ≤ 2 * M := by
      rw [abs_mul]
      calc |r| * |rndQ x.2| ≤ M * 2 := mul_le_mul hrM' hd2 (abs_nonneg _) hM0.le
        _ = _ := by ring
    have ht : (1 / 2 ^ 150 : ℚ) ≤ M / 2 ^ 50 := by
      calc (1 / 2 ^ 150 : ℚ) = 1 / 2 ^ 100 / 2 ^ 50 := by norm_num
        _ ≤ _ := by gcongr
    have b3 : |q - r * x.2| ≤ M / 2 ^ 21 := by
      calc |q - r * x.2| = |(q - r * rndQ x.2) + (r * rndQ x.2 - r * x.2)| := by ring_nf
        _ ≤ |q - r * rndQ x.2| + |r * rndQ x.2 - r * x.2| := abs_add_le _ _
        _ ≤ (2 * M / 2 ^ 24 + M / 2 ^ 50) + M / 2 ^ 23 := by
          refine add_le_add (a2.trans (add_le_add ?_ ht)) b1
          gcongr
        _ ≤ _ := by
          have : 0 ≤ M := hM0.le
          norm_num at *
          linarith
    have b4 : |q| ≤ M + M / 2 ^ 21 := by
      calc |q| = |(q - r * x.2) + r * x.2| := by ring_nf
        _ ≤ |q - r * x.2| + |r * x.2| := abs_add_le _ _
        _ ≤ _ := by linarith
    rw [List.length_cons] at hp
    push_cast at hp
    have hl0 : (0 : ℚ) ≤ l.length * (2 * M) := by positivity
    have hp32 : |p| ≤ 30 * M := by linarith
    have b5 : |p + q| ≤ 32 * M := by
      refine (abs_add_le _ _).trans ?_
      have : M / 2 ^ 21 ≤ M := div_le_self hM0.le (by norm_num)
      linarith
    have b6 : |p' - (p + q)| ≤ 33 * M / 2 ^ 24 := by
      refine a3.trans ?_
      calc |p + q| / 2 ^ 24 + 1 / 2 ^ 150 ≤ 32 * M / 2 ^ 24 + M / 2 ^ 50 := add_le_add (by gcongr) ht
        _ ≤ _ := by
          norm_num
          linarith
    have b7 : |p'| ≤ |p| + 2 * M := by
      calc |p'| = |(p' - (p + q)) + (p + q)| := by ring_nf
        _ ≤ |p' - (p + q)| + |p + q| := abs_add_le _ _
        _ ≤ 33 * M / 2 ^ 24 + (|p| + |q|) := add_le_add b6 (abs_add_le _ _)
        _ ≤ _ := by
          norm_num at b4 ⊢
          linarith
    rw [e1] at h
    have ih := rotFold_err hM l rs p' h hr (fun r hr => hrM r (by simp [hr])) (fun x hx => hd x (by simp [hx])) (by linarith)
    rw [List.map_cons, List.zip_cons_cons, List.map_cons, List.sum_cons, List.length_cons]
    generalize ((rs.zip (l.map Prod.snd)).map fun x => x.1 * x.2).sum = S at ih ⊢
    push_cast
    calc |y - (p + (r * x.2 + S))| = |(y - (p' + S)) + (p' - (p + q)) + (q - r * x.2)| := by ring_nf
      _ ≤ |y - (p' + S)| + |p' - (p + q)| + |q - r * x.2| := abs_add_three _ _ _
      _ ≤ l.length * (11 * M / 2 ^ 22) + 33 * M / 2 ^ 24 + M / 2 ^ 21 := by linarith
      _ ≤ _ := by
        norm_num
        linarith

/-- entry of the rotated vector -/
theorem rotate_get (el : Elem) (j : Nat) : ∀ (l : List (F32 × List Rat)) (t : List F32), j < t.length → (∀ p ∈ l, j < p.2.length) →
    (l.foldl (fun t p => (t.zip p.2).map fun q => F32.add q.1 (F32.mul p.1 (rnd q.2))) t)[j]? =
      some ((l.map fun p => (p.1, p.2.getD j 0)).foldl rotStep (t.getD j (fin 0)))
  | [], t, ht, _ => by simp [ht]
  | p :: l, t, ht, h => by
    have hp := h p (by simp)
    rw [List.foldl_cons, rotate_get el j l _ (by simp; omega) (fun q hq => h q (by simp [hq])), List.map_cons, List.foldl_cons]
    congr 2
    simp [ht, hp, rotStep]

set_option maxRecDepth 100000 in
theorem D_abs : ∀ r ∈ D, ∀ d ∈ r, |d| ≤ 1 := by
  have h : ∀ r ∈ D_num, ∀ d ∈ r, |d| ≤ 100000000000000000 := by decide +kernel
  intro r hr d hd
  unfold D at hr
  obtain ⟨r', hr', rfl⟩ := List.mem_map.1 hr
  obtain ⟨n, hn, rfl⟩ := List.mem_map.1 hd
  have := h r' hr' n hn
  rw [Rat.mkRat_eq_div, abs_div, div_le_one (by norm_num [D_den])]
  have h2 : ((|n| : ℤ) : ℚ) ≤ ((100000000000000000 : ℤ) : ℚ) := by exact_mod_cast this
  rw [Int.cast_abs] at h2
  refine h2.trans ?_
  norm_num [D_den]

/-- the target of the pulse search is zero, not finite, or not small, if this holds for the residual of the first stage -/
theorem rotate_notTiny (el : Elem) {r1 : List F32} (hl : r1.length = 16) (hr : ∀ v ∈ r1, ∀ q, v = fin q → q = 0 ∨ 1 / 2 ^ 40 ≤ |q|) :
    NotTiny (((@snsRotate F32 (scalar el) r1).map absF).foldl F32.add (fin 0)) := by
  intro q hq
  by_contra hc
  push Not at hc
  obtain ⟨hq0, hq1⟩ := hc
  have hget : ∀ j, j < 16 → (@snsRotate F32 (scalar el) r1)[j]? =
      some ((((r1.zip D).map fun p => (p.1, p.2.getD j 0))).foldl rotStep (fin 0)) := by
    intro j hj
    have h := rotate_get el j (r1.zip D) (List.replicate 16 (rnd 0)) (by simpa using hj)
      (fun p hp => by have := D_rows p.2 (List.of_mem_zip hp).2; omega)
    have hz : (List.replicate 16 (rnd 0)).getD j (fin 0) = fin 0 := by
      rw [List.getD_eq_getElem _ _ (by simpa using hj), List.getElem_replicate]
      unfold rnd; rw [rndQ_zero]; norm_num
    rw [hz] at h
    exact h
  have hlen : (@snsRotate F32 (scalar el) r1).length = 16 := @snsRotate_length F32 (scalar el) r1
  have habs : ∀ v ∈ (@snsRotate F32 (scalar el) r1).map absF, AbsVal v := by
    intro v hv
    obtain ⟨w, hw, rfl⟩ := List.mem_map.1 hv
    obtain ⟨j, hj, rfl⟩ := List.getElem_of_mem hw
    refine absVal_of_rep ?_
    have h1 := hget j (by omega)
    rw [List.getElem?_eq_getElem hj] at h1
    injection h1 with h1
    rw [h1]
    have hne : ∃ l x, ((r1.zip D).map fun p => (p.1, p.2.getD j 0)) = l ++ [x] := by
      have : ((r1.zip D).map fun p => (p.1, p.2.getD j 0)) ≠ [] := by
        intro h0
        have := congrArg List.length h0
        simp [hl, D_length] at this
      exact ⟨_, _, (List.dropLast_append_getLast this).symm⟩
    obtain ⟨l, x, e⟩ := hne
    rw [e, List.foldl_append]
    exact isF32_add _ _
  have hsum := foldl_add_abs _ 0 (.inl rfl) habs
  rw [hq] at hsum
  rcases hsum with h | h | ⟨s', qs, e1, e2, e3, e4, -, -, -⟩
  · cases h
  · cases h
  injection e1 with e1
  subst e1
  rw [List.length_map, hlen, zero_add] at e4
  have hqn : ∀ x ∈ qs, 0 ≤ x := fun x hx => by
    rcases e3 x hx with rfl | h
    · exact le_rfl
    · exact le_trans (by positivity) h
  have htot : qs.sum ≤ 1 / 2 ^ 124 := by
    have := sumC_16
    have := sumD_16
    have h2 : sumC 16 * q ≤ (1 + 1 / 2 ^ 18) * (1 / 2 ^ 125) := mul_le_mul sumC_16 hq1.le hq0.le (by norm_num)
    refine e4.trans ((add_le_add h2 sumD_16).trans ?_)
    norm_num
  have hqb : ∀ x ∈ qs, x ≤ 1 / 2 ^ 124 := fun x hx => (List.single_le_sum hqn x hx).trans htot
  -- the entries
  have hent : ∀ j, j < 16 → ∃ y : ℚ, (((r1.zip D).map fun p => (p.1, p.2.getD j 0))).foldl rotStep (fin 0) = fin y ∧ |y| ≤ 1 / 2 ^ 124 := by
    intro j hj
    have h1 := hget j hj
    have h2 : absF ((((r1.zip D).map fun p => (p.1, p.2.getD j 0))).foldl rotStep (fin 0)) ∈ qs.map fin := by
      rw [← e2]
      exact List.mem_map_of_mem (List.mem_of_getElem? h1)
    obtain ⟨x, hx, e⟩ := List.mem_map.1 h2
    cases hv : (((r1.zip D).map fun p => (p.1, p.2.getD j 0))).foldl rotStep (fin 0) with
    | nan => rw [hv] at e; cases e
    | inf s => rw [hv] at e; cases e
    | fin y =>
      rw [hv] at e
      injection e with e
      exact ⟨y, rfl, by rw [← e]; exact hqb x hx⟩
  obtain ⟨y0, hy0, -⟩ := hent 0 (by norm_num)
  obtain ⟨-, rs, -, hrs⟩ := rotFold_fin _ _ hy0
  have hfst : ∀ j, ((r1.zip D).map fun p => (p.1, p.2.getD j 0)).map Prod.fst = r1 := by
    intro j
    rw [List.map_map]
    exact List.map_fst_zip (by rw [hl, D_length])
  rw [hfst 0] at hrs
  have hrl : rs.length = 16 := by rw [← hl, hrs, List.length_map]
  have hrm : ∀ r ∈ rs, r = 0 ∨ 1 / 2 ^ 40 ≤ |r| := fun r h => hr (fin r) (by rw [hrs]; exact List.mem_map_of_mem h) r rfl
  by_cases hall : ∀ r ∈ rs, r = 0
  · -- everything is zero
    have hz : ∀ j, j < 16 → (((r1.zip D).map fun p => (p.1, p.2.getD j 0))).foldl rotStep (fin 0) = fin 0 := by
      intro j hj
      obtain ⟨y, hy, -⟩ := hent j hj
      have := rotFold_zero _ hy fun x hx => by
        have : x.1 ∈ r1 := by rw [← hfst j]; exact List.mem_map_of_mem hx
        rw [hrs] at this
        obtain ⟨r, h1, h2⟩ := List.mem_map.1 this
        rw [← h2, hall r h1]
      rw [hy, this]
    have hrep : (@snsRotate F32 (scalar el) r1).map absF = List.replicate 16 (fin 0) := by
      apply List.ext_getElem?
      intro j
      by_cases hj : j < 16
      · rw [List.getElem?_map, hget j hj, hz j hj, List.getElem?_replicate, if_pos hj]
        simp [absF]
      · rw [List.getElem?_eq_none (by rw [List.length_map, hlen]; omega), List.getElem?_eq_none (by simp; omega)]
    rw [hrep] at hq
    have h0 : F32.add (fin 0) (fin 0) = fin 0 := by
      show rnd (0 + 0) = _
      unfold rnd; rw [add_zero, rndQ_zero]; norm_num
    simp only [List.replicate, List.foldl_cons, List.foldl_nil, h0] at hq
    injection hq with hq
    linarith
  · push Not at hall
    obtain ⟨r0, hr0, hr0'⟩ := hall
    -- the largest magnitude
    obtain ⟨m, hm, hmax⟩ : ∃ m ∈ rs, ∀ r ∈ rs, |r| ≤ |m| := by
      have hne : (rs.toFinset).Nonempty := ⟨r0, by simpa using hr0⟩
      obtain ⟨m, h1, h2⟩ := Finset.exists_max_image rs.toFinset (fun r => |r|) hne
      exact ⟨m, by simpa using h1, fun r h => h2 r (by simpa using h)⟩
    have hM : 1 / 2 ^ 40 ≤ |m| := by
      rcases hrm r0 hr0 with h | h
      · exact absurd h hr0'
      · exact h.trans (hmax r0 hr0)
    have herr : ∀ j : Fin 16, |∑ i : Fin 16, ((rs.getD i 0 : ℚ) : ℝ) * rotEntry i j| ≤ ((|m| : ℚ) : ℝ) / 2 ^ 12 := by
      intro j
      obtain ⟨y, hy, hyb⟩ := hent j j.2
      have h1 := rotFold_err (M := |m|) (hM.trans' (by norm_num)) _ rs 0 hy (by rw [hfst]; exact hrs) hmax (fun x hx => by
          obtain ⟨p, hp, rfl⟩ := List.mem_map.1 hx
          have h2 := (List.of_mem_zip hp).2
          have h3 := D_rows p.2 h2
          simp only
          rw [List.getD_eq_getElem _ _ (by have := j.2; omega)]
          exact D_abs _ h2 _ (List.getElem_mem _))
        (by rw [List.length_map, List.length_zip, hl, D_length]; push_cast; norm_num; linarith)
      have hsnd : ((r1.zip D).map fun p => (p.1, p.2.getD j 0)).map Prod.snd = D.map fun r => r.getD j 0 := by
        rw [List.map_map]
        have : (Prod.snd ∘ fun p : F32 × List ℚ => (p.1, p.2.getD j 0)) = (fun r : List ℚ => r.getD j 0) ∘ Prod.snd := rfl
        rw [this, ← List.map_map, List.map_snd_zip (by rw [hl, D_length])]
      rw [hsnd, List.length_map, List.length_zip, hl, D_length, zero_add] at h1
      have hcast : ((((rs.zip (D.map fun r => r.getD j 0)).map fun x => x.1 * x.2).sum : ℚ) : ℝ) =
          ∑ i : Fin 16, ((rs.getD i 0 : ℚ) : ℝ) * rotEntry i j := by
        rw [← List.sum_ofFn]
        rw [show ((((rs.zip (D.map fun r => r.getD j 0)).map fun x => x.1 * x.2).sum : ℚ) : ℝ) =
          (((rs.zip (D.map fun r => r.getD j 0)).map fun x => x.1 * x.2).map (Rat.castHom ℝ)).sum from
            map_list_sum (Rat.castHom ℝ) _]
        congr 1
        apply List.ext_getElem
        · simp [hrl, D_length]
        · intro i h1 h2
          have hi : i < 16 := by simpa using h2
          rw [List.getElem_ofFn, List.getElem_map, List.getElem_map, List.getElem_zip, List.getElem_map, ← rotEntry_eq,
            List.getD_eq_getElem rs _ (by omega), List.getD_eq_getElem D _ (by rw [D_length]; exact hi)]
          simp
      have h2 : |((rs.zip (D.map fun r => r.getD j 0)).map fun x => x.1 * x.2).sum| ≤ |m| / 2 ^ 12 := by
        generalize ((rs.zip (D.map fun r => r.getD j 0)).map fun x => x.1 * x.2).sum = S at h1 ⊢
        calc |S| = |y - (y - S)| := by ring_nf
          _ ≤ |y| + |y - S| := abs_sub _ _
          _ ≤ 1 / 2 ^ 124 + 16 * (11 * |m| / 2 ^ 22) := by
            refine add_le_add hyb (h1.trans ?_)
            norm_num
          _ ≤ |m| / 2 ^ 84 + 16 * (11 * |m| / 2 ^ 22) := by
            refine add_le_add ?_ le_rfl
            calc (1 / 2 ^ 124 : ℚ) = 1 / 2 ^ 40 / 2 ^ 84 := by norm_num
              _ ≤ _ := by gcongr
          _ ≤ _ := by
            norm_num
            have := abs_nonneg m
            linarith
      rw [← hcast]
      have h3 : (((|((rs.zip (D.map fun r => r.getD j 0)).map fun x => x.1 * x.2).sum| : ℚ)) : ℝ) ≤ ((|m| / 2 ^ 12 : ℚ) : ℝ) := by
        exact_mod_cast h2
      rw [Rat.cast_abs] at h3
      refine h3.trans (le_of_eq ?_)
      push_cast
      rfl
    have hen := rotate_energy fun i => ((rs.getD i 0 : ℚ) : ℝ)
    obtain ⟨k, hk, hkm⟩ := List.getElem_of_mem hm
    have hlow : (((|m| : ℚ)) : ℝ) ^ 2 ≤ ∑ i : Fin 16, ((rs.getD i 0 : ℚ) : ℝ) ^ 2 := by
      have := Finset.single_le_sum (f := fun i : Fin 16 => ((rs.getD i 0 : ℚ) : ℝ) ^ 2) (fun i _ => sq_nonneg _)
        (Finset.mem_univ (⟨k, by omega⟩ : Fin 16))
      refine le_trans (le_of_eq ?_) this
      simp only
      rw [List.getD_eq_getElem _ _ hk, hkm]
      push_cast
      rw [sq_abs]
    have hup : ∑ j : Fin 16, (∑ i : Fin 16, ((rs.getD i 0 : ℚ) : ℝ) * rotEntry i j) ^ 2 ≤ 16 * ((((|m| : ℚ)) : ℝ) / 2 ^ 12) ^ 2 := by
      calc _ ≤ ∑ j : Fin 16, ((((|m| : ℚ)) : ℝ) / 2 ^ 12) ^ 2 :=
            Finset.sum_le_sum fun j _ => sq_le_sq' (by have := abs_le.1 (herr j); linarith) (abs_le.1 (herr j)).2
        _ = _ := by simp
    have hmp : (0 : ℝ) < ((|m| : ℚ) : ℝ) := by
      have : (0 : ℚ) < |m| := lt_of_lt_of_le (by positivity) hM
      exact_mod_cast this
    have hsq : 0 < ((|m| : ℚ) : ℝ) ^ 2 := by positivity
    have h3 := (abs_le.1 hen).1
    rw [div_pow] at hup
    generalize ((|m| : ℚ) : ℝ) ^ 2 = w at *
    generalize ∑ j : Fin 16, (∑ i : Fin 16, ((rs.getD i 0 : ℚ) : ℝ) * rotEntry i j) ^ 2 = u at *
    generalize ∑ i : Fin 16, ((rs.getD i 0 : ℚ) : ℝ) ^ 2 = v at *
    norm_num at hup h3
    linarith

end F32
end Lc3
