import Verif.Props.EncQuant
/-! Rounding errors of binary32 and of sums. -/

namespace Lc3.F32

theorem roundEven_err (z : ℚ) : |(roundEven z : ℚ) - z| ≤ 1 / 2 := by
  have h1 := Int.floor_le z
  have h2 := Int.lt_floor_add_one z
  unfold roundEven
  simp only
  rw [abs_le]
  split_ifs <;> push_cast <;> constructor <;> linarith

theorem rndQ_zero : rndQ 0 = 0 := rndQ_rep ⟨0, 0, by norm_num, by norm_num, by norm_num⟩

theorem rndQ_err (q : ℚ) : |rndQ q - q| ≤ |q| / 2 ^ 24 + 1 / 2 ^ 150 := by
  rcases eq_or_ne q 0 with rfl | hq
  · rw [rndQ_zero]; norm_num
  obtain ⟨u, hu⟩ : ∃ u, u = ulpExp q := ⟨_, rfl⟩
  have h2 : (0 : ℚ) < 2 ^ u := zpow_pos (by norm_num) _
  have h3 : rndQ q - q = ((roundEven (q / 2 ^ u) : ℚ) - q / 2 ^ u) * 2 ^ u := by
    unfold rndQ
    rw [← hu, sub_mul, div_mul_cancel₀ _ h2.ne']
  rw [h3, abs_mul, abs_of_pos h2]
  have h4 : |(roundEven (q / 2 ^ u) : ℚ) - q / 2 ^ u| * 2 ^ u ≤ 1 / 2 * 2 ^ u :=
    mul_le_mul_of_nonneg_right (roundEven_err _) h2.le
  refine h4.trans ?_
  have h0 : 0 ≤ |q| / 2 ^ 24 := by positivity
  rcases le_total (Int.log 2 |q| - 23) (-149) with h | h
  · have e : u = -149 := by rw [hu]; unfold ulpExp; omega
    rw [e]
    have : (1 / 2 * 2 ^ (-149 : ℤ) : ℚ) = 1 / 2 ^ 150 := by norm_num
    rw [this]; linarith
  · have e : u = Int.log 2 |q| - 23 := by rw [hu]; unfold ulpExp; omega
    have hp : 0 < |q| := abs_pos.2 hq
    have := log_self hp
    rw [e, zpow_sub₀ (by norm_num)]
    have e2 : (1 / 2 * (2 ^ Int.log 2 |q| / 2 ^ (23 : ℤ)) : ℚ) = 2 ^ Int.log 2 |q| / 2 ^ 24 := by
      rw [show ((2 : ℚ) ^ (23 : ℤ)) = 2 ^ 23 by norm_cast]
      ring
    rw [e2]
    have : (2 : ℚ) ^ Int.log 2 |q| / 2 ^ 24 ≤ |q| / 2 ^ 24 := by gcongr
    have : (0 : ℚ) ≤ 1 / 2 ^ 150 := by positivity
    linarith

/-- magnitudes of `f32` values -/
def AbsVal (v : F32) : Prop := v = nan ∨ v = inf false ∨ ∃ q, v = fin q ∧ (q = 0 ∨ 1 / 2 ^ 149 ≤ q)

theorem tiny_le_rndQ {q : ℚ} (h : 1 / 2 ^ 149 ≤ q) : 1 / 2 ^ 149 ≤ rndQ q := by
  have := rndQ_mono h
  rwa [rndQ_rep ⟨1, -149, by norm_num, by norm_num, by norm_num⟩] at this

theorem rndQ_inv_err {x : ℚ} (h : 0 ≤ x) : x ≤ rndQ x * (1 + 1 / 2 ^ 23) + 1 / 2 ^ 149 := by
  have := rndQ_err x
  rw [abs_of_nonneg h, abs_le] at this
  have h1 := this.1
  have h2 := rndQ_nonneg h
  norm_num at h1 ⊢
  linarith

theorem rndQ_upper {x : ℚ} (h : 0 ≤ x) : rndQ x ≤ x * (1 + 1 / 2 ^ 24) + 1 / 2 ^ 150 := by
  have := rndQ_err x
  rw [abs_of_nonneg h, abs_le] at this
  have h1 := this.2
  norm_num at h1 ⊢
  linarith

def sumC : ℕ → ℚ
  | 0 => 1
  | n + 1 => (1 + 1 / 2 ^ 23) * sumC n

def sumD : ℕ → ℚ
  | 0 => 0
  | n + 1 => (1 + 1 / 2 ^ 23) * sumD n + 1 / 2 ^ 149

theorem foldl_add_nan (l : List F32) : l.foldl add nan = nan := by
  induction l with
  | nil => rfl
  | cons a l ih => exact ih

theorem foldl_add_inf (l : List F32) (h : ∀ v ∈ l, AbsVal v) : l.foldl add (inf false) = nan ∨ l.foldl add (inf false) = inf false := by
  induction l with
  | nil => right; rfl
  | cons a l ih =>
    rw [List.foldl_cons]
    have hl := fun v hv => h v (List.mem_cons_of_mem _ hv)
    rcases h a (by simp) with rfl | rfl | ⟨q, rfl, -⟩
    · left; exact foldl_add_nan l
    · exact ih hl
    · exact ih hl

theorem rnd_cases {x : ℚ} (h : 0 ≤ x) : rnd x = inf false ∨ rnd x = fin (rndQ x) ∧ rndQ x < 2 ^ 128 := by
  have := rndQ_nonneg h
  unfold rnd
  split
  · left; rfl
  · rename_i h1
    right
    rw [if_neg (by have : (0 : ℚ) < 2 ^ 128 := by positivity
                   linarith)]
    exact ⟨rfl, not_le.1 h1⟩

/-- a sum of magnitudes in `f32` -/
theorem foldl_add_abs (l : List F32) : ∀ (s : ℚ), (s = 0 ∨ 1 / 2 ^ 149 ≤ s) → (∀ v ∈ l, AbsVal v) →
    l.foldl add (fin s) = nan ∨ l.foldl add (fin s) = inf false ∨
    ∃ (s' : ℚ) (qs : List ℚ), l.foldl add (fin s) = fin s' ∧ l = qs.map fin ∧ (∀ q ∈ qs, q = 0 ∨ 1 / 2 ^ 149 ≤ q) ∧
      s + qs.sum ≤ sumC l.length * s' + sumD l.length ∧ (s < 2 ^ 128 → s' < 2 ^ 128) ∧
      (s' = 0 ∨ 1 / 2 ^ 149 ≤ s') ∧ (s' = 0 → s = 0 ∧ ∀ q ∈ qs, q = 0) := by
  induction l with
  | nil =>
    intro s hs _
    exact .inr (.inr ⟨s, [], rfl, rfl, by simp, by simp [sumC, sumD], id, hs, fun h => ⟨h, by simp⟩⟩)
  | cons a l ih =>
    intro s hs h
    have hl := fun v hv => h v (List.mem_cons_of_mem _ hv)
    rw [List.foldl_cons]
    have hs0 : 0 ≤ s := by
      rcases hs with rfl | hs
      · exact le_refl _
      · exact le_trans (by positivity) hs
    rcases h a (by simp) with rfl | rfl | ⟨q, rfl, hq⟩
    · left; exact foldl_add_nan l
    · rcases foldl_add_inf l hl with e | e
      · left; exact e
      · right; left; exact e
    · have hq0 : 0 ≤ q := by
        rcases hq with rfl | hq
        · exact le_refl _
        · exact le_trans (by positivity) hq
      show List.foldl add (rnd (s + q)) l = _ ∨ List.foldl add (rnd (s + q)) l = _ ∨ _
      rcases rnd_cases (show 0 ≤ s + q by linarith) with e | ⟨e, hlt⟩
      · rw [e]
        rcases foldl_add_inf l hl with e | e
        · left; exact e
        · right; left; exact e
      · rw [e]
        have hs1 : rndQ (s + q) = 0 ∨ 1 / 2 ^ 149 ≤ rndQ (s + q) := by
          rcases hs with hs | hs
          · rcases hq with hq | hq
            · left; rw [hs, hq, add_zero, rndQ_zero]
            · right; exact tiny_le_rndQ (by linarith)
          · right; exact tiny_le_rndQ (by linarith)
        rcases ih (rndQ (s + q)) hs1 hl with e1 | e1 | ⟨s', qs, e1, e2, e3, e4, e5, e6, e7⟩
        · left; exact e1
        · right; left; exact e1
        · right; right
          refine ⟨s', q :: qs, (show List.foldl add (rnd (s + q)) l = _ by rw [e]; exact e1), by rw [e2]; rfl, ?_, ?_, fun _ => e5 hlt, e6, ?_⟩
          · intro x hx
            rcases List.mem_cons.1 hx with rfl | hx
            · exact hq
            · exact e3 x hx
          · have h1 := rndQ_inv_err (show 0 ≤ s + q by linarith)
            have hsum : 0 ≤ qs.sum := List.sum_nonneg fun x hx => by
              rcases e3 x hx with h | h
              · exact h.ge
              · exact le_trans (by positivity) h
            have h2 : (1 + 1 / 2 ^ 23) * (rndQ (s + q) + qs.sum) ≤ (1 + 1 / 2 ^ 23) * (sumC l.length * s' + sumD l.length) :=
              mul_le_mul_of_nonneg_left e4 (by norm_num)
            rw [List.sum_cons, List.length_cons, sumC, sumD]
            nlinarith
          · intro h0
            obtain ⟨h1, h2⟩ := e7 h0
            have h3 : s + q = 0 := by
              by_contra hne
              have : 1 / 2 ^ 149 ≤ s + q := by
                rcases hs with hs | hs
                · rcases hq with hq | hq
                  · exact absurd (by rw [hs, hq, add_zero]) hne
                  · linarith
                · linarith
              have := tiny_le_rndQ this
              rw [h1] at this
              norm_num at this
            refine ⟨by linarith, ?_⟩
            intro x hx
            rcases List.mem_cons.1 hx with rfl | hx
            · linarith
            · exact h2 x hx

end Lc3.F32
