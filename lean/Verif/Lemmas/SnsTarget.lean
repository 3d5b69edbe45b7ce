import Verif.Model.EncSns
import Verif.Model.EncMdct
import Verif.Lemmas.TnsStable
import Verif.Lemmas.SnsRotation
import Verif.Spec.SnsTarget
import Mathlib.Tactic.IntervalCases
/-! The steps from the band energies to the scale factors, compared with their specification. -/

namespace Lc3
open Scalar Spec

theorem held_mid {n : ℕ} {x : ℕ → ℝ} {i : ℤ} (h1 : i < n) : held n x i = x i.toNat := by
  unfold held
  rw [min_eq_left (by omega)]

theorem held_low {n : ℕ} {x : ℕ → ℝ} {i : ℤ} (h1 : i ≤ 0) (hn : 0 < n) : held n x i = x 0 := by
  rw [held_mid (by omega)]
  congr 1; omega

theorem held_at {n : ℕ} {x : ℕ → ℝ} {i : ℤ} (m : ℕ) (h : i = m) (h1 : m < n) : held n x i = x m := by
  rw [held_mid (by omega)]
  congr 1; omega

theorem held_high {n : ℕ} {x : ℕ → ℝ} {i : ℤ} (h1 : (n : ℤ) ≤ i + 1) : held n x i = x (n - 1) := by
  unfold held
  rw [min_eq_right (by omega)]
  congr 1; omega

theorem at0_real (l : List ℝ) (i : Nat) : at0 l i = l.getD i 0 := by
  unfold at0
  rw [show (zero : ℝ) = 0 from Rat.cast_zero]

theorem snsSmooth_real (x : List ℝ) {b : Nat} (hb : b < 64) :
    (snsSmooth x).getD b 0 = smoothed (fun i => x.getD i 0) b := by
  have q1 : (ofRat (1 / 4) : ℝ) = 1 / 4 := by show ((1 / 4 : ℚ) : ℝ) = _; norm_num
  have q2 : (ofRat (1 / 2) : ℝ) = 1 / 2 := by show ((1 / 2 : ℚ) : ℝ) = _; norm_num
  have q3 : (ofRat (3 / 4) : ℝ) = 3 / 4 := by show ((3 / 4 : ℚ) : ℝ) = _; norm_num
  unfold snsSmooth smoothed
  simp only [at0_real, q1, q2, q3]
  rcases Nat.eq_zero_or_pos b with rfl | h0
  · rw [held_low (by norm_num) (by norm_num), held_low (by norm_num) (by norm_num), held_at 1 (by norm_num) (by norm_num)]
    simp only [List.cons_append, List.getD_cons_zero]
    norm_num
    ring
  · by_cases h1 : b = 63
    · subst h1
      rw [held_at 62 (by norm_num) (by norm_num), held_at 63 (by norm_num) (by norm_num), held_high (by norm_num)]
      rw [List.getD_append_right _ _ _ _ (by simp)]
      simp only [List.length_cons, List.length_map, List.length_range]
      norm_num
      ring
    · obtain ⟨c, rfl⟩ : ∃ c, b = c + 1 := ⟨b - 1, by omega⟩
      rw [held_mid (by push_cast; omega), held_mid (by push_cast; omega), held_mid (by push_cast; omega)]
      rw [List.getD_append _ _ _ _ (by simp; omega), List.getD_cons_succ, List.getD_eq_getElem _ _ (by simp; omega),
        List.getElem_map, List.getElem_range]
      rw [show (((c + 1 : ℕ) : ℤ) - 1).toNat = c by omega, show (((c + 1 : ℕ) : ℤ)).toNat = c + 1 by omega,
        show (((c + 1 : ℕ) : ℤ) + 1).toNat = c + 2 by omega]
      ring

theorem weighting_real : (WEIGHTING : List ℝ) = [1 / 12, 2 / 12, 3 / 12, 3 / 12, 2 / 12, 1 / 12] := by
  unfold WEIGHTING
  have : ∀ q : ℚ, (ofRat q : ℝ) = (q : ℝ) := fun _ => rfl
  simp only [this]
  norm_num

theorem weighted_six : ∀ (l : List ℝ), 6 ≤ l.length →
    ((WEIGHTING : List ℝ).zip l).foldl (fun s p => s + p.1 * p.2) zero =
      (l.getD 0 0 + 2 * l.getD 1 0 + 3 * l.getD 2 0 + 3 * l.getD 3 0 + 2 * l.getD 4 0 + l.getD 5 0) / 12
  | a :: b :: c :: d :: e :: f :: l, _ => by
    rw [weighting_real, show (zero : ℝ) = 0 from Rat.cast_zero]
    simp only [List.zip_cons_cons, List.foldl_cons, List.zip_nil_left, List.foldl_nil, List.getD_cons_zero, List.getD_cons_succ]
    ring
  | [], h | [_], h | [_, _], h | [_, _, _], h | [_, _, _, _], h | [_, _, _, _, _], h => by simp at h

theorem grouped_eq (L : ℕ → ℝ) (n : ℕ) : grouped L n =
    (held 64 L (4 * n - 1) + 2 * held 64 L (4 * n) + 3 * held 64 L (4 * n + 1) + 3 * held 64 L (4 * n + 2) +
      2 * held 64 L (4 * n + 3) + held 64 L (4 * n + 4)) / 12 := by
  unfold grouped
  simp only [Finset.sum_range_succ, Finset.sum_range_zero]
  have e0 : (4 * (n : ℤ) + (0 : ℕ) - 1) = 4 * n - 1 := by omega
  have e1 : (4 * (n : ℤ) + (1 : ℕ) - 1) = 4 * n := by omega
  have e2 : (4 * (n : ℤ) + (2 : ℕ) - 1) = 4 * n + 1 := by omega
  have e3 : (4 * (n : ℤ) + (3 : ℕ) - 1) = 4 * n + 2 := by omega
  have e4 : (4 * (n : ℤ) + (4 : ℕ) - 1) = 4 * n + 3 := by omega
  have e5 : (4 * (n : ℤ) + (5 : ℕ) - 1) = 4 * n + 4 := by omega
  rw [e0, e1, e2, e3, e4, e5]
  norm_num

theorem snsDownsample_real {e : List ℝ} (he : e.length = 64) {n : Nat} (hn : n < 16) :
    (snsDownsample e).getD n 0 = grouped (fun i => e.getD i 0) n := by
  rw [grouped_eq]
  unfold snsDownsample
  rcases Nat.eq_zero_or_pos n with rfl | h0
  · rw [held_low (by norm_num) (by norm_num), held_low (by norm_num) (by norm_num), held_at 1 (by norm_num) (by norm_num),
      held_at 2 (by norm_num) (by norm_num), held_at 3 (by norm_num) (by norm_num), held_at 4 (by norm_num) (by norm_num)]
    simp only [List.cons_append, List.getD_cons_zero, at0_real, weighting_real]
    simp only [show List.range 5 = [0, 1, 2, 3, 4] from rfl, List.foldl_cons, List.foldl_nil, List.getD_cons_zero, List.getD_cons_succ]
    norm_num
    ring
  · by_cases h1 : n = 15
    · subst h1
      rw [held_at 59 (by norm_num) (by norm_num), held_at 60 (by norm_num) (by norm_num), held_at 61 (by norm_num) (by norm_num),
        held_at 62 (by norm_num) (by norm_num), held_at 63 (by norm_num) (by norm_num), held_high (by norm_num)]
      rw [List.getD_append_right _ _ _ _ (by simp)]
      simp only [List.length_cons, List.length_map, List.length_range, at0_real, weighting_real]
      simp only [show List.range 5 = [0, 1, 2, 3, 4] from rfl, List.foldl_cons, List.foldl_nil, List.getD_cons_zero, List.getD_cons_succ]
      norm_num
      ring
    · obtain ⟨c, rfl⟩ : ∃ c, n = c + 1 := ⟨n - 1, by omega⟩
      rw [held_mid (by push_cast; omega), held_mid (by push_cast; omega), held_mid (by push_cast; omega), held_mid (by push_cast; omega),
        held_mid (by push_cast; omega), held_mid (by push_cast; omega)]
      rw [List.getD_append _ _ _ _ (by simp; omega), List.getD_cons_succ, List.getD_eq_getElem _ _ (by simp; omega),
        List.getElem_map, List.getElem_range, weighted_six _ (by rw [List.length_drop]; omega)]
      have g : ∀ k, (e.drop (4 * (c + 1) - 1)).getD k 0 = e.getD (4 * c + 3 + k) 0 := by
        intro k
        rw [List.getD_eq_getElem?_getD, List.getElem?_drop, ← List.getD_eq_getElem?_getD,
          show 4 * (c + 1) - 1 + k = 4 * c + 3 + k by omega]
      simp only [g]
      rw [show (4 * ((c + 1 : ℕ) : ℤ) - 1).toNat = 4 * c + 3 + 0 by omega, show (4 * ((c + 1 : ℕ) : ℤ)).toNat = 4 * c + 3 + 1 by omega,
        show (4 * ((c + 1 : ℕ) : ℤ) + 1).toNat = 4 * c + 3 + 2 by omega, show (4 * ((c + 1 : ℕ) : ℤ) + 2).toNat = 4 * c + 3 + 3 by omega,
        show (4 * ((c + 1 : ℕ) : ℤ) + 3).toNat = 4 * c + 3 + 4 by omega, show (4 * ((c + 1 : ℕ) : ℤ) + 4).toNat = 4 * c + 3 + 5 by omega]

theorem sumS_range (l : List ℝ) : sumS l = ∑ n ∈ Finset.range l.length, l.getD n 0 := by
  unfold sumS
  rw [show (zero : ℝ) = 0 from Rat.cast_zero]
  have h : ∀ (l : List ℝ) (a : ℝ), l.foldl (· + ·) a = a + ∑ n ∈ Finset.range l.length, l.getD n 0 := by
    intro l
    induction l with
    | nil => intro a; simp
    | cons b l ih =>
      intro a
      rw [List.foldl_cons, ih, List.length_cons, Finset.sum_range_succ']
      simp only [List.getD_cons_succ, List.getD_cons_zero]
      ring
  rw [h, zero_add]

theorem centred_real {y : List ℝ} (hy : y.length = 16) (c : ℝ) {n : Nat} (hn : n < 16) :
    (y.map fun x => c * (x - sumS y / ofInt y.length)).getD n 0 = c * (y.getD n 0 - mean16 fun i => y.getD i 0) := by
  have i16 : (ofInt (y.length : ℤ) : ℝ) = 16 := by rw [hy]; show (((16 : ℤ) : ℚ) : ℝ) = _; norm_num
  have m : sumS y / ofInt y.length = mean16 fun i => y.getD i 0 := by
    rw [i16, sumS_range, hy]; rfl
  rw [m, List.getD_eq_getElem _ _ (by simp; omega), List.getElem_map, List.getD_eq_getElem y _ (by omega)]

theorem mean16_congr {y z : ℕ → ℝ} (h : ∀ n < 16, y n = z n) : mean16 y = mean16 z := by
  unfold mean16
  rw [Finset.sum_congr rfl fun n hn => h n (Finset.mem_range.1 hn)]

theorem neighbours_congr {y z : ℕ → ℝ} (h : ∀ n < 16, y n = z n) (n : ℕ) : neighbours y n = neighbours z n := by
  unfold neighbours
  rw [Finset.sum_congr rfl fun n hn => h n (Finset.mem_range.1 (Finset.mem_filter.1 hn).1)]

theorem snsMeanRemoval_real {y : List ℝ} (hy : y.length = 16) {n : Nat} (hn : n < 16) :
    (snsMeanRemoval y).getD n 0 = 17 / 20 * (y.getD n 0 - mean16 fun i => y.getD i 0) := by
  have q : (ofRat (17 / 20) : ℝ) = 17 / 20 := by show ((17 / 20 : ℚ) : ℝ) = _; norm_num
  unfold snsMeanRemoval
  simp only [q]
  exact centred_real hy _ hn

theorem snsAttack_list {x : List ℝ} (hx : x.length = 16) :
    ([(at0 x 0 + at0 x 1 + at0 x 2) / ofRat 3, (at0 x 0 + at0 x 1 + at0 x 2 + at0 x 3) / ofRat 4] ++
      ((List.range 12).map fun n => sumS ((x.drop n).take 5) / ofRat 5) ++
      [(at0 x 12 + at0 x 13 + at0 x 14 + at0 x 15) / ofRat 4, (at0 x 13 + at0 x 14 + at0 x 15) / ofRat 3] : List ℝ) =
    (List.range 16).map (neighbours fun i => x.getD i 0) := by
  match x, hx with
  | [x0, x1, x2, x3, x4, x5, x6, x7, x8, x9, x10, x11, x12, x13, x14, x15], _ =>
    have q : ∀ q : ℚ, (ofRat q : ℝ) = (q : ℝ) := fun _ => rfl
    have hf : ∀ n, (Finset.range 16).filter (fun m => m ≤ n + 2 ∧ n ≤ m + 2) = (Finset.Icc (n - 2) (min (n + 2) 15)) := by
      intro n
      ext m
      simp only [Finset.mem_filter, Finset.mem_range, Finset.mem_Icc]
      omega
    simp only [show List.range 12 = [0, 1, 2, 3, 4, 5, 6, 7, 8, 9, 10, 11] from rfl,
      show List.range 16 = [0, 1, 2, 3, 4, 5, 6, 7, 8, 9, 10, 11, 12, 13, 14, 15] from rfl, List.map_cons, List.map_nil,
      List.cons_append, List.nil_append, neighbours, hf, at0_real, sumS, List.drop_succ_cons, List.drop_zero, List.take_succ_cons,
      List.take_zero, List.foldl_cons, List.foldl_nil, show (zero : ℝ) = 0 from Rat.cast_zero, List.getD_cons_succ, List.getD_cons_zero, q,
      Nat.card_Icc]
    norm_num [Finset.sum_Icc_succ_top, Finset.Icc_self]

theorem snsAttack_real {x : List ℝ} (hx : x.length = 16) (dur : FrameDuration) {n : Nat} (hn : n < 16) :
    (snsAttack true dur x).getD n 0 = (match dur with | .tenMs => 1 / 2 | .sevenPointFiveMs => 3 / 10) *
      (neighbours (fun i => x.getD i 0) n - mean16 (neighbours fun i => x.getD i 0)) := by
  have q1 : (ofRat (1 / 2) : ℝ) = 1 / 2 := by show ((1 / 2 : ℚ) : ℝ) = _; norm_num
  have q2 : (ofRat (3 / 10) : ℝ) = 3 / 10 := by show ((3 / 10 : ℚ) : ℝ) = _; norm_num
  unfold snsAttack
  rw [if_pos rfl]
  simp only [snsAttack_list hx]
  have g : ∀ i < 16, ((List.range 16).map (neighbours fun i => x.getD i 0)).getD i 0 = neighbours (fun i => x.getD i 0) i := by
    intro i hi
    rw [List.getD_eq_getElem _ _ (by simp; omega), List.getElem_map, List.getElem_range]
  cases dur <;> simp only [q1, q2] <;> rw [centred_real (by simp) _ hn, g n hn, mean16_congr g]

/-- lists that agree below 64 have the same groups -/
theorem held_congr {x y : ℕ → ℝ} (h : ∀ n < 64, x n = y n) (i : ℤ) : held 64 x i = held 64 y i := by
  unfold held
  exact h _ (by omega)

theorem grouped_congr {x y : ℕ → ℝ} (h : ∀ n < 64, x n = y n) (n : ℕ) : grouped x n = grouped y n := by
  unfold grouped
  simp only [held_congr h]

theorem snsSmooth_length (x : List ℝ) : (snsSmooth x).length = 64 := by simp [snsSmooth]

theorem snsDownsample_length (x : List ℝ) : (snsDownsample x).length = 16 := by simp [snsDownsample]

/-- the tilted energies -/
theorem tilted_real (fs : ℕ) (ex : ℝ) (hex : ex = (14 + 4 * fs) / 630) (x : List ℝ) {b : Nat} (hb : b < 64) :
    ((snsSmooth x).zipIdx.map fun p => p.1 * pow10 (ofInt (p.2 : ℤ) * ex)).getD b 0 = tilted fs (fun i => x.getD i 0) b := by
  rw [List.getD_eq_getElem _ _ (by simp [snsSmooth_length]; omega), List.getElem_map, List.getElem_zipIdx]
  simp only [Nat.zero_add]
  rw [← List.getD_eq_getElem (snsSmooth x) 0 (by rw [snsSmooth_length]; omega), snsSmooth_real x hb]
  unfold tilted
  congr 1
  show (10 : ℝ) ^ ((((b : ℤ) : ℚ) : ℝ) * ex) = _
  congr 1
  rw [hex]
  push_cast
  ring

end Lc3
