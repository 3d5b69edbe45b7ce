import Verif.Lemmas.SnsPulses
import Verif.Lemmas.SnsInverse
import Verif.Model.ScalarReal
import Verif.Spec.SnsQuant
import Mathlib.Tactic.Linarith
/-! The pulse search in exact arithmetic. -/

namespace Lc3
open Spec Tables Scalar

theorem correlation_addPulse : ∀ (x : List ℝ) (y : List Int) (n : Nat), n < y.length →
    correlation x (addPulse y n) = correlation x y + x.getD n 0
  | [], y, n, _ => by simp [correlation]
  | a :: x, [], n, h => by simp at h
  | a :: x, b :: y, 0, _ => by
    simp only [correlation, addPulse, List.set_cons_zero, List.getD_cons_zero, List.zip_cons_cons, List.map_cons, List.sum_cons]
    push_cast
    ring
  | a :: x, b :: y, n + 1, h => by
    have := correlation_addPulse x y n (by simpa using h)
    simp only [correlation, addPulse, List.set_cons_succ, List.getD_cons_succ, List.zip_cons_cons, List.map_cons, List.sum_cons] at this ⊢
    rw [this]
    ring

theorem pulseEnergy_addPulse : ∀ (y : List Int) (n : Nat), n < y.length →
    pulseEnergy (addPulse y n) = pulseEnergy y + 2 * (y.getD n 0 : ℝ) + 1
  | [], n, h => by simp at h
  | b :: y, 0, _ => by
    simp only [pulseEnergy, addPulse, List.set_cons_zero, List.getD_cons_zero, List.map_cons, List.sum_cons]
    push_cast
    ring
  | b :: y, n + 1, h => by
    have := pulseEnergy_addPulse y n (by simpa using h)
    simp only [pulseEnergy, addPulse, List.set_cons_succ, List.getD_cons_succ, List.map_cons, List.sum_cons] at this ⊢
    rw [this]
    ring

theorem addPulse_length (y : List Int) (n : Nat) : (addPulse y n).length = y.length := by simp [addPulse]

/-- with the true correlation and energy at the beginning the search is the greedy one -/
theorem greedyFrom_greedy {x : List ℝ} {m r : Nat} {c e c' e' : ℝ} {y z : List Int} (h : GreedyFrom x m r c e y c' e' z)
    (hm : m ≤ y.length) (hc : c = correlation x y) (he : e = pulseEnergy y) :
    Greedy x m r y z ∧ c' = correlation x z ∧ e' = pulseEnergy z := by
  induction h with
  | done c e y => exact ⟨.done y, hc, he⟩
  | @step r n c e c' e' y z hn best next ih =>
    obtain ⟨i1, i2, i3⟩ := ih (by rw [addPulse_length]; exact hm)
      (by rw [correlation_addPulse _ _ _ (by omega), hc]) (by rw [pulseEnergy_addPulse _ _ (by omega), he])
    refine ⟨.step ⟨hn, ?_⟩ i1, i2, i3⟩
    intro k hk
    rw [correlation_addPulse _ _ _ (by omega), correlation_addPulse _ _ _ (by omega), pulseEnergy_addPulse _ _ (by omega),
      pulseEnergy_addPulse _ _ (by omega), ← hc, ← he]
    exact best k hk

theorem snsLt_real (a b : ℝ) : (lt a b = true) ↔ a < b := by
  show (open Classical in decide (a < b)) = true ↔ _
  rw [decide_eq_true_iff]

theorem snsOfInt_real (z : Int) : (ofInt z : ℝ) = (z : ℝ) := by show (((z : ℤ) : ℚ) : ℝ) = _; push_cast; rfl

theorem snsOne_real : (one : ℝ) = 1 := by show ((1 : ℚ) : ℝ) = 1; push_cast; rfl

theorem snsTwo_real : (ofRat 2 : ℝ) = 2 := by show ((2 : ℚ) : ℝ) = 2; push_cast; rfl

/-- the best of the first `n` positions -/
def BestOf (f g : Nat → ℝ) (n nb : Nat) : Prop :=
  nb < n ∧ ∀ k, k < n → f k * g nb ≤ f nb * g k ∧ (k < nb → f k * g nb < f nb * g k)

theorem BestOf.succ {f g : Nat → ℝ} {n nb : Nat} (hg : ∀ k, k ≤ n → 0 < g k) (h : BestOf f g n nb) :
    BestOf f g (n + 1) (open Classical in if f nb * g n < f n * g nb then n else nb) := by
  obtain ⟨h1, h2⟩ := h
  split
  · rename_i hl
    refine ⟨by omega, ?_⟩
    intro k hk
    have hgn := hg n (le_refl _)
    have hgb := hg nb (by omega)
    by_cases hkn : k = n
    · subst hkn; exact ⟨le_refl _, fun h => absurd h (lt_irrefl _)⟩
    · have hgk := hg k (by omega)
      have h3 := (h2 k (by omega)).1
      have : f k * g n < f n * g k := by
        have h4 : f k * g nb * g n ≤ f nb * g k * g n := mul_le_mul_of_nonneg_right h3 hgn.le
        have h5 : f nb * g n * g k < f n * g nb * g k := mul_lt_mul_of_pos_right hl hgk
        have h6 : (f k * g n) * g nb < (f n * g k) * g nb := by linarith
        exact lt_of_mul_lt_mul_right h6 hgb.le
      exact ⟨this.le, fun _ => this⟩
  · rename_i hl
    refine ⟨by omega, ?_⟩
    intro k hk
    by_cases hkn : k = n
    · subst hkn; exact ⟨not_lt.1 hl, fun h => by omega⟩
    · exact h2 k (by omega)

theorem pulseScan_real {X : List ℝ} {C : List Int} {m : Nat} (hX : m ≤ X.length) (hC : m ≤ C.length) (cl el : ℝ)
    (hg : ∀ k, k < m → 0 < el + 2 * (C.getD k 0 : ℝ) + 1) :
    ∀ (d n nb : Nat) (ce : ℝ × ℝ), n + d = m → 1 ≤ n →
      BestOf (fun k => (cl + X.getD k 0) ^ 2) (fun k => el + 2 * (C.getD k 0 : ℝ) + 1) n nb →
      ∃ nb' ce', pulseScan cl el ((X.take m).drop n) (C.drop n) n
          (nb, (cl + X.getD nb 0) * (cl + X.getD nb 0), el + 2 * (C.getD nb 0 : ℝ) + 1) ce = .ok (nb', ce') ∧
        BestOf (fun k => (cl + X.getD k 0) ^ 2) (fun k => el + 2 * (C.getD k 0 : ℝ) + 1) m nb' ∧
        (if d = 0 then ce' = ce else ce' = (cl + X.getD (m - 1) 0, el + 2 * (C.getD (m - 1) 0 : ℝ) + 1)) := by
  intro d
  induction d with
  | zero =>
    rintro n nb ⟨c, e⟩ hn _ hb
    have : (X.take m).drop n = [] := by simp; omega
    rw [this]
    refine ⟨nb, (c, e), by unfold pulseScan; rfl, ?_, by simp⟩
    have : n = m := by omega
    rwa [this] at hb
  | succ d ih =>
    rintro n nb ⟨c, e⟩ hn h1 hb
    have hXn : (X.take m).drop n = X.getD n 0 :: (X.take m).drop (n + 1) := by
      rw [List.drop_eq_getElem_cons (by rw [List.length_take]; omega), List.getElem_take, List.getD_eq_getElem _ _ (by omega)]
    have hCn : C.drop n = C.getD n 0 :: C.drop (n + 1) := by
      rw [List.drop_eq_getElem_cons (by omega), List.getD_eq_getElem _ _ (by omega)]
    rw [hXn, hCn]
    unfold pulseScan
    simp only
    rw [snsOfInt_real, snsOne_real, snsTwo_real]
    have hs := hb.succ fun k hk => hg k (by omega)
    have key : (if lt ((cl + X.getD nb 0) * (cl + X.getD nb 0) * (el + 2 * (C.getD n 0 : ℝ) + 1))
          ((cl + X.getD n 0) * (cl + X.getD n 0) * (el + 2 * (C.getD nb 0 : ℝ) + 1)) = true
        then (n, (cl + X.getD n 0) * (cl + X.getD n 0), el + 2 * (C.getD n 0 : ℝ) + 1)
        else (nb, (cl + X.getD nb 0) * (cl + X.getD nb 0), el + 2 * (C.getD nb 0 : ℝ) + 1)) =
        (fun b : Nat => (b, (cl + X.getD b 0) * (cl + X.getD b 0), el + 2 * (C.getD b 0 : ℝ) + 1))
          (open Classical in if (cl + X.getD nb 0) ^ 2 * (el + 2 * (C.getD n 0 : ℝ) + 1) <
            (cl + X.getD n 0) ^ 2 * (el + 2 * (C.getD nb 0 : ℝ) + 1) then n else nb) := by
      simp only [snsLt_real, ← pow_two]
      split <;> rfl
    rw [key]
    obtain ⟨nb', ce', e1, e2, e3⟩ := ih (n + 1) _ (cl + X.getD n 0, el + 2 * (C.getD n 0 : ℝ) + 1) (by omega) (by omega) hs
    refine ⟨nb', ce', e1, e2, ?_⟩
    rw [if_neg (by omega)]
    split at e3
    · rename_i hd
      rw [e3, show m - 1 = n by omega]
    · exact e3

/-- `add_unit_pulse` in exact arithmetic: the pulses are the greedy ones for the correlation and energy it was given; the correlation
and energy it hands back are those of a pulse at the last position instead of the last pulse chosen. -/
theorem addUnitPulse_real {X : List ℝ} {m : Nat} (hX : X.length = 16) (hm : 2 ≤ m) (hm' : m ≤ 16) :
    ∀ (r : Nat) (y : List Int) (cl el c e : ℝ) (z : List Int) (c' e' : ℝ), m ≤ y.length → (∀ v ∈ y, 0 ≤ v) → -1 < el →
      addUnitPulse X m r y cl el c e = .ok (z, c', e') →
      (r = 0 → z = y ∧ c' = c ∧ e' = e) ∧
      ∀ r', r = r' + 1 → ∃ q cq eq cz ez, GreedyFrom X m r' cl el y cq eq q ∧ GreedyFrom X m 1 cq eq q cz ez z ∧
        c' = cq + X.getD (m - 1) 0 ∧ e' = eq + 2 * (q.getD (m - 1) 0 : ℝ) + 1 := by
  intro r
  induction r with
  | zero =>
    intro y cl el c e z c' e' _ _ _ h
    unfold addUnitPulse at h
    simp only [Res.ok.injEq, Prod.mk.injEq] at h
    exact ⟨fun _ => ⟨h.1.symm, h.2.1.symm, h.2.2.symm⟩, fun r' hr => by omega⟩
  | succ r ih =>
    intro y cl el c e z c' e' hl h0 hel h
    refine ⟨fun hr => by omega, ?_⟩
    intro r' hr
    obtain rfl : r = r' := by omega
    have hnn : ∀ k, 0 ≤ y.getD k 0 := by
      intro k
      rcases lt_or_ge k y.length with hk | hk
      · rw [List.getD_eq_getElem _ _ hk]; exact h0 _ (List.getElem_mem _)
      · rw [List.getD_eq_default _ _ hk]
    have hg : ∀ k, k < m → 0 < el + 2 * (y.getD k 0 : ℝ) + 1 := by
      intro k _
      have : (0 : ℝ) ≤ (y.getD k 0 : ℝ) := by exact_mod_cast hnn k
      linarith
    unfold addUnitPulse at h
    rw [idx_eq_ok (by omega : 0 < X.length), idx_eq_ok (by omega : 0 < y.length)] at h
    simp only [Res.bind_ok] at h
    simp only [snsOfInt_real, snsOne_real, snsTwo_real] at h
    rw [← List.getD_eq_getElem (d := 0) y (by omega : 0 < y.length), ← List.getD_eq_getElem (d := (0 : ℝ)) X (by omega : 0 < X.length)] at h
    obtain ⟨nb, ce, e1, e2, e3⟩ := pulseScan_real (by omega : m ≤ X.length) hl cl el hg (m - 1) 1 0 (cl + X.getD 0 0, e) (by omega)
      (le_refl _) ⟨by omega, fun k hk => by
        have : k = 0 := by omega
        subst this
        exact ⟨le_refl _, fun h => absurd h (lt_irrefl _)⟩⟩
    rw [if_neg (by omega)] at e3
    rw [e1] at h
    simp only [Res.bind_ok] at h
    have hnb : nb < m := e2.1
    rw [idx_eq_ok (by omega : nb < X.length), idx_eq_ok (by omega : nb < y.length)] at h
    simp only [Res.bind_ok] at h
    rw [← List.getD_eq_getElem (d := 0) y (by omega : nb < y.length), ← List.getD_eq_getElem (d := (0 : ℝ)) X (by omega : nb < X.length)] at h
    obtain ⟨v, hv, h⟩ := bind_ok_inv h
    have hv' : v = y.getD nb 0 + 1 := by
      unfold i32Chk at hv
      split at hv
      · simpa using hv.symm
      · cases hv
    subst hv'
    have hset : setIdx y nb (y.getD nb 0 + 1) = .ok (addPulse y nb) := by
      unfold setIdx addPulse; rw [if_pos (by omega)]
    rw [hset] at h
    simp only [Res.bind_ok] at h
    have hpos : ∀ v ∈ addPulse y nb, 0 ≤ v := by
      intro v hv
      rcases List.mem_or_eq_of_mem_set hv with hv | rfl
      · exact h0 v hv
      · have := hnn nb; omega
    have hel' : (-1 : ℝ) < el + 2 * (y.getD nb 0 : ℝ) + 1 := by have := hg nb hnb; linarith
    obtain ⟨i1, i2⟩ := ih _ _ _ _ _ z c' e' (by rw [addPulse_length]; exact hl) hpos hel' h
    have hbest := e2.2
    rcases Nat.eq_zero_or_pos r with hr0 | hr0
    · obtain ⟨j1, j2, j3⟩ := i1 hr0
      subst hr0
      refine ⟨y, cl, el, _, _, .done _ _ _, by rw [j1]; exact .step hnb hbest (.done _ _ _), ?_, ?_⟩
      · rw [j2, e3]
      · rw [j3, e3]
    · obtain ⟨q, cq, eq, cz, ez, k1, k2, k3, k4⟩ := i2 (r - 1) (by omega)
      refine ⟨q, cq, eq, cz, ez, ?_, k2, k3, k4⟩
      obtain ⟨r2, rfl⟩ : ∃ r2, r = r2 + 1 := ⟨r - 1, by omega⟩
      exact .step hnb hbest k1

end Lc3
