import Verif.Lemmas.SnsEnum
import Mathlib.Tactic.Ring
/-! The pulse search of the encoder: number of pulses. -/

namespace Lc3
open Scalar Tables

variable {α : Type} [Scalar α]

theorem pulseScan_ok (cl el : α) : ∀ (xs : List α) (cs : List Int) (n : Nat) (b : Nat × α × α) (ce : α × α),
    xs.length ≤ cs.length → ∃ nb c e, pulseScan cl el xs cs n b ce = .ok (nb, c, e) ∧ (nb = b.1 ∨ n ≤ nb ∧ nb < n + xs.length) := by
  intro xs
  induction xs with
  | nil =>
    rintro cs n ⟨nb, sq, en⟩ ⟨c, e⟩ _
    exact ⟨nb, c, e, by unfold pulseScan; rfl, .inl rfl⟩
  | cons x xs ih =>
    rintro cs n ⟨nb, sq, en⟩ ⟨c, e⟩ hl
    match cs with
    | [] => simp at hl
    | d :: cs =>
      unfold pulseScan
      obtain ⟨nb', c', e', h1, h2⟩ := ih cs (n + 1)
        (if lt (sq * (el + ofRat 2 * ofInt d + one)) ((cl + x) * (cl + x) * en) then (n, (cl + x) * (cl + x), el + ofRat 2 * ofInt d + one)
          else (nb, sq, en)) (cl + x, el + ofRat 2 * ofInt d + one) (by simpa using hl)
      refine ⟨nb', c', e', h1, ?_⟩
      simp only [List.length_cons]
      rcases h2 with h2 | h2
      · split at h2
        · right; simp only at h2; omega
        · left; exact h2
      · right; omega

theorem pulseSum_set {l : List Int} {i : Nat} (hi : i < l.length) (h0 : 0 ≤ l[i]) :
    pulseSum (l.set i (l[i] + 1)) = pulseSum l + 1 := by
  induction l generalizing i with
  | nil => simp at hi
  | cons a l ih =>
    cases i with
    | zero =>
      simp only [List.set_cons_zero, List.getElem_cons_zero, pulseSum_cons] at h0 ⊢
      omega
    | succ i =>
      simp only [List.set_cons_succ, List.getElem_cons_succ, pulseSum_cons] at h0 ⊢
      rw [ih (by simpa using hi) h0]
      omega

theorem le_pulseSum {l : List Int} {x : Int} (h : x ∈ l) : x.natAbs ≤ pulseSum l := by
  induction l with
  | nil => simp at h
  | cons a l ih =>
    rw [pulseSum_cons]
    rcases List.mem_cons.1 h with rfl | h
    · omega
    · have := ih h; omega

theorem addUnitPulse_ok {absX : List α} {nMax : Nat} (hx : absX.length = 16) (hn : 1 ≤ nMax) (hn' : nMax ≤ 16) :
    ∀ (r : Nat) (cand : List Int) (cl el c e : α), nMax ≤ cand.length → (∀ x ∈ cand, 0 ≤ x) → pulseSum cand + r ≤ 1000 →
    ∃ cand' c' e', addUnitPulse absX nMax r cand cl el c e = .ok (cand', c', e') ∧ cand'.length = cand.length ∧
      (∀ x ∈ cand', 0 ≤ x) ∧ pulseSum cand' = pulseSum cand + r := by
  intro r
  induction r with
  | zero =>
    intro cand cl el c e _ h0 _
    exact ⟨cand, c, e, rfl, rfl, h0, rfl⟩
  | succ r ih =>
    intro cand cl el c e hl h0 hs
    unfold addUnitPulse
    rw [idx_eq_ok (by omega : 0 < absX.length), idx_eq_ok (by omega : 0 < cand.length)]
    simp only [Res.bind_ok]
    obtain ⟨nb, c1, e1, h1, h2⟩ := pulseScan_ok cl el ((absX.take nMax).drop 1) (cand.drop 1) 1
      (0, (cl + absX[0]) * (cl + absX[0]), el + ofRat 2 * ofInt cand[0] + one) (cl + absX[0], e) (by simp; omega)
    have hnb : nb < nMax := by
      rcases h2 with h2 | h2
      · simp only at h2; omega
      · simp at h2; omega
    rw [h1]
    simp only [Res.bind_ok]
    rw [idx_eq_ok (by omega : nb < absX.length), idx_eq_ok (by omega : nb < cand.length)]
    simp only [Res.bind_ok]
    have hc0 := h0 cand[nb] (List.getElem_mem _)
    have hcs := le_pulseSum (List.getElem_mem (by omega : nb < cand.length))
    have hchk : i32Chk (cand[nb] + 1) = .ok (cand[nb] + 1) := if_pos ⟨by omega, by omega⟩
    rw [hchk]
    simp only [Res.bind_ok]
    have hset : setIdx cand nb (cand[nb] + 1) = .ok (cand.set nb (cand[nb] + 1)) := by
      unfold setIdx; rw [if_pos (by omega)]
    rw [hset]
    simp only [Res.bind_ok]
    have hps := pulseSum_set (by omega : nb < cand.length) hc0
    obtain ⟨cand', c', e', g1, g2, g3, g4⟩ := ih (cand.set nb (cand[nb] + 1)) (cl + absX[nb]) (el + ofRat 2 * ofInt cand[nb] + one) c1 e1
      (by simpa using hl) (by
        intro x hx
        rcases List.mem_or_eq_of_mem_set hx with hx | rfl
        · exact h0 x hx
        · omega) (by rw [hps]; omega)
    exact ⟨cand', c', e', g1, by simpa using g2, g3, by rw [g4, hps]; omega⟩

theorem snsRemove_ok : ∀ (ys : List Int) (as : List α) (k : Int) (c e : α), ys.length = as.length → (∀ y ∈ ys, 0 ≤ y) →
    (pulseSum ys : Int) ≤ k → k ≤ 1000 → ∃ c' e', snsRemove ys as k c e = .ok (k - pulseSum ys, c', e') := by
  intro ys
  induction ys with
  | nil =>
    intro as k c e _ _ _ _
    refine ⟨c, e, ?_⟩
    unfold snsRemove
    simp
  | cons y ys ih =>
    intro as k c e hl h0 hk hk'
    match as with
    | [] => simp at hl
    | a :: as =>
      unfold snsRemove
      have hy := h0 y (by simp)
      rw [pulseSum_cons] at hk ⊢
      have hcast : ((y.natAbs + pulseSum ys : Nat) : Int) = y + pulseSum ys := by omega
      rw [hcast] at hk ⊢
      split
      · have hchk : i32Chk (k - y) = .ok (k - y) := if_pos ⟨by omega, by omega⟩
        rw [hchk]
        simp only [Res.bind_ok]
        obtain ⟨c', e', h⟩ := ih as (k - y) (c - ofInt y * a) (e - ofInt y * ofInt y) (by simpa using hl)
          (fun z hz => h0 z (by simp [hz])) (by omega) (by omega)
        refine ⟨c', e', ?_⟩
        rw [h]
        congr 2
        omega
      · rename_i hz
        obtain ⟨c', e', h⟩ := ih as k c e (by simpa using hl) (fun z hz => h0 z (by simp [hz])) (by omega) hk'
        refine ⟨c', e', ?_⟩
        rw [h]
        congr 2
        omega

theorem snsProjStats_k (y : List Int) (absX : List α) (hl : y.length = absX.length) (h0 : ∀ x ∈ y, 0 ≤ x) (hs : pulseSum y ≤ 1000) :
    (snsProjStats y absX).1 = pulseSum y := by
  have main : ∀ (y : List Int) (absX : List α) (s : Nat × α × α), y.length = absX.length → (∀ x ∈ y, 0 ≤ x) → pulseSum y ≤ 1000 →
      ((y.zip absX).foldl (fun (s : Nat × α × α) p => if p.1 ≠ 0 then
        (s.1 + i32AsUsize p.1, s.2.1 + ofInt p.1 * p.2, s.2.2 + ofInt p.1 * ofInt p.1) else s) s).1 = s.1 + pulseSum y := by
    intro y
    induction y with
    | nil => intro absX s _ _ _; simp
    | cons a y ih =>
      intro absX s hl h0 hs
      match absX with
      | [] => simp at hl
      | x :: absX =>
        rw [pulseSum_cons] at hs ⊢
        have ha := h0 a (by simp)
        rw [List.zip_cons_cons, List.foldl_cons, ih absX _ (by simpa using hl) (fun z hz => h0 z (by simp [hz])) (by omega)]
        simp only
        split
        · have : i32AsUsize a = a.natAbs := by unfold i32AsUsize; omega
          simp only [this]
          omega
        · omega
  have := main y absX (0, zero, zero) hl h0 hs
  simpa [snsProjStats] using this

/-- position of the pulse of set B: in set B if there is a positive magnitude, 0 otherwise -/
theorem snsBestB_range : ∀ (as : List α) (n best : Nat) (m : α),
    snsBestB as n best m = best ∨ n ≤ snsBestB as n best m ∧ snsBestB as n best m < n + as.length := by
  intro as
  induction as with
  | nil => intro n best m; left; rfl
  | cons a as ih =>
    intro n best m
    unfold snsBestB
    split
    · rcases ih (n + 1) n a with h | h
      · right; rw [h]; simp
      · right; simp only [List.length_cons]; omega
    · rcases ih (n + 1) best m with h | h
      · left; exact h
      · right; simp only [List.length_cons]; omega

theorem snsBestB_pos : ∀ (as : List α) (n : Nat) (m : α) (best : Nat), best < n → (snsBestB as n best m = best ↔
    ∀ a ∈ as, lt m a = false) := by
  intro as
  induction as with
  | nil => intro n m best _; simp [snsBestB]
  | cons a as ih =>
    intro n m best hb
    unfold snsBestB
    by_cases h : lt m a = true
    · rw [if_pos h]
      constructor
      · intro h'
        rcases snsBestB_range as (n + 1) n a with e | e <;> omega
      · intro h'
        have := h' a (by simp)
        rw [this] at h
        cases h
    · rw [if_neg h]
      rw [ih (n + 1) m best (by omega)]
      simp only [Bool.not_eq_true] at h
      simp [h]

theorem pulseSum_snsSigns : ∀ (t : List α) (y : List Int), y.length ≤ t.length → pulseSum (snsSigns t y) = pulseSum y := by
  intro t
  induction t with
  | nil => intro y h; have : y = [] := by simpa using h
           subst this; rfl
  | cons a t ih =>
    intro y h
    match y with
    | [] => rfl
    | b :: y =>
      have := ih y (by simpa using h)
      unfold snsSigns at this ⊢
      rw [List.zip_cons_cons, List.map_cons, pulseSum_cons, pulseSum_cons, this]
      split <;> simp

theorem snsSigns_length (t : List α) (y : List Int) (h : y.length ≤ t.length) : (snsSigns t y).length = y.length := by
  simp [snsSigns]; omega

theorem snsSigns_take (t : List α) (y : List Int) (n : Nat) : (snsSigns t y).take n = snsSigns (t.take n) (y.take n) := by
  simp [snsSigns, List.zip, List.take_zipWith]

theorem snsSigns_drop (t : List α) (y : List Int) (n : Nat) : (snsSigns t y).drop n = snsSigns (t.drop n) (y.drop n) := by
  simp [snsSigns, List.zip, List.drop_zipWith]

/-- the search with a projection that is not too large -/
theorem snsSearch_ok {absX : List α} (hx : absX.length = 16) (h0 : ∀ y ∈ snsProject 6 absX, 0 ≤ y)
    (hs : pulseSum (snsProject 6 absX) ≤ 6) :
    ∃ c, snsSearch absX = .ok c ∧ c.y3.length = 16 ∧ pulseSum c.y3 = 6 ∧ c.y2.length = 16 ∧ pulseSum c.y2 = 8 ∧
      c.y1.length = 10 ∧ pulseSum c.y1 = 10 ∧ c.y0.length = 16 ∧
      ((∃ a ∈ absX.drop 10, lt zero a = true) → pulseSum (c.y0.take 10) = 10 ∧ pulseSum (c.y0.drop 10) = 1) ∧
      ((∀ a ∈ absX.drop 10, lt zero a = false) → c.y0.take 10 = c.y1.set 0 1 ∧ pulseSum (c.y0.drop 10) = 0) := by
  unfold snsSearch
  have hpl : (snsProject 6 absX).length = 16 := by simp [snsProject, hx]
  obtain ⟨y, hy⟩ : ∃ y, y = snsProject 6 absX := ⟨_, rfl⟩
  simp only
  rw [← hy] at h0 hs hpl ⊢
  have hk := snsProjStats_k y absX (by omega) h0 (by omega)
  obtain ⟨⟨k, c, e⟩, hke⟩ : ∃ s, s = snsProjStats y absX := ⟨_, rfl⟩
  rw [← hke] at hk ⊢
  simp only at hk ⊢
  obtain ⟨y3, c3, e3, a1, a2, a3, a4⟩ := addUnitPulse_ok hx (by norm_num : 1 ≤ 16) (le_refl _) (6 - k) y c e c e (by omega) h0 (by omega)
  rw [a1]
  simp only [Res.bind_ok]
  obtain ⟨y2, c2, e2, b1, b2, b3, b4⟩ := addUnitPulse_ok hx (by norm_num : 1 ≤ 16) (le_refl _) (8 - 6) y3 c3 e3 c3 e3 (by omega) a3 (by omega)
  rw [b1]
  simp only [Res.bind_ok]
  have hsum : pulseSum (y2.take 10) + pulseSum (y2.drop 10) = 8 := by
    rw [← pulseSum_append, List.take_append_drop, b4, a4]; omega
  obtain ⟨c1, e1, d1⟩ := snsRemove_ok (y2.drop 10) (absX.drop 10) 8 c2 e2 (by rw [List.length_drop, List.length_drop]; omega)
    (fun z hz => b3 z (List.mem_of_mem_drop hz)) (by omega) (by omega)
  rw [d1]
  simp only [Res.bind_ok]
  have hku : i32AsUsize (8 - (pulseSum (y2.drop 10) : Int)) = pulseSum (y2.take 10) := by unfold i32AsUsize; omega
  rw [hku]
  obtain ⟨y1, c0, e0, f1, f2, f3, f4⟩ := addUnitPulse_ok (nMax := 10) hx (by omega) (by omega) (10 - pulseSum (y2.take 10)) (y2.take 10)
    c1 e1 c1 e1 (by rw [List.length_take]; omega) (fun z hz => b3 z (List.mem_of_mem_take hz)) (by omega)
  rw [f1]
  simp only [Res.bind_ok]
  have hy1 : y1.length = 10 := by rw [f2]; simp; omega
  have hy1s : pulseSum y1 = 10 := by omega
  obtain ⟨nb, hnb⟩ : ∃ nb, nb = snsBestB (absX.drop 10) 10 0 zero := ⟨_, rfl⟩
  rw [← hnb]
  have hr := snsBestB_range (absX.drop 10) 10 0 (zero : α)
  have hp := snsBestB_pos (absX.drop 10) 10 (zero : α) 0 (by norm_num)
  rw [← hnb] at hr hp
  have hdl : (absX.drop 10).length = 6 := by simp; omega
  rw [hdl] at hr
  have hset : setIdx (y1 ++ List.replicate 6 0) nb 1 = .ok ((y1 ++ List.replicate 6 0).set nb 1) := by
    unfold setIdx; rw [if_pos (by simp; omega)]
  rw [hset]
  simp only [Res.bind_ok]
  refine ⟨_, rfl, by simp only; omega, by simp only; omega, by simp only; omega, by simp only; omega, hy1, hy1s, by simp; omega, ?_, ?_⟩
  · rintro ⟨a, ha, hla⟩
    have hne : nb ≠ 0 := by
      intro h
      have := hp.1 h a ha
      rw [hla] at this; cases this
    have h10 : 10 ≤ nb ∧ nb < 16 := by omega
    simp only
    rw [List.set_append_right _ _ (by omega), hy1, List.take_left' hy1, List.drop_left' hy1]
    refine ⟨hy1s, ?_⟩
    have : nb = 10 ∨ nb = 11 ∨ nb = 12 ∨ nb = 13 ∨ nb = 14 ∨ nb = 15 := by omega
    rcases this with e | e | e | e | e | e <;> rw [e] <;> rfl
  · intro ha
    have hz := hp.2 ha
    simp only
    rw [hz, List.set_append_left _ _ (by omega), List.take_left' (by simpa using hy1), List.drop_left' (by simpa using hy1)]
    exact ⟨rfl, rfl⟩

end Lc3
