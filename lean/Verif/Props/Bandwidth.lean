import Verif.Spec.Bandwidth
import Verif.Props.EncDetect
import Verif.Lemmas.EncLtpf
import Mathlib.Algebra.Order.BigOperators.Group.Finset
/-!
# C63 – C65: which bandwidth the encoder detects

In exact arithmetic.
-/

namespace Lc3
open Scalar Spec Finset

theorem real_ofInt (z : Int) : (ofInt z : ℝ) = (z : ℝ) := by show ((z : ℚ) : ℝ) = _; norm_num

/-- the tables of the code are those of the specification -/
structure BwTabs (d : FrameDuration) (n : Nat) (b : BwDet) : Prop where
  fs : b.fsInd = n
  start : ∀ k, k < n → b.start[k]? = some (bwRegion d n k).1
  stop : ∀ k, k < n → b.stop[k]? = some (bwRegion d n k).2
  l : ∀ k, k < n → b.l[k]? = some (dropWidth d k)
  dims : ∀ k, k < n → (bwRegion d n k).1 ≤ (bwRegion d n k).2 ∧ (bwRegion d n k).2 < 64 ∧
    2 * dropWidth d k ≤ (bwRegion d n k).1 + 1 ∧ 1 ≤ dropWidth d k

theorem bwNew_tabs (d : FrameDuration) {n : Nat} (h1 : 1 ≤ n) (h4 : n ≤ 4) : ∃ b, BwDet.new d n = .ok b ∧ BwTabs d n b := by
  have hn : n = 1 ∨ n = 2 ∨ n = 3 ∨ n = 4 := by omega
  rcases hn with rfl | rfl | rfl | rfl <;> cases d <;>
    exact ⟨_, rfl, ⟨rfl, by decide, by decide, by decide, by decide⟩⟩

theorem foldl_mean (w : ℝ) : ∀ (l : List ℝ) (a : ℝ), l.foldl (fun q e => q + e / w) a = a + l.sum / w
  | [], a => by simp
  | v :: l, a => by rw [List.foldl_cons, foldl_mean w l, List.sum_cons]; ring

theorem sum_slice (l : List ℝ) : ∀ (w a : Nat), a + w ≤ l.length → ((l.drop a).take w).sum = ∑ i ∈ range w, l.getD (a + i) 0
  | 0, a, _ => by simp
  | w + 1, a, h => by
    rw [Finset.sum_range_succ, ← sum_slice l w a (by omega), List.take_add_one, List.sum_append, List.getElem?_drop,
      List.getD_eq_getElem?_getD]
    congr 1
    cases l[a + w]? <;> simp

theorem sum_region (E : Nat → ℝ) (a b : Nat) : ∑ i ∈ range (b + 1 - a), E (a + i) = ∑ i ∈ Icc a b, E i := by
  rw [← Finset.sum_Ico_eq_sum_range, Finset.Ico_add_one_right_eq_Icc]

theorem quietThresh (k : Nat) (h : k < 4) : ∃ t, idx QUIET_THRESH k = .ok t ∧ (t : ℝ) = quietLimit k := by
  have : k = 0 ∨ k = 1 ∨ k = 2 ∨ k = 3 := by omega
  rcases this with rfl | rfl | rfl | rfl
  · exact ⟨20, rfl, by norm_num [quietLimit]⟩
  all_goals exact ⟨10, rfl, by norm_num [quietLimit]⟩

theorem dropThresh (k : Nat) (h : k < 4) : ∃ t, idx CUTOFF_THRESH k = .ok t ∧ (t : ℝ) = dropLimit k := by
  have : k = 0 ∨ k = 1 ∨ k = 2 ∨ k = 3 := by omega
  rcases this with rfl | rfl | rfl | rfl
  · exact ⟨15, rfl, by norm_num [dropLimit]⟩
  · exact ⟨23, rfl, by norm_num [dropLimit]⟩
  all_goals exact ⟨20, rfl, by norm_num [dropLimit]⟩

theorem geS_real (a b : ℝ) : geS a b = true ↔ b ≤ a := by
  unfold geS
  rw [Bool.or_eq_true]
  show decide (b < a) = true ∨ decide (a = b) = true ↔ _
  rw [decide_eq_true_iff, decide_eq_true_iff, le_iff_lt_or_eq, eq_comm (a := a)]

/-- the first stage -/
theorem bwQuiet_spec {d : FrameDuration} {n : Nat} (hn : n ≤ 4) {b : BwDet} (hb : BwTabs d n b) {eb : List ℝ} (he : eb.length = 64) :
    ∀ k, k ≤ n → ∃ c, bwQuiet b eb k = .ok c ∧ c ≤ k ∧ (∀ j, c ≤ j → j < k → QuietRegion d n (fun i => eb.getD i 0) j) ∧
      (0 < c → ¬ QuietRegion d n (fun i => eb.getD i 0) (c - 1))
  | 0, _ => ⟨0, rfl, le_rfl, fun j _ h => absurd h (by omega), fun h => absurd h (by omega)⟩
  | k + 1, hk => by
    obtain ⟨c, e, h1, h2, h3⟩ := bwQuiet_spec hn hb he k (by omega)
    obtain ⟨d1, d2, -, -⟩ := hb.dims k (by omega)
    obtain ⟨t, ht, htv⟩ := quietThresh k (by omega)
    unfold bwQuiet
    rw [idx_ok_iff.2 (hb.start k (by omega)), idx_ok_iff.2 (hb.stop k (by omega))]
    simp only [Res.bind_ok]
    rw [usub_of_le (by omega)]
    simp only [Res.bind_ok]
    rw [if_pos (by omega), ht]
    simp only [Res.bind_ok]
    rw [foldl_mean, sum_slice _ _ _ (by omega), sum_region (fun i => eb.getD i 0), show (zero : ℝ) = 0 from Rat.cast_zero, zero_add]
    have hq : geS ((∑ i ∈ Icc (bwRegion d n k).1 (bwRegion d n k).2, eb.getD i 0) / ofInt (((bwRegion d n k).2 + 1 - (bwRegion d n k).1 : Nat) : Int))
        (ofInt (t : Int)) = true ↔ ¬ QuietRegion d n (fun i => eb.getD i 0) k := by
      rw [geS_real, real_ofInt, real_ofInt]
      unfold QuietRegion
      rw [not_lt, ← htv]
      push_cast
      rfl
    by_cases hc : QuietRegion d n (fun i => eb.getD i 0) k
    · rw [if_neg (fun h => hq.1 h hc), e]
      refine ⟨c, rfl, by omega, ?_, h3⟩
      intro j hj1 hj2
      rcases Nat.lt_succ_iff_lt_or_eq.1 hj2 with h | rfl
      · exact h2 j hj1 h
      · exact hc
    · rw [if_pos (hq.2 hc)]
      exact ⟨k + 1, rfl, le_rfl, fun j h h' => absurd h' (by omega), fun _ => hc⟩

/-- the second stage -/
theorem bwCutoff_spec {eb : List ℝ} {l : Nat} : ∀ (cnt n : Nat) (m T : ℝ), l ≤ n → n + cnt ≤ eb.length →
    ∃ r, bwCutoff eb l n cnt m = .ok r ∧ (T < r ↔ T < m ∨ ∃ i, n ≤ i ∧ i < n + cnt ∧ T < eb.getD (i - l) 0 / eb.getD i 0)
  | 0, n, m, T, _, _ => ⟨m, rfl, ⟨Or.inl, by rintro (h | ⟨i, h1, h2, -⟩); exacts [h, absurd h2 (by omega)]⟩⟩
  | cnt + 1, n, m, T, h1, h2 => by
    have ea : eb.getD (n - l) 0 = eb[n - l] := List.getD_eq_getElem _ _ (by omega)
    have ec : eb.getD n 0 = eb[n] := List.getD_eq_getElem _ _ (by omega)
    obtain ⟨r, e, hr⟩ := bwCutoff_spec (eb := eb) (l := l) cnt (n + 1) (maxS (eb.getD (n - l) 0 / eb.getD n 0) m) T (by omega) (by omega)
    refine ⟨r, ?_, ?_⟩
    · unfold bwCutoff
      rw [usub_of_le h1]
      simp only [Res.bind_ok]
      rw [idx_eq_ok (by omega), idx_eq_ok (by omega)]
      simp only [Res.bind_ok]
      rw [← ea, ← ec]
      exact e
    · rw [hr]
      have hmax : T < maxS (eb.getD (n - l) 0 / eb.getD n 0) m ↔ T < eb.getD (n - l) 0 / eb.getD n 0 ∨ T < m := lt_max_iff
      rw [hmax]
      constructor
      · rintro ((h | h) | ⟨i, a, b, c⟩)
        · exact Or.inr ⟨n, le_rfl, by omega, h⟩
        · exact Or.inl h
        · exact Or.inr ⟨i, by omega, by omega, c⟩
      · rintro (h | ⟨i, a, b, c⟩)
        · exact Or.inl (Or.inr h)
        · rcases Nat.eq_or_lt_of_le a with rfl | h
          · exact Or.inl (Or.inl c)
          · exact Or.inr ⟨i, by omega, by omega, c⟩

/-- **C63** The bandwidth the detector reports: if `c` is the smallest bandwidth above which all regions are quiet, it is `c` if `c` is
the full bandwidth or the energy drops at its edge, and the full bandwidth otherwise. -/
theorem C63 (d : FrameDuration) {n : Nat} (h1 : 1 ≤ n) (h4 : n ≤ 4) {eb : List ℝ} (he : eb.length = 64) :
    ∃ b r nbits c, BwDet.new d n = .ok b ∧ bwRun b eb = .ok (r, nbits) ∧ BwCandidate d n (fun i => eb.getD i 0) c ∧
      (c = n ∨ QuotientDrop d n (fun i => eb.getD i 0) c → r = c) ∧
      (¬ (c = n ∨ QuotientDrop d n (fun i => eb.getD i 0) c) → r = n) := by
  obtain ⟨b, hnew, hb⟩ := bwNew_tabs d h1 h4
  obtain ⟨c, e, hc, q1, q2⟩ := bwQuiet_spec h4 hb he n le_rfl
  refine ⟨b, ?_⟩
  have hnb : idx NBITS_BW n = .ok (NBITS_BW[n]'(by simp [NBITS_BW]; omega)) := idx_eq_ok _
  unfold bwRun
  rw [hb.fs, hnb]
  simp only [Res.bind_ok]
  rw [if_neg (by omega), e]
  simp only [Res.bind_ok]
  by_cases hcn : n = c
  · rw [if_pos hcn]
    exact ⟨c, _, c, hnew, rfl, ⟨hc, q1, q2⟩, fun _ => rfl, fun _ => hcn.symm⟩
  · rw [if_neg hcn]
    obtain ⟨d1, d2, d3, d4⟩ := hb.dims c (by omega)
    obtain ⟨t, ht, htv⟩ := dropThresh c (by omega)
    rw [idx_ok_iff.2 (hb.l c (by omega)), idx_ok_iff.2 (hb.start c (by omega))]
    simp only [Res.bind_ok]
    rw [usub_of_le (by omega)]
    simp only [Res.bind_ok]
    obtain ⟨m, hm, hmv⟩ := bwCutoff_spec (eb := eb) (l := dropWidth d c)
      ((bwRegion d n c).1 - ((bwRegion d n c).1 + 1 - dropWidth d c)) ((bwRegion d n c).1 + 1 - dropWidth d c) zero (t : ℝ) (by omega) (by omega)
    rw [hm]
    simp only [Res.bind_ok]
    rw [ht]
    simp only [Res.bind_ok]
    have hdrop : lt (ofInt (t : Int)) m = true ↔ QuotientDrop d n (fun i => eb.getD i 0) c := by
      have e0 : lt (ofInt (t : Int)) m = true ↔ (t : ℝ) < m := by
        rw [real_ofInt]
        show decide (((t : Int) : ℝ) < m) = true ↔ _
        rw [decide_eq_true_iff]
        push_cast
        rfl
      rw [e0, hmv]
      have htz : ¬ (t : ℝ) < zero := by
        rw [show (zero : ℝ) = 0 from Rat.cast_zero, not_lt]
        positivity
      unfold QuotientDrop
      rw [← htv]
      constructor
      · rintro (h | ⟨i, a, b, c⟩)
        · exact absurd h htz
        · exact ⟨i, a, by omega, c⟩
      · rintro ⟨i, a, b, c⟩
        exact Or.inr ⟨i, a, by omega, c⟩
    by_cases hd : QuotientDrop d n (fun i => eb.getD i 0) c
    · rw [if_pos (hdrop.2 hd)]
      exact ⟨c, _, c, hnew, rfl, ⟨hc, q1, q2⟩, fun _ => rfl, fun h => absurd (Or.inr hd) h⟩
    · rw [if_neg (fun h => hd (hdrop.1 h))]
      refine ⟨n, _, c, hnew, rfl, ⟨hc, q1, q2⟩, ?_, fun _ => rfl⟩
      rintro (h | h)
      · exact absurd h.symm hcn
      · exact absurd h hd

theorem candidate_unique {d : FrameDuration} {n : Nat} {E : Nat → ℝ} {c c' : Nat} (h : BwCandidate d n E c) (h' : BwCandidate d n E c') :
    c = c' := by
  obtain ⟨a1, a2, a3⟩ := h
  obtain ⟨b1, b2, b3⟩ := h'
  rcases lt_trichotomy c c' with h | h | h
  · exact absurd (a2 (c' - 1) (by omega) (by omega)) (b3 (by omega))
  · exact h
  · exact absurd (b2 (c - 1) (by omega) (by omega)) (a3 (by omega))

/-! ### Can every bandwidth be detected? -/

/-- **C64** as stated: for every sampling rate with a detector and every bandwidth up to the full one there are band energies for which this
bandwidth is reported. **False**, see `C64_fails`. -/
def C64_statement : Prop :=
  ∀ (d : FrameDuration) (n k : Nat), 1 ≤ n → n ≤ 4 → k ≤ n →
    ∃ eb : List ℝ, eb.length = 64 ∧ (∀ v ∈ eb, 0 < v) ∧ ∃ b nbits, BwDet.new d n = .ok b ∧ bwRun b eb = .ok (k, nbits)

/-- **C64 is false**: at 48 kHz with 10 ms frames no signal is ever found to have the bandwidth of 32 kHz (index 3), because the search range
for the drop is empty. -/
theorem C64_never {eb : List ℝ} (he : eb.length = 64) {b : BwDet} (hb : BwDet.new .tenMs 4 = .ok b) {k nbits : Nat}
    (h : bwRun b eb = .ok (k, nbits)) : k ≠ 3 := by
  obtain ⟨b', r, nb, c, e1, e2, -, h1, h2⟩ := C63 .tenMs (n := 4) (by omega) (by omega) he
  rw [hb] at e1
  simp only [Res.ok.injEq] at e1
  subst e1
  rw [h] at e2
  simp only [Res.ok.injEq, Prod.mk.injEq] at e2
  obtain ⟨rfl, -⟩ := e2
  rintro rfl
  by_cases hc : c = 4 ∨ QuotientDrop .tenMs 4 (fun i => eb.getD i 0) c
  · have h3 := h1 hc
    subst h3
    rcases hc with hc | ⟨i, i1, i2, -⟩
    · omega
    · simp only [bwRegion, dropWidth] at i1 i2
      omega
  · exact absurd (h2 hc) (by omega)

theorem C64_fails : ¬ C64_statement := by
  intro h
  obtain ⟨eb, he, -, b, nbits, hb, e⟩ := h .tenMs 4 3 (by omega) (by omega) (by omega)
  exact C64_never he hb e rfl

/-- loud up to a band, soft from there on -/
noncomputable def stepEnergies (m : Nat) : List ℝ := (List.range 64).map fun i => if i < m then 10000 else 1 / 10

theorem stepEnergies_getD (m : Nat) {i : Nat} (h : i < 64) : (stepEnergies m).getD i 0 = if i < m then 10000 else 1 / 10 := by
  unfold stepEnergies
  rw [List.getD_eq_getElem _ _ (by simpa using h), List.getElem_map, List.getElem_range]

/-- the regions are ordered, and the bands in which the drop is looked for are above the start of the region below -/
theorem bwRegion_order (d : FrameDuration) {n : Nat} (h1 : 1 ≤ n) (h4 : n ≤ 4) :
    (∀ k, k < n → (bwRegion d n k).1 ≤ (bwRegion d n k).2 ∧ (bwRegion d n k).2 < 64 ∧ (bwRegion d n k).2 + 1 - (bwRegion d n k).1 ≤ 13 ∧
      2 * dropWidth d k ≤ (bwRegion d n k).1 + 1 ∧ 1 ≤ dropWidth d k) ∧
    (∀ k, k < n → ∀ j, j < n → k ≤ j → (bwRegion d n k).1 ≤ (bwRegion d n j).1) ∧
    (∀ k, k < n → 0 < k → (bwRegion d n (k - 1)).1 + dropWidth d k < (bwRegion d n k).1 + 1) := by
  have hn : n = 1 ∨ n = 2 ∨ n = 3 ∨ n = 4 := by omega
  rcases hn with rfl | rfl | rfl | rfl <;> cases d <;> exact ⟨by decide, by decide, by decide⟩

theorem quiet_step (d : FrameDuration) {n : Nat} (h1 : 1 ≤ n) (h4 : n ≤ 4) {m k : Nat} (hk : k < n) (hm : m ≤ (bwRegion d n k).1) :
    QuietRegion d n (fun i => (stepEnergies m).getD i 0) k := by
  obtain ⟨d1, d2, -⟩ := (bwRegion_order d h1 h4).1 k hk
  unfold QuietRegion
  have hw : (0 : ℝ) < (((bwRegion d n k).2 + 1 - (bwRegion d n k).1 : Nat) : ℝ) := by
    have : 0 < (bwRegion d n k).2 + 1 - (bwRegion d n k).1 := by omega
    exact_mod_cast this
  have hs : ∑ i ∈ Icc (bwRegion d n k).1 (bwRegion d n k).2, (stepEnergies m).getD i 0
      = (((bwRegion d n k).2 + 1 - (bwRegion d n k).1 : Nat) : ℝ) * (1 / 10) := by
    rw [Finset.sum_congr rfl (g := fun _ => (1 / 10 : ℝ)), Finset.sum_const, Nat.card_Icc, nsmul_eq_mul]
    intro i hi
    have := Finset.mem_Icc.1 hi
    rw [stepEnergies_getD m (by omega), if_neg (by omega)]
  rw [hs, mul_div_cancel_left₀ _ (ne_of_gt hw)]
  unfold quietLimit
  split <;> norm_num

theorem loud_step (d : FrameDuration) {n : Nat} (h1 : 1 ≤ n) (h4 : n ≤ 4) {m k : Nat} (hk : k < n) (hm : (bwRegion d n k).1 < m) :
    ¬ QuietRegion d n (fun i => (stepEnergies m).getD i 0) k := by
  obtain ⟨d1, d2, d3, -⟩ := (bwRegion_order d h1 h4).1 k hk
  unfold QuietRegion
  have hw : (0 : ℝ) < (((bwRegion d n k).2 + 1 - (bwRegion d n k).1 : Nat) : ℝ) := by
    have : 0 < (bwRegion d n k).2 + 1 - (bwRegion d n k).1 := by omega
    exact_mod_cast this
  have hw' : (((bwRegion d n k).2 + 1 - (bwRegion d n k).1 : Nat) : ℝ) ≤ 13 := by exact_mod_cast d3
  have hs : 10000 ≤ ∑ i ∈ Icc (bwRegion d n k).1 (bwRegion d n k).2, (stepEnergies m).getD i 0 := by
    have := Finset.single_le_sum (f := fun i => (stepEnergies m).getD i 0) (s := Icc (bwRegion d n k).1 (bwRegion d n k).2) (fun i hi => by
      have := Finset.mem_Icc.1 hi
      rw [stepEnergies_getD m (by omega)]
      split <;> norm_num) (Finset.mem_Icc.2 ⟨le_rfl, d1⟩)
    rw [stepEnergies_getD m (by omega), if_pos hm] at this
    exact this
  rw [not_lt, le_div_iff₀ hw]
  have : quietLimit k ≤ 20 := by unfold quietLimit; split <;> norm_num
  nlinarith

/-- **C64, the part that holds**: every other bandwidth can be detected. (Missing: index 3 at 48 kHz with 10 ms frames, for which it is
false.) -/
theorem C64_partial (d : FrameDuration) (n k : Nat) (h1 : 1 ≤ n) (h4 : n ≤ 4) (hk : k ≤ n) (hx : ¬ (d = .tenMs ∧ n = 4 ∧ k = 3)) :
    ∃ eb : List ℝ, eb.length = 64 ∧ (∀ v ∈ eb, 0 < v) ∧ ∃ b nbits, BwDet.new d n = .ok b ∧ bwRun b eb = .ok (k, nbits) := by
  have hpos : ∀ m, ∀ v ∈ stepEnergies m, 0 < v := by
    intro m v hv
    obtain ⟨i, -, rfl⟩ := List.mem_map.1 hv
    split <;> norm_num
  have hlen : ∀ m, (stepEnergies m).length = 64 := fun m => by unfold stepEnergies; rw [List.length_map, List.length_range]
  obtain ⟨ho1, ho2, ho3⟩ := bwRegion_order d h1 h4
  rcases Nat.eq_or_lt_of_le hk with rfl | hkn
  · refine ⟨stepEnergies 64, hlen _, hpos _, ?_⟩
    obtain ⟨b, r, nb, c, e1, e2, hc, h2, h3⟩ := C63 d h1 h4 (hlen 64)
    have hcand : BwCandidate d k (fun i => (stepEnergies 64).getD i 0) k :=
      ⟨le_rfl, fun j a b => absurd b (by omega), fun h => loud_step d h1 h4 (by omega) (by have := ho1 (k - 1) (by omega); omega)⟩
    have := candidate_unique hc hcand
    subst this
    rw [h2 (Or.inl rfl)] at e2
    exact ⟨b, nb, e1, e2⟩
  · have hw2 : 2 ≤ dropWidth d k := by
      have : k = 0 ∨ k = 1 ∨ k = 2 ∨ k = 3 := by omega
      rcases this with rfl | rfl | rfl | rfl
      · cases d <;> decide
      · cases d <;> decide
      · cases d <;> decide
      · cases d
        · decide
        · exact absurd ⟨rfl, by omega, rfl⟩ hx
    obtain ⟨d1, d2, d3, d4, d5⟩ := ho1 k hkn
    refine ⟨stepEnergies ((bwRegion d n k).1 + 1 - dropWidth d k), hlen _, hpos _, ?_⟩
    obtain ⟨b, r, nb, c, e1, e2, hc, h2, h3⟩ := C63 d h1 h4 (hlen ((bwRegion d n k).1 + 1 - dropWidth d k))
    have hcand : BwCandidate d n (fun i => (stepEnergies ((bwRegion d n k).1 + 1 - dropWidth d k)).getD i 0) k :=
      ⟨hk, fun j a b => quiet_step d h1 h4 b (by have := ho2 k hkn j b a; omega),
        fun h => loud_step d h1 h4 (by omega) (by have := ho3 k hkn h; omega)⟩
    have := candidate_unique hc hcand
    subst this
    have hdrop : QuotientDrop d n (fun i => (stepEnergies ((bwRegion d n c).1 + 1 - dropWidth d c)).getD i 0) c := by
      refine ⟨(bwRegion d n c).1 + 1 - dropWidth d c, le_rfl, by omega, ?_⟩
      simp only
      rw [stepEnergies_getD _ (by omega), stepEnergies_getD _ (by omega), if_pos (by omega), if_neg (by omega)]
      unfold dropLimit
      split <;> norm_num
    rw [h2 (Or.inr hdrop)] at e2
    exact ⟨b, nb, e1, e2⟩

/-- a signal at 48 kHz with the bandwidth of 16 kHz -/
example : ∃ eb : List ℝ, eb.length = 64 ∧ (∀ v ∈ eb, 0 < v) ∧ ∃ b nbits, BwDet.new .tenMs 4 = .ok b ∧ bwRun b eb = .ok (1, nbits) :=
  C64_partial .tenMs 4 1 (by omega) (by omega) (by omega) (by simp)

/-! ### The drop in decibel -/

/-- **C65** as stated in a comment of the code: taking the drop in decibel has no effect on the decision. **False**, see `C65_fails`. -/
def C65_statement : Prop :=
  ∀ (d : FrameDuration) (n : Nat) (eb : List ℝ) (b : BwDet) (r nbits c : Nat), 1 ≤ n → n ≤ 4 → eb.length = 64 → (∀ v ∈ eb, 0 < v) →
    BwDet.new d n = .ok b → bwRun b eb = .ok (r, nbits) → BwCandidate d n (fun i => eb.getD i 0) c →
    (r = c ↔ c = n ∨ DecibelDrop d n (fun i => eb.getD i 0) c)

theorem dropLimit_db {k : Nat} {q : ℝ} (hq : 0 < q) (h : dropLimit k < 10 * Real.logb 10 q) : dropLimit k < q := by
  have hlog : dropLimit k / 10 < Real.logb 10 q := by linarith
  rw [Real.lt_logb_iff_rpow_lt (by norm_num) hq] at hlog
  refine lt_trans ?_ hlog
  have h15 : (15 : ℝ) < (10 : ℝ) ^ ((15 : ℝ) / 10) := by
    calc (15 : ℝ) < (10 : ℝ) ^ ((5 : ℝ) / 4) := by
          have : (15 : ℝ) ^ (4 : ℕ) < 10 ^ (5 : ℕ) := by norm_num
          have h2 : ((10 : ℝ) ^ ((5 : ℝ) / 4)) ^ (4 : ℕ) = 10 ^ (5 : ℕ) := by
            rw [← Real.rpow_natCast, ← Real.rpow_mul (by norm_num), ← Real.rpow_natCast]
            norm_num
          rw [← h2] at this
          exact lt_of_pow_lt_pow_left₀ 4 (by positivity) this
      _ ≤ _ := Real.rpow_le_rpow_of_exponent_le (by norm_num) (by norm_num)
  have h20 : ∀ T : ℝ, 20 ≤ T → T < 100 → T < (10 : ℝ) ^ (T / 10) := by
    intro T h1 h2
    refine lt_of_lt_of_le h2 ?_
    calc (100 : ℝ) = (10 : ℝ) ^ (2 : ℝ) := by norm_num
      _ ≤ _ := Real.rpow_le_rpow_of_exponent_le (by norm_num) (by linarith)
  unfold dropLimit
  split
  · exact h15
  · exact h20 23 (by norm_num) (by norm_num)
  · exact h20 20 (by norm_num) (by norm_num)

/-- **C65, the part that holds**: if the drop in decibel is above the limit, the code finds the drop. (Missing: the converse, which is
false.) -/
theorem C65_partial (d : FrameDuration) {n : Nat} {eb : List ℝ} {b : BwDet} {r nbits c : Nat} (h1 : 1 ≤ n) (h4 : n ≤ 4) (he : eb.length = 64)
    (hpos : ∀ v ∈ eb, 0 < v) (hb : BwDet.new d n = .ok b) (hr : bwRun b eb = .ok (r, nbits))
    (hc : BwCandidate d n (fun i => eb.getD i 0) c) (hd : c = n ∨ DecibelDrop d n (fun i => eb.getD i 0) c) : r = c := by
  obtain ⟨b', r', nb, c', e1, e2, hc', h2, -⟩ := C63 d h1 h4 he
  rw [hb] at e1
  simp only [Res.ok.injEq] at e1
  subst e1
  rw [hr] at e2
  simp only [Res.ok.injEq, Prod.mk.injEq] at e2
  obtain ⟨rfl, -⟩ := e2
  obtain rfl := candidate_unique hc hc'
  apply h2
  rcases hd with h | ⟨i, i1, i2, i3⟩
  · exact Or.inl h
  · rcases Nat.eq_or_lt_of_le hc.1 with h | hcn
    · exact Or.inl h
    right
    obtain ⟨d1, d2, d3, d4, d5⟩ := (bwRegion_order d h1 h4).1 c hcn
    have hp : ∀ j, j < 64 → 0 < eb.getD j 0 := by
      intro j hj
      rw [List.getD_eq_getElem _ _ (by omega)]
      exact hpos _ (List.getElem_mem _)
    exact ⟨i, i1, i2, dropLimit_db (div_pos (hp _ (by omega)) (hp _ (by omega))) i3⟩

/-- a drop of 50 dB -/
example : BwCandidate .tenMs 1 (fun i => (stepEnergies 50).getD i 0) 0 ∧ DecibelDrop .tenMs 1 (fun i => (stepEnergies 50).getD i 0) 0 := by
  refine ⟨⟨by omega, fun k _ h => quiet_step .tenMs le_rfl (by omega) h ?_, fun h => absurd h (by omega)⟩, 50, by decide, by decide, ?_⟩
  · obtain rfl : k = 0 := by omega
    decide
  · simp only [dropLimit, dropWidth]
    rw [stepEnergies_getD _ (by omega), stepEnergies_getD _ (by omega), if_pos (by omega), if_neg (by omega),
      show (10000 : ℝ) / (1 / 10) = 10 ^ (5 : ℝ) by norm_num, Real.logb_rpow (by norm_num) (by norm_num)]
    norm_num

/-- 16 kHz, 10 ms: a drop by a factor of 20, that is 13 dB -/
noncomputable def softStep : List ℝ := (List.range 64).map fun i => if i < 50 then 20 else 1

/-- **C65 is false**: for `softStep` the code reports bandwidth 0; the drop is 13 dB, and the limit 15 dB. -/
theorem C65_fails : ¬ C65_statement := by
  intro h
  have hlen : softStep.length = 64 := by unfold softStep; rw [List.length_map, List.length_range]
  have hg : ∀ {i : Nat}, i < 64 → softStep.getD i 0 = if i < 50 then 20 else 1 := by
    intro i hi
    unfold softStep
    rw [List.getD_eq_getElem _ _ (by simpa using hi), List.getElem_map, List.getElem_range]
  obtain ⟨b, r, nb, c, e1, e2, hc, h2, h3⟩ := C63 .tenMs (n := 1) (by omega) (by omega) hlen
  have hcand : BwCandidate .tenMs 1 (fun i => softStep.getD i 0) 0 := by
    refine ⟨by omega, ?_, fun h => absurd h (by omega)⟩
    intro k _ hk
    obtain rfl : k = 0 := by omega
    unfold QuietRegion
    simp only [bwRegion, quietLimit]
    have hs : ∑ i ∈ Icc 53 63, softStep.getD i 0 = 11 := by
      rw [Finset.sum_congr rfl (g := fun _ => (1 : ℝ)), Finset.sum_const, Nat.card_Icc, nsmul_eq_mul]
      · norm_num
      intro i hi
      have := Finset.mem_Icc.1 hi
      rw [hg (by omega), if_neg (by omega)]
    rw [hs]
    norm_num
  obtain rfl := candidate_unique hc hcand
  have hr : r = 0 := h2 (Or.inr ⟨50, by decide, by decide, by
    simp only [dropLimit, dropWidth]
    rw [hg (by omega), hg (by omega)]
    norm_num⟩)
  have key := (h .tenMs 1 softStep b r nb 0 (by omega) (by omega) hlen (by
    intro v hv
    obtain ⟨i, -, rfl⟩ := List.mem_map.1 hv
    split <;> norm_num) e1 e2 hcand).1 hr
  rcases key with h | ⟨i, i1, i2, i3⟩
  · omega
  · simp only [bwRegion, dropWidth, dropLimit] at i1 i2 i3
    have hlog : Real.logb 10 20 < 3 / 2 := by
      rw [Real.logb_lt_iff_lt_rpow (by norm_num) (by norm_num)]
      have h1 : (20 : ℝ) ^ (2 : ℕ) < 10 ^ (3 : ℕ) := by norm_num
      have h2 : ((10 : ℝ) ^ ((3 : ℝ) / 2)) ^ (2 : ℕ) = 10 ^ (3 : ℕ) := by
        rw [← Real.rpow_natCast, ← Real.rpow_mul (by norm_num), ← Real.rpow_natCast]
        norm_num
      rw [← h2] at h1
      exact lt_of_pow_lt_pow_left₀ 2 (by positivity) h1
    rw [hg (by omega), hg (by omega), if_pos (by omega), if_neg (by omega)] at i3
    norm_num at i3
    linarith

end Lc3
