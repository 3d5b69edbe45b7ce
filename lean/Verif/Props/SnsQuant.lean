import Verif.Lemmas.SnsGreedy
import Verif.Lemmas.SnsRotation
/-! # C66 - C69: quantisation of the scale factors in exact arithmetic -/

namespace Lc3
open Spec Tables Scalar

/-! ## First stage -/

theorem snsDmse_real (x : List ℝ) (c : List Rat) : snsDmse x c = sqDist x (castL c) := by
  unfold snsDmse sqDist
  rw [foldl_sum_real (fun p : ℝ × Rat => (p.1 - ofRat p.2) * (p.1 - ofRat p.2)), show (zero : ℝ) = 0 from Rat.cast_zero, zero_add]
  unfold castL
  rw [List.zip_map_right, List.map_map]
  congr 1
  apply List.map_congr_left
  intro p _
  simp only [Function.comp, Prod.map, id]
  rw [pow_two]
  rfl

theorem snsNearest_real (x : List ℝ) : ∀ (cs pre : List (List Rat)) (best : Nat) (m : Option ℝ),
    (pre = [] ∧ m = none ∨ m = some (sqDist x ((pre.map castL).getD best [])) ∧ IsNearest (pre.map castL) x best) →
    pre ++ cs ≠ [] → IsNearest ((pre ++ cs).map castL) x (snsNearest x cs pre.length best m)
  | [], pre, best, m, h, hne => by
    rw [List.append_nil] at hne ⊢
    rcases h with ⟨h, -⟩ | ⟨-, h⟩
    · exact absurd h hne
    · exact h
  | c :: cs, pre, best, m, h, hne => by
    have e : pre ++ c :: cs = (pre ++ [c]) ++ cs := by simp
    have hl : pre.length + 1 = (pre ++ [c]).length := by simp
    have hd : ((pre ++ [c]).map castL).getD pre.length [] = castL c := by
      rw [List.map_append, List.getD_append_right _ _ _ _ (by simp)]
      simp
    have hlow : ∀ k, k < pre.length → ((pre ++ [c]).map castL).getD k [] = (pre.map castL).getD k [] := by
      intro k hk
      rw [List.map_append, List.getD_append _ _ _ _ (by simpa using hk)]
    unfold snsNearest
    simp only [snsDmse_real]
    rw [e, hl]
    rcases h with ⟨rfl, rfl⟩ | ⟨rfl, h1, h2⟩
    · simp only [show ltInf (sqDist x (castL c)) = true from rfl, if_true]
      refine snsNearest_real x cs ([] ++ [c]) 0 _ (.inr ⟨rfl, by simp, ?_⟩) (by simp)
      intro k hk
      have : k = 0 := by simpa using hk
      subst this
      exact ⟨le_refl _, fun h => absurd h (lt_irrefl _)⟩
    · simp only [snsLt_real]
      rw [List.length_map] at h1 h2
      split
      · rename_i hlt
        refine snsNearest_real x cs (pre ++ [c]) pre.length _ (.inr ⟨by rw [hd], by simp, ?_⟩) (by simp)
        intro k hk
        rw [hd]
        have hk' : k < pre.length + 1 := by simpa using hk
        by_cases hkp : k = pre.length
        · subst hkp
          rw [hd]
          exact ⟨le_refl _, fun h => absurd h (lt_irrefl _)⟩
        · rw [hlow k (by omega)]
          have := (h2 k (by omega)).1
          exact ⟨(hlt.trans_le this).le, fun _ => hlt.trans_le this⟩
      · rename_i hlt
        refine snsNearest_real x cs (pre ++ [c]) best _ (.inr ⟨by rw [hlow best h1], by simp; omega, ?_⟩) (by simp)
        intro k hk
        rw [hlow best h1]
        have hk' : k < pre.length + 1 := by simpa using hk
        by_cases hkp : k = pre.length
        · subst hkp
          rw [hd]
          exact ⟨not_lt.1 hlt, fun h => by omega⟩
        · rw [hlow k (by omega)]
          exact h2 k (by omega)

/-- **C66** The first stage of the scale factor quantiser, in exact arithmetic and for all 16 scale factors: the two indices name the
first nearest vectors of the low and the high code book; the first stage vector consists of these two, and the residual is what
is left. -/
theorem C66 {scf : List ℝ} (h : scf.length = 16) : ∃ lf hf st1 r1, snsStage1 scf = .ok (lf, hf, st1, r1) ∧
    IsNearest (LFCB.map castL) (scf.take 8) lf ∧ IsNearest (HFCB.map castL) (scf.drop 8) hf ∧
    st1 = castL (LFCB.getD lf [] ++ HFCB.getD hf []) ∧ st1.length = 16 ∧ r1.length = 16 ∧
    ∀ i, i < 16 → r1.getD i 0 + st1.getD i 0 = scf.getD i 0 := by
  have n1 := snsNearest_real (scf.take 8) LFCB [] 0 none (.inl ⟨rfl, rfl⟩) (by
    intro h; have := LFCB_shape.1; rw [List.nil_append] at h; rw [h] at this; simp at this)
  have n2 := snsNearest_real (scf.drop 8) HFCB [] 0 none (.inl ⟨rfl, rfl⟩) (by
    intro h; have := HFCB_shape.1; rw [List.nil_append] at h; rw [h] at this; simp at this)
  rw [List.nil_append, List.length_nil] at n1 n2
  have l1 : snsNearest (scf.take 8) LFCB 0 0 none < LFCB.length := by simpa using n1.1
  have l2 : snsNearest (scf.drop 8) HFCB 0 0 none < HFCB.length := by simpa using n2.1
  obtain ⟨st1, hs⟩ : ∃ s, s = castL (LFCB.getD (snsNearest (scf.take 8) LFCB 0 0 none) [] ++
      HFCB.getD (snsNearest (scf.drop 8) HFCB 0 0 none) []) := ⟨_, rfl⟩
  have hst : st1.length = 16 := by
    rw [hs, castL, List.length_map, List.length_append, List.getD_eq_getElem _ _ l1, List.getD_eq_getElem _ _ l2,
      LFCB_shape.2 _ (List.getElem_mem _), HFCB_shape.2 _ (List.getElem_mem _)]
  refine ⟨_, _, st1, ((scf.zip st1).map fun p => p.1 - p.2), ?_, n1, n2, hs, hst, ?_, ?_⟩
  · unfold snsStage1
    rw [if_neg (by simpa using h)]
    simp only
    rw [idx_eq_ok l1, Res.bind_ok, idx_eq_ok l2, Res.bind_ok, ← List.getD_eq_getElem _ [] l1, ← List.getD_eq_getElem _ [] l2, hs]
    rfl
  · rw [List.length_map, List.length_zip, h, hst]; rfl
  · intro i hi
    rw [List.getD_eq_getElem _ _ (by rw [List.length_map, List.length_zip, h, hst]; exact hi), List.getElem_map, List.getElem_zip,
      List.getD_eq_getElem _ _ (by rw [hst]; exact hi), List.getD_eq_getElem _ _ (by omega)]
    ring

/-! ## Pulse search -/

theorem snsProjStats_real (y : List Int) (X : List ℝ) :
    (snsProjStats y X).2.1 = correlation X y ∧ (y.length ≤ X.length → (snsProjStats y X).2.2 = pulseEnergy y) := by
  have main : ∀ (y : List Int) (X : List ℝ) (s : Nat × ℝ × ℝ),
      ((y.zip X).foldl (fun (s : Nat × ℝ × ℝ) p => if p.1 ≠ 0 then
        (s.1 + i32AsUsize p.1, s.2.1 + ofInt p.1 * p.2, s.2.2 + ofInt p.1 * ofInt p.1) else s) s).2.1 = s.2.1 + correlation X y ∧
      (y.length ≤ X.length → ((y.zip X).foldl (fun (s : Nat × ℝ × ℝ) p => if p.1 ≠ 0 then
        (s.1 + i32AsUsize p.1, s.2.1 + ofInt p.1 * p.2, s.2.2 + ofInt p.1 * ofInt p.1) else s) s).2.2 = s.2.2 + pulseEnergy y) := by
    intro y
    induction y with
    | nil => intro X s; simp [correlation, pulseEnergy]
    | cons a y ih =>
      intro X s
      match X with
      | [] => simp [correlation]
      | x :: X =>
        rw [List.zip_cons_cons, List.foldl_cons]
        obtain ⟨i1, i2⟩ := ih X (if a ≠ 0 then (s.1 + i32AsUsize a, s.2.1 + ofInt a * x, s.2.2 + ofInt a * ofInt a) else s)
        rw [i1]
        have hc : correlation (x :: X) (a :: y) = x * (a : ℝ) + correlation X y := by simp [correlation]
        have he : pulseEnergy (a :: y) = (a : ℝ) ^ 2 + pulseEnergy y := by simp [pulseEnergy]
        refine ⟨?_, fun hl => ?_⟩
        · rw [hc]
          split
          · simp only [snsOfInt_real]; ring
          · rename_i h; simp only [ne_eq, not_not] at h; subst h; simp
        · rw [i2 (by simpa using hl), he]
          split
          · simp only [snsOfInt_real]; ring
          · rename_i h; simp only [ne_eq, not_not] at h; subst h; simp
  have hz : (zero : ℝ) = 0 := Rat.cast_zero
  have := main y X (0, zero, zero)
  simpa [snsProjStats, hz] using this

theorem pulseEnergy_nonneg (y : List Int) : 0 ≤ pulseEnergy y :=
  List.sum_nonneg fun x hx => by obtain ⟨v, _, rfl⟩ := List.mem_map.1 hx; exact sq_nonneg _

theorem snsProject_eq {x : List ℝ} (h : ∀ a ∈ x, 0 ≤ a) : snsProject 6 x = projection 5 x := by
  unfold snsProject projection
  simp only
  rw [foldl_add_real, show (zero : ℝ) = 0 from Rat.cast_zero, zero_add, snsOfInt_real, snsOne_real]
  have h5 : ((((6 : ℕ) : ℤ) : ℝ) - 1) = ((5 : ℕ) : ℝ) := by norm_num
  rw [h5]
  apply List.map_congr_left
  intro a ha
  have hs : 0 ≤ x.sum := List.sum_nonneg h
  have h0 : 0 ≤ a * (((5 : ℕ) : ℝ) / x.sum) := mul_nonneg (h a ha) (div_nonneg (by norm_num) hs)
  have hle : a * (((5 : ℕ) : ℝ) / x.sum) ≤ 5 := by
    rcases eq_or_lt_of_le hs with e | e
    · rw [← e]; norm_num
    · rw [mul_div_assoc', div_le_iff₀ e]
      have := List.single_le_sum h a ha
      push_cast
      linarith
  have hf0 : 0 ≤ ⌊a * (((5 : ℕ) : ℝ) / x.sum)⌋ := Int.floor_nonneg.2 h0
  have hf5 : ⌊a * (((5 : ℕ) : ℝ) / x.sum)⌋ ≤ 5 := by
    have := Int.floor_le (a * (((5 : ℕ) : ℝ) / x.sum))
    have : ((⌊a * (((5 : ℕ) : ℝ) / x.sum)⌋ : ℤ) : ℝ) ≤ ((5 : ℤ) : ℝ) := by push_cast; linarith
    exact_mod_cast this
  show realToI32 ((⌊a * (((5 : ℕ) : ℝ) / x.sum)⌋ : ℤ) : ℝ) = _
  unfold realToI32
  rw [if_pos (by exact_mod_cast hf0), Int.floor_intCast]
  omega

theorem snsBestB_real {x : List ℝ} : ∀ (d n best : Nat) (m : ℝ), n + d = x.length → 10 ≤ n →
    (best = 0 ∧ m = 0 ∧ (∀ k, 10 ≤ k → k < n → x.getD k 0 ≤ 0) ∨
      10 ≤ best ∧ best < n ∧ m = x.getD best 0 ∧ 0 < m ∧
        ∀ k, 10 ≤ k → k < n → x.getD k 0 ≤ m ∧ (k < best → x.getD k 0 < m)) →
    (∃ k, 10 ≤ k ∧ k < x.length ∧ 0 < x.getD k 0) → IsFirstMax x 10 (snsBestB (x.drop n) n best m)
  | 0, n, best, m, hn, h10, h, hp => by
    rw [List.drop_eq_nil_of_le (by omega)]
    unfold snsBestB
    rcases h with ⟨-, -, h⟩ | ⟨a1, a2, a3, a4, a5⟩
    · obtain ⟨k, k1, k2, k3⟩ := hp
      exact absurd (h k k1 (by omega)) (not_le.2 k3)
    · refine ⟨a1, by omega, fun k hk hk2 => ?_⟩
      rw [← a3]
      exact a5 k hk (by omega)
  | d + 1, n, best, m, hn, h10, h, hp => by
    rw [List.drop_eq_getElem_cons (by omega), ← List.getD_eq_getElem _ 0 (by omega)]
    unfold snsBestB
    simp only [snsLt_real]
    split
    · rename_i hlt
      refine snsBestB_real d (n + 1) n _ (by omega) (by omega) (.inr ⟨h10, by omega, rfl, ?_, ?_⟩) hp
      · rcases h with ⟨-, rfl, -⟩ | ⟨-, -, -, h, -⟩
        · exact hlt
        · exact h.trans hlt
      · intro k k1 k2
        by_cases hk : k = n
        · subst hk; exact ⟨le_refl _, fun h => absurd h (lt_irrefl _)⟩
        · have : x.getD k 0 ≤ m := by
            rcases h with ⟨-, rfl, h⟩ | ⟨-, -, -, -, h⟩
            · exact h k k1 (by omega)
            · exact (h k k1 (by omega)).1
          exact ⟨(this.trans_lt hlt).le, fun _ => this.trans_lt hlt⟩
    · rename_i hlt
      refine snsBestB_real d (n + 1) best m (by omega) (by omega) ?_ hp
      rcases h with ⟨rfl, rfl, h⟩ | ⟨a1, a2, a3, a4, a5⟩
      · refine .inl ⟨rfl, rfl, fun k k1 k2 => ?_⟩
        by_cases hk : k = n
        · subst hk; exact not_lt.1 hlt
        · exact h k k1 (by omega)
      · refine .inr ⟨a1, by omega, a3, a4, fun k k1 k2 => ?_⟩
        by_cases hk : k = n
        · subst hk; exact ⟨not_lt.1 hlt, fun h => by omega⟩
        · exact a5 k k1 (by omega)

theorem snsSigns_real (t : List ℝ) (y : List Int) : snsSigns t y = withSigns t y := by
  unfold snsSigns withSigns
  apply List.map_congr_left
  intro p _
  have hz : (zero : ℝ) = 0 := Rat.cast_zero
  simp only [snsLt_real, hz]
  split <;> simp

/-- What the pulse search of the second stage should do, in exact arithmetic and for every target: starting with the projection, six
pulses, then two more, then (with those of the first ten positions) as many as ten need, are added greedily. -/
def C67_statement : Prop := ∀ t : List ℝ, t.length = 16 → ∃ u, snsSearch (t.map fun a => |a|) = .ok u ∧
  Greedy (t.map fun a => |a|) 16 (6 - unitPulses (projection 5 (t.map fun a => |a|))) (projection 5 (t.map fun a => |a|)) u.y3 ∧
  Greedy (t.map fun a => |a|) 16 2 u.y3 u.y2 ∧
  Greedy (t.map fun a => |a|) 10 (10 - unitPulses (u.y2.take 10)) (u.y2.take 10) u.y1

/-- **C67** (partial) In exact arithmetic, for every target:
* the six pulses of shape 3 are added greedily to the projection;
* the two further pulses of shape 2 are chosen with the correlation and energy of a vector that is not the one of shape 3: its
  last pulse `q → y3` is counted at position 15 wherever it is;
* the single pulse of shape 0 in the last six positions is at the first largest entry, if there is one that is not zero;
* all pulses get the signs of the target.
(Missing: shapes 2 and 1 are not greedy, see `C67_fails`.) -/
theorem C67_partial {t : List ℝ} (ht : t.length = 16) : ∃ u q c' e', snsSearch (t.map fun a => |a|) = .ok u ∧
    Greedy (t.map fun a => |a|) 16 (5 - unitPulses (projection 5 (t.map fun a => |a|))) (projection 5 (t.map fun a => |a|)) q ∧
    Greedy (t.map fun a => |a|) 16 1 q u.y3 ∧
    GreedyFrom (t.map fun a => |a|) 16 2 (correlation (t.map fun a => |a|) (addPulse q 15)) (pulseEnergy (addPulse q 15)) u.y3 c' e' u.y2 ∧
    ((∃ k, 10 ≤ k ∧ k < 16 ∧ t.getD k 0 ≠ 0) → ∃ n, IsFirstMax (t.map fun a => |a|) 10 n ∧ u.y0 = addPulse (u.y1 ++ List.replicate 6 0) n) ∧
    snsCands t = .ok ⟨withSigns t u.y0, withSigns t u.y1, withSigns t u.y2, withSigns t u.y3⟩ := by
  have hnn : ∀ a ∈ t.map fun a => |a|, 0 ≤ a := fun a ha => by
    obtain ⟨b, _, rfl⟩ := List.mem_map.1 ha
    exact abs_nonneg b
  have hget : ∀ k, (t.map fun a => |a|).getD k 0 = |t.getD k 0| := fun k => by
    rw [List.getD_eq_getElem?_getD, List.getD_eq_getElem?_getD, List.getElem?_map]
    cases t[k]? <;> simp
  obtain ⟨x, hx⟩ : ∃ x, x = t.map fun a => |a| := ⟨_, rfl⟩
  have hxl : x.length = 16 := by rw [hx]; simpa using ht
  have hc : snsCands t = (snsSearch x >>= fun c => .ok ⟨snsSigns t c.y0, snsSigns t c.y1, snsSigns t c.y2, snsSigns t c.y3⟩) := by
    rw [hx]; rfl
  rw [← hx] at hnn hget ⊢
  obtain ⟨h0, h5⟩ := snsProject_real x hnn
  obtain ⟨u, hu, -⟩ := snsSearch_ok hxl h0 (by omega)
  have hu0 := hu
  unfold snsSearch at hu
  rw [snsProject_eq hnn] at h0 h5
  simp only [snsProject_eq hnn] at hu
  have hpl : (projection 5 x).length = 16 := by simp [projection, hxl]
  have hk := snsProjStats_k (projection 5 x) x (by omega) h0 (by omega)
  obtain ⟨hcr, hen⟩ := snsProjStats_real (projection 5 x) x
  have hen := hen (by omega)
  generalize snsProjStats (projection 5 x) x = st at hu hk hcr hen
  obtain ⟨k, c, e⟩ := st
  simp only at hk hcr hen hu
  rw [hk] at hu
  obtain ⟨⟨y3, c3, e3⟩, g3, hu⟩ := bind_ok_inv hu
  obtain ⟨⟨y2, c2, e2⟩, g2, hu⟩ := bind_ok_inv hu
  obtain ⟨⟨k1, c1, e1⟩, g1, hu⟩ := bind_ok_inv hu
  obtain ⟨⟨y1, c0, e0⟩, g0, hu⟩ := bind_ok_inv hu
  obtain ⟨y0, gy0, hu⟩ := bind_ok_inv hu
  simp only [Res.ok.injEq] at hu
  obtain ⟨-, a2⟩ := addUnitPulse_real hxl (by norm_num) (le_refl 16) _ _ _ _ _ _ _ _ _ (by omega) h0
    (by rw [hen]; linarith [pulseEnergy_nonneg (projection 5 x)]) g3
  obtain ⟨q, cq, eq, cz, ez, b1, b2, b3, b4⟩ := a2 (5 - pulseSum (projection 5 x)) (by omega)
  obtain ⟨d1, d2, d3⟩ := greedyFrom_greedy b1 (by omega) hcr hen
  have hql : ∀ {r : Nat} {y z : List Int}, Greedy x 16 r y z → z.length = y.length := by
    intro r y z h
    induction h with
    | done => rfl
    | step _ _ ih => rw [ih, addPulse_length]
  have hq16 : q.length = 16 := by rw [hql d1, hpl]
  obtain ⟨f1, -, -⟩ := greedyFrom_greedy b2 (by omega) d2 d3
  have hc3 : c3 = correlation x (addPulse q 15) := by rw [b3, d2, correlation_addPulse _ _ _ (by omega)]
  have he3 : e3 = pulseEnergy (addPulse q 15) := by rw [b4, d3, pulseEnergy_addPulse _ _ (by omega)]
  obtain ⟨y3', c3', e3', i1, i2, i3, i4⟩ := addUnitPulse_ok hxl (by norm_num : 1 ≤ 16) (le_refl _) (6 - pulseSum (projection 5 x))
    (projection 5 x) c e c e (by omega) h0 (by omega)
  rw [g3] at i1
  simp only [Res.ok.injEq, Prod.mk.injEq] at i1
  obtain ⟨rfl, -, -⟩ := i1
  obtain ⟨-, l2⟩ := addUnitPulse_real hxl (by norm_num) (le_refl 16) _ _ _ _ _ _ _ _ _ (by omega) i3
    (by rw [he3]; linarith [pulseEnergy_nonneg (addPulse q 15)]) g2
  obtain ⟨q2, cq2, eq2, cz2, ez2, m1, m2, -, -⟩ := l2 1 (by norm_num)
  have hjoin : ∀ {r : Nat} {a b a' b' : ℝ} {y z : List Int}, GreedyFrom x 16 r a b y a' b' z → ∀ {a2 b2 : ℝ} {w : List Int},
      GreedyFrom x 16 1 a' b' z a2 b2 w → GreedyFrom x 16 (r + 1) a b y a2 b2 w := by
    intro r a b a' b' y z h
    induction h with
    | done => intro a2 b2 w h; exact h
    | step hn hb _ ih => intro a2 b2 w h; exact .step hn hb (ih h)
  have m3 := hjoin m1 m2
  rw [hc3, he3] at m3
  refine ⟨u, q, cz2, ez2, hu0, by rw [unitPulses_eq]; exact d1, by rw [← hu]; exact f1, by rw [← hu]; exact m3, ?_, ?_⟩
  · rintro ⟨k, k1, k2, k3⟩
    have hB := snsBestB_real (x := x) 6 10 0 0 (by omega) (le_refl _) (.inl ⟨rfl, rfl, fun k h1 h2 => by omega⟩)
      ⟨k, k1, by omega, by rw [hget]; exact abs_pos.2 k3⟩
    refine ⟨_, hB, ?_⟩
    rw [← hu]
    simp only
    have hz : (zero : ℝ) = 0 := Rat.cast_zero
    rw [hz] at gy0
    generalize snsBestB (x.drop 10) 10 0 0 = n at hB gy0
    unfold setIdx at gy0
    split at gy0
    · rename_i hlt
      simp only [Res.ok.injEq] at gy0
      rw [← gy0]
      unfold addPulse
      have hy1 : y1.length = 10 := by
        obtain ⟨y2', c2', e2', j1, j2, j3, j4⟩ := addUnitPulse_ok hxl (by norm_num : 1 ≤ 16) (le_refl _) (8 - 6) y3 c3 e3 c3 e3
          (by omega) i3 (by omega)
        rw [g2] at j1
        simp only [Res.ok.injEq, Prod.mk.injEq] at j1
        obtain ⟨rfl, -, -⟩ := j1
        obtain ⟨u', hu', s1, s2, s3, s4, s5, -⟩ := snsSearch_ok hxl (by rw [snsProject_eq hnn]; exact h0)
          (by rw [snsProject_eq hnn]; omega)
        rw [hu0] at hu'
        obtain rfl := Res.ok.inj hu'
        rw [← hu] at s5
        exact s5
      have : (y1 ++ List.replicate 6 (0 : Int)).getD n 0 = 0 := by
        rw [List.getD_append_right _ _ _ _ (by rw [hy1]; exact hB.1), List.getD_eq_getElem?_getD, List.getElem?_replicate]
        split <;> rfl
      rw [this]
      rfl
    · cases gy0
  · rw [hc, hu0, Res.bind_ok]
    simp only [snsSigns_real]

/-! ### A single pulse -/

/-- `k` pulses at position 12 -/
def pulsesAt (k : Int) : List Int := (List.replicate 16 (0 : Int)).set 12 k

/-- a target with a single entry -/
def targetAt (a : ℝ) : List ℝ := (List.replicate 16 (0 : ℝ)).set 12 a

theorem pulsesAt_add (k : Int) : addPulse (pulsesAt k) 12 = pulsesAt (k + 1) := by simp [addPulse, pulsesAt]

theorem pulsesAt_getD (k : Int) (n : Nat) : (pulsesAt k).getD n 0 = if n = 12 then k else 0 := by
  unfold pulsesAt
  rw [List.getD_eq_getElem?_getD, List.getElem?_set, List.getElem?_replicate]
  by_cases h : n = 12
  · subst h; simp
  · rw [if_neg (fun e => h e.symm), if_neg h]
    split <;> rfl

theorem targetAt_getD (a : ℝ) (n : Nat) : (targetAt a).getD n 0 = if n = 12 then a else 0 := by
  unfold targetAt
  rw [List.getD_eq_getElem?_getD, List.getElem?_set, List.getElem?_replicate]
  by_cases h : n = 12
  · subst h; simp
  · rw [if_neg (fun e => h e.symm), if_neg h]
    split <;> rfl

theorem pulsesAt_length (k : Int) : (pulsesAt k).length = 16 := by simp [pulsesAt]

theorem targetAt_length (a : ℝ) : (targetAt a).length = 16 := by simp [targetAt]

theorem correlation_at (a : ℝ) (k : Int) : correlation (targetAt a) (pulsesAt k) = a * k := by
  simp [correlation, targetAt, pulsesAt, List.replicate]

theorem pulseEnergy_at (k : Int) : pulseEnergy (pulsesAt k) = (k : ℝ) ^ 2 := by
  simp [pulseEnergy, pulsesAt, List.replicate]

theorem targetAt_abs {a : ℝ} (h : 0 ≤ a) : ((targetAt a).map fun a => |a|) = targetAt a := by
  simp [targetAt, List.replicate, abs_of_nonneg h]

theorem projection_at {a : ℝ} (h : 0 < a) : projection 5 (targetAt a) = pulsesAt 5 := by
  have hs : (targetAt a).sum = a := by simp [targetAt, List.replicate]
  unfold projection
  rw [hs]
  have e : a * ((5 : ℝ) / a) = 5 := by field_simp
  simp [targetAt, pulsesAt, List.replicate, e]

theorem unitPulses_at (k : Int) : unitPulses (pulsesAt k) = k.natAbs := by
  simp [unitPulses, pulsesAt, List.replicate]

theorem bestPulse_at {a : ℝ} (h : 0 < a) {k : Int} (hk : 0 ≤ k) {n : Nat} (hb : BestPulse (targetAt a) 16 (pulsesAt k) n) : n = 12 := by
  by_contra hn
  have h1 := (hb.2 12 (by norm_num)).1
  have hl := hb.1
  rw [correlation_addPulse _ _ _ (by rw [pulsesAt_length]; omega), correlation_addPulse _ _ _ (by rw [pulsesAt_length]; omega),
    pulseEnergy_addPulse _ _ (by rw [pulsesAt_length]; omega), pulseEnergy_addPulse _ _ (by rw [pulsesAt_length]; omega),
    correlation_at, pulseEnergy_at, pulsesAt_getD, pulsesAt_getD, targetAt_getD, targetAt_getD, if_neg hn, if_pos rfl, if_neg hn,
    if_pos rfl] at h1
  have hk' : (0 : ℝ) ≤ (k : ℝ) := by exact_mod_cast hk
  have : (a * (k : ℝ) + a) ^ 2 * ((k : ℝ) ^ 2 + 2 * ((0 : ℤ) : ℝ) + 1) - (a * (k : ℝ) + 0) ^ 2 * ((k : ℝ) ^ 2 + 2 * (k : ℝ) + 1) =
      a ^ 2 * ((k : ℝ) + 1) ^ 2 := by push_cast; ring
  have hp : 0 < a ^ 2 * ((k : ℝ) + 1) ^ 2 := by positivity
  linarith

theorem greedy_at {a : ℝ} (h : 0 < a) : ∀ (r : Nat) {k : Int}, 0 ≤ k → ∀ {z : List Int}, Greedy (targetAt a) 16 r (pulsesAt k) z → z = pulsesAt (k + r)
  | 0, k, hk, z, hg => by
    cases hg
    simp
  | r + 1, k, hk, z, hg => by
    cases hg with
    | step hb hg =>
      obtain rfl := bestPulse_at h hk hb
      rw [pulsesAt_add] at hg
      rw [greedy_at h r (by omega) hg]
      congr 1
      push_cast
      ring

/-- the candidate of shape 3 of a target with a single entry -/
theorem shape3_at {a : ℝ} (h : 0 < a) {u : SnsCands} {q : List Int}
    (h1 : Greedy (targetAt a) 16 (5 - unitPulses (projection 5 (targetAt a))) (projection 5 (targetAt a)) q)
    (h2 : Greedy (targetAt a) 16 1 q u.y3) : q = pulsesAt 5 ∧ u.y3 = pulsesAt 6 := by
  rw [projection_at h, unitPulses_at] at h1
  have e := greedy_at h _ (by norm_num) h1
  have e5 : q = pulsesAt 5 := by rw [e]; rfl
  subst e5
  exact ⟨rfl, greedy_at h 1 (by norm_num) h2⟩

/-- **C67 is false**: if the target has a single entry, all pulses of shape 2 should be there. The search puts one elsewhere. -/
theorem C67_fails : ¬ C67_statement := by
  intro hs
  obtain ⟨u, hu, -, h2, -⟩ := hs (targetAt 1) (targetAt_length 1)
  obtain ⟨u', q, c', e', hu', g1, g2, g3, -⟩ := C67_partial (targetAt_length 1)
  rw [hu] at hu'
  obtain rfl := Res.ok.inj hu'
  rw [targetAt_abs (by norm_num)] at h2 g1 g2 g3
  obtain ⟨rfl, e6⟩ := shape3_at (by norm_num) g1 g2
  rw [e6] at h2 g3
  have e8 := greedy_at (by norm_num) 2 (by norm_num) h2
  rw [correlation_addPulse _ _ _ (by rw [pulsesAt_length]; omega), pulseEnergy_addPulse _ _ (by rw [pulsesAt_length]; omega),
    correlation_at, pulseEnergy_at, pulsesAt_getD, targetAt_getD] at g3
  generalize hz : u.y2 = z at g3 e8
  cases g3 with
  | @step _ n _ _ _ _ _ _ hn best next =>
    cases next with
    | @step _ m _ _ _ _ _ _ hm best2 next =>
      cases next with
      | done =>
        by_cases h12 : n = 12
        · subst h12
          have := (best 0 (by norm_num)).1
          rw [targetAt_getD, targetAt_getD, pulsesAt_getD, pulsesAt_getD] at this
          norm_num at this
        · have e : (addPulse (addPulse (pulsesAt 6) n) m).getD 12 0 ≤ 7 := by
            unfold addPulse
            rw [List.getD_eq_getElem?_getD, List.getElem?_set]
            have hin : ((pulsesAt 6).set n ((pulsesAt 6).getD n 0 + 1)).getD 12 0 = 6 := by
              rw [List.getD_eq_getElem?_getD, List.getElem?_set_ne h12, ← List.getD_eq_getElem?_getD, pulsesAt_getD]
              rfl
            by_cases hm12 : m = 12
            · subst hm12
              rw [hin]
              simp [pulsesAt_length]
            · rw [if_neg hm12, ← List.getD_eq_getElem?_getD, hin]
              norm_num
          rw [e8, pulsesAt_getD] at e
          norm_num at e

/-! ## Shape and gain -/

/-- candidate `j` with gain `i` -/
noncomputable def scaledCand (c : SnsCands) (j i : Nat) : List ℝ :=
  (unitVector (candidateOf j c)).map fun v => (((gainsOf j).getD i 0 : ℚ) : ℝ) * v

/-- What the choice of shape and gain should do, in exact arithmetic: no shape with any of its gains is closer to the
rotated residual than the one chosen. -/
def C68_statement : Prop := ∀ (r1 st1 : List ℝ) (s : SnsStage2 ℝ) (c : SnsCands), r1.length = 16 → st1.length = 16 →
  snsStage2 r1 st1 = .ok s → snsCands (snsRotate r1) = .ok c → ∀ j i, j < 4 → i < gainCount j →
  sqDist (snsRotate r1) (scaledCand c s.shapeJ s.gind) ≤ sqDist (snsRotate r1) (scaledCand c j i)

theorem snsDist_real (t xq : List ℝ) (g : ℝ) : snsDist t xq g = sqDist t (xq.map fun v => g * v) := by
  unfold snsDist sqDist
  simp only
  rw [foldl_sum_real (fun p : ℝ × ℝ => (p.2 - g * p.1) * (p.2 - g * p.1)), show (zero : ℝ) = 0 from Rat.cast_zero, zero_add]
  congr 1
  rw [List.zip_map_right, List.map_map, ← List.zip_swap, List.map_map]
  apply List.map_congr_left
  intro p _
  simp only [Function.comp, Prod.map, id, Prod.swap]
  ring

/-- the choice so far: a gain that is not the last one of its shape, with its distance -/
def Selected (t : List ℝ) (xs : Nat → List ℝ) (s : SnsChoice ℝ) : Prop :=
  s.shapeJ < 4 ∧ s.gind + 1 < gainCount s.shapeJ ∧ (∃ g, (gainsOf s.shapeJ)[s.gind]? = some g ∧ s.gain = ofRat g) ∧ s.xq = xs s.shapeJ ∧
    s.dmin = some (snsDist t s.xq s.gain)

theorem snsTryGains_min (t xq : List ℝ) (j : Nat) : ∀ (gs : List Rat) (i : Nat) (s : SnsChoice ℝ),
    s.dmin = some (snsDist t s.xq s.gain) →
    (snsTryGains t xq j gs i s).dmin = some (snsDist t (snsTryGains t xq j gs i s).xq (snsTryGains t xq j gs i s).gain) ∧
    snsDist t (snsTryGains t xq j gs i s).xq (snsTryGains t xq j gs i s).gain ≤ snsDist t s.xq s.gain ∧
    ∀ g ∈ gs, snsDist t (snsTryGains t xq j gs i s).xq (snsTryGains t xq j gs i s).gain ≤ snsDist t xq (ofRat g)
  | [], i, s, h => ⟨h, le_refl _, by simp⟩
  | g :: gs, i, s, h => by
    rw [snsTryGains, h]
    simp only [snsLt_real]
    split
    · rename_i hlt
      obtain ⟨a1, a2, a3⟩ := snsTryGains_min t xq j gs (i + 1) ⟨j, i, ofRat g, xq, some (snsDist t xq (ofRat g))⟩ rfl
      refine ⟨a1, a2.trans hlt.le, fun g' hg' => ?_⟩
      rcases List.mem_cons.1 hg' with rfl | hg'
      · exact a2
      · exact a3 g' hg'
    · rename_i hlt
      obtain ⟨a1, a2, a3⟩ := snsTryGains_min t xq j gs (i + 1) s h
      refine ⟨a1, a2, fun g' hg' => ?_⟩
      rcases List.mem_cons.1 hg' with rfl | hg'
      · exact a2.trans (not_lt.1 hlt)
      · exact a3 g' hg'

theorem selected_step {t : List ℝ} {xs : Nat → List ℝ} {s : SnsChoice ℝ} (h : Selected t xs s) {j n : Nat} (hj : j < 4)
    (hn : n + 1 = gainCount j) (hl : (gainsOf j).length = gainCount j) :
    Selected t xs (snsTryGains t (xs j) j ((gainsOf j).take n) 0 s) ∧
    snsDist t (snsTryGains t (xs j) j ((gainsOf j).take n) 0 s).xq (snsTryGains t (xs j) j ((gainsOf j).take n) 0 s).gain ≤
      snsDist t s.xq s.gain ∧
    ∀ i, i + 1 < gainCount j → snsDist t (snsTryGains t (xs j) j ((gainsOf j).take n) 0 s).xq
      (snsTryGains t (xs j) j ((gainsOf j).take n) 0 s).gain ≤ snsDist t (xs j) (ofRat ((gainsOf j).getD i 0)) := by
  obtain ⟨h1, h2, h3, h4, h5⟩ := h
  obtain ⟨a1, a2, a3⟩ := snsTryGains_min t (xs j) j ((gainsOf j).take n) 0 s h5
  refine ⟨?_, a2, ?_⟩
  · rcases snsTryGains_cases t (xs j) j ((gainsOf j).take n) 0 s with e | ⟨k, g, d, e1, e2⟩
    · rw [e]; exact ⟨h1, h2, h3, h4, h5⟩
    · rw [e2] at a1 ⊢
      have hk : k < n := by
        have := (List.getElem?_eq_some_iff.1 e1).1
        rw [List.length_take] at this
        omega
      rw [List.getElem?_take, if_pos hk] at e1
      exact ⟨hj, by simp only; omega, ⟨g, by simpa using e1, rfl⟩, rfl, a1⟩
  · intro i hi
    apply a3
    rw [List.getD_eq_getElem _ _ (by omega)]
    exact List.mem_take_iff_getElem.2 ⟨i, by omega, rfl⟩

theorem snsChoose_min (t : List ℝ) (xs : Nat → List ℝ) : Selected t xs (snsChoose t (xs 0) (xs 1) (xs 2) (xs 3)) ∧
    ∀ j i, j < 4 → i + 1 < gainCount j → snsDist t (snsChoose t (xs 0) (xs 1) (xs 2) (xs 3)).xq (snsChoose t (xs 0) (xs 1) (xs 2) (xs 3)).gain ≤
      snsDist t (xs j) (ofRat ((gainsOf j).getD i 0)) := by
  unfold snsChoose
  simp only
  obtain ⟨g, hg⟩ : ∃ g, gainsOf 0 = g :: (gainsOf 0).tail := ⟨_, rfl⟩
  have e0 : SNS_VQ_REG_ADJ_GAINS.take 1 = [g] := by
    show (gainsOf 0).take 1 = [g]
    rw [hg]; rfl
  have s0 : snsTryGains t (xs 0) 0 (SNS_VQ_REG_ADJ_GAINS.take 1) 0 ⟨0, 0, zero, xs 0, none⟩ =
      ⟨0, 0, ofRat g, xs 0, some (snsDist t (xs 0) (ofRat g))⟩ := by
    rw [e0]; rfl
  rw [s0]
  have h0 : Selected t xs ⟨0, 0, ofRat g, xs 0, some (snsDist t (xs 0) (ofRat g))⟩ :=
    ⟨by norm_num, by show 0 + 1 < gainCount 0; decide, ⟨g, by show (gainsOf 0)[0]? = some g; rw [hg]; rfl, rfl⟩, rfl, rfl⟩
  have b0 : ∀ i, i + 1 < gainCount 0 → snsDist t (xs 0) (ofRat g) ≤ snsDist t (xs 0) (ofRat ((gainsOf 0).getD i 0)) := by
    intro i hi
    have : i = 0 := by
      have : gainCount 0 = 2 := rfl
      omega
    subst this
    rw [hg]
    exact le_refl _
  obtain ⟨h1, m1, b1⟩ := selected_step h0 (j := 1) (n := 3) (by norm_num) rfl (by decide)
  obtain ⟨h2, m2, b2⟩ := selected_step h1 (j := 2) (n := 3) (by norm_num) rfl (by decide)
  obtain ⟨h3, m3, b3⟩ := selected_step h2 (j := 3) (n := 7) (by norm_num) rfl (by decide)
  refine ⟨h3, fun j i hj hi => ?_⟩
  have hc : j = 0 ∨ j = 1 ∨ j = 2 ∨ j = 3 := by omega
  rcases hc with rfl | rfl | rfl | rfl
  · exact m3.trans (m2.trans (m1.trans (b0 i hi)))
  · exact m3.trans (m2.trans (b1 i hi))
  · exact m3.trans (b2 i hi)
  · exact b3 i hi

theorem snsNorm_energy (y : List Int) : (snsNorm y : ℝ) = Real.sqrt (pulseEnergy y) := by
  rw [snsNorm_real]
  simp only [pulseEnergy, pow_two]

/-- the normalised candidates -/
theorem unitVector_cand {c : SnsCands} (h0 : c.y0.length = 16) (h1 : c.y1.length = 10) (h2 : c.y2.length = 16) (h3 : c.y3.length = 16)
    (j : Nat) : (snsNormalize (match j with | 0 => c.y0 | 1 => c.y1 | 2 => c.y2 | _ => c.y3) : List ℝ) = unitVector (candidateOf j c) := by
  rw [snsNormalize_real]
  unfold unitVector
  rw [← snsNorm_energy]
  match j with
  | 0 => simp only [candidateOf]; rw [h0]; simp
  | 1 => simp only [candidateOf]; rw [h1, snsNorm_pad]
  | 2 => simp only [candidateOf]; rw [h2]; simp
  | j + 3 => simp only [candidateOf]; rw [h3]; simp

theorem withSigns_length (t : List ℝ) (y : List Int) : (withSigns t y).length = min t.length y.length := by
  simp [withSigns]

theorem snsCands_lengths {t : List ℝ} (ht : t.length = 16) {c : SnsCands} (h : snsCands t = .ok c) :
    c.y0.length = 16 ∧ c.y1.length = 10 ∧ c.y2.length = 16 ∧ c.y3.length = 16 := by
  obtain ⟨u, q, c', e', hu, -, -, -, -, hc⟩ := C67_partial ht
  rw [h] at hc
  obtain rfl := Res.ok.inj hc
  have hnn : ∀ a ∈ t.map fun a => |a|, 0 ≤ a := fun a ha => by
    obtain ⟨b, _, rfl⟩ := List.mem_map.1 ha
    exact abs_nonneg b
  obtain ⟨h0, h5⟩ := snsProject_real _ hnn
  obtain ⟨u', hu', s3, -, s2, -, s1, -, s0, -⟩ := snsSearch_ok (absX := t.map fun a => |a|) (by simpa using ht) h0 (by omega)
  rw [hu] at hu'
  obtain rfl := Res.ok.inj hu'
  simp only [withSigns_length, ht, s0, s1, s2, s3]
  decide

theorem candidateOf_length {c : SnsCands} (h : c.y0.length = 16 ∧ c.y1.length = 10 ∧ c.y2.length = 16 ∧ c.y3.length = 16) (j : Nat) :
    (candidateOf j c).length = 16 := by
  match j with
  | 0 => exact h.1
  | 1 => simp only [candidateOf]; rw [List.length_append, h.2.1, List.length_replicate]
  | 2 => exact h.2.2.1
  | j + 3 => exact h.2.2.2

theorem scaledCand_length {c : SnsCands} (h : c.y0.length = 16 ∧ c.y1.length = 10 ∧ c.y2.length = 16 ∧ c.y3.length = 16) (j i : Nat) :
    (scaledCand c j i).length = 16 := by
  simp [scaledCand, unitVector, candidateOf_length h]

/-- **C68** (partial) In exact arithmetic, for all residuals: the second stage chooses a shape and a gain of the shape; the rotated
residual is at least as close to the candidate of this shape with this gain as to every candidate with every gain but the last one of
its shape. The quantised scale factors are those of the first stage plus the chosen vector rotated back.
(Missing: the last gain of each shape is never tried, see `C68_fails`.) -/
theorem C68_partial {r1 st1 : List ℝ} (hr : r1.length = 16) (hst : st1.length = 16) {s : SnsStage2 ℝ} {c : SnsCands}
    (h : snsStage2 r1 st1 = .ok s) (hc : snsCands (snsRotate r1) = .ok c) :
    s.shapeJ < 4 ∧ s.gind + 1 < gainCount s.shapeJ ∧
    (∀ j i, j < 4 → i + 1 < gainCount j →
      sqDist (snsRotate r1) (scaledCand c s.shapeJ s.gind) ≤ sqDist (snsRotate r1) (scaledCand c j i)) ∧
    s.scfq.length = 16 ∧
    ∀ i : Fin 16, s.scfq.getD i 0 = st1.getD i 0 + ∑ j : Fin 16, (scaledCand c s.shapeJ s.gind).getD j 0 * rotEntry i j := by
  have hl := snsCands_lengths (snsRotate_length r1) hc
  unfold snsStage2 at h
  simp only at h
  rw [hc, Res.bind_ok] at h
  obtain ⟨⟨h1, h2, ⟨g, h3, h4⟩, h5, -⟩, hm⟩ := snsChoose_min (snsRotate r1)
    (fun j => snsNormalize (match j with | 0 => c.y0 | 1 => c.y1 | 2 => c.y2 | _ => c.y3))
  simp only at h1 h2 h3 h4 h5 hm
  generalize snsChoose (snsRotate r1) (snsNormalize c.y0) (snsNormalize c.y1) (snsNormalize c.y2) (snsNormalize c.y3) = ch at h h1 h2 h3 h4 h5 hm
  obtain ⟨⟨J, lsa, lsb⟩, e3, h⟩ := bind_ok_inv h
  simp only [Res.ok.injEq] at h
  subst h
  simp only
  rw [unitVector_cand hl.1 hl.2.1 hl.2.2.1 hl.2.2.2] at h5
  have hgd : (gainsOf ch.shapeJ).getD ch.gind 0 = g := by rw [List.getD_eq_getElem?_getD, h3]; rfl
  have hch : ch.xq.map (fun v => ch.gain * v) = scaledCand c ch.shapeJ ch.gind := by
    unfold scaledCand
    rw [h5, h4, hgd]
    rfl
  refine ⟨h1, h2, ?_, by simp [hst, D_length], ?_⟩
  · intro j i hj hi
    have := hm j i hj hi
    rw [snsDist_real, snsDist_real, hch, unitVector_cand hl.1 hl.2.1 hl.2.2.1 hl.2.2.2] at this
    exact this
  · intro i
    have hxl : ch.xq.length = 16 := by rw [h5]; simp [unitVector, candidateOf_length hl]
    have hDl : D.length = 16 := D_length
    have hDi : (D.getD i []).length = 16 := by
      rw [List.getD_eq_getElem _ _ (by rw [hDl]; exact i.2)]
      exact D_rows _ (List.getElem_mem _)
    rw [List.getD_eq_getElem _ _ (by rw [List.length_map, List.length_zip, hst, hDl]; exact i.2), List.getElem_map, List.getElem_zip]
    simp only
    rw [foldl_sum_real (fun q : ℝ × Rat => q.1 * (ofRat q.2 : ℝ)), show (zero : ℝ) = 0 from Rat.cast_zero, zero_add,
      ← List.getD_eq_getElem st1 0 (by rw [hst]; exact i.2), ← List.getD_eq_getElem D [] (by rw [hDl]; exact i.2),
      sum_zip_fin hxl hDi 0 (fun a b => a * (ofRat b : ℝ)), Finset.mul_sum]
    congr 1
    refine Finset.sum_congr rfl fun j _ => ?_
    rw [← rotEntry_eq i j, ← hch]
    have : (ch.xq.map fun v => ch.gain * v).getD j 0 = ch.gain * ch.xq.getD j 0 := by
      rw [List.getD_eq_getElem _ _ (by rw [List.length_map, hxl]; exact j.2), List.getElem_map,
        ← List.getD_eq_getElem _ 0 (by rw [hxl]; exact j.2)]
    rw [this]
    show _ * (_ * (((D.getD i []).getD j 0 : ℚ) : ℝ)) = _
    ring

theorem sqDist_eq_zero : ∀ {x y : List ℝ}, x.length = y.length → sqDist x y ≤ 0 → x = y
  | [], [], _, _ => rfl
  | [], _ :: _, h, _ => by simp at h
  | _ :: _, [], h, _ => by simp at h
  | a :: x, b :: y, h, h0 => by
    have e : sqDist (a :: x) (b :: y) = (a - b) ^ 2 + sqDist x y := by simp [sqDist]
    have hn : 0 ≤ sqDist x y := List.sum_nonneg fun z hz => by obtain ⟨v, _, rfl⟩ := List.mem_map.1 hz; exact sq_nonneg _
    rw [e] at h0
    have h1 : (a - b) ^ 2 = 0 := le_antisymm (by linarith) (sq_nonneg _)
    have h2 : a = b := by
      have := pow_eq_zero_iff (two_ne_zero) |>.1 h1
      linarith
    have h3 : x = y := sqDist_eq_zero (by simpa using h) (by nlinarith [sq_nonneg (a - b)])
    rw [h2, h3]

theorem sqDist_self (x : List ℝ) : sqDist x x = 0 := by
  induction x with
  | nil => rfl
  | cons a x ih => simpa [sqDist] using ih

/-- energy of a real vector -/
def vecEnergy (x : List ℝ) : ℝ := (x.map fun v => v ^ 2).sum

theorem unitVector_energy (y : List Int) : vecEnergy (unitVector y) = 0 ∨ vecEnergy (unitVector y) = 1 := by
  unfold unitVector vecEnergy
  have e : ((y.map fun v : Int => (v : ℝ) / Real.sqrt (pulseEnergy y)).map fun v => v ^ 2).sum = pulseEnergy y / pulseEnergy y := by
    have key : ∀ (c : ℝ) (z : List Int), ((z.map fun v : Int => (v : ℝ) / c).map fun v => v ^ 2).sum = pulseEnergy z / c ^ 2 := by
      intro c z
      induction z with
      | nil => simp [pulseEnergy]
      | cons a z ih =>
        have : pulseEnergy (a :: z) = (a : ℝ) ^ 2 + pulseEnergy z := by simp [pulseEnergy]
        rw [this, List.map_cons, List.map_cons, List.sum_cons, ih]
        ring
    rw [key, Real.sq_sqrt (pulseEnergy_nonneg y)]
  rw [e]
  by_cases h : pulseEnergy y = 0
  · left; rw [h]; simp
  · right; exact div_self h

theorem vecEnergy_scale (g : ℝ) (x : List ℝ) : vecEnergy (x.map fun v => g * v) = g ^ 2 * vecEnergy x := by
  induction x with
  | nil => simp [vecEnergy]
  | cons a x ih =>
    simp only [vecEnergy, List.map_cons, List.sum_cons] at ih ⊢
    rw [ih]; ring

set_option maxRecDepth 20000 in
/-- the last gain of shape 3 is no other gain that is tried -/
theorem lastGain_distinct : ∀ j, j < 4 → ∀ i, i < gainCount j - 1 → 0 < (gainsOf j).getD i 0 ∧ (gainsOf j).getD i 0 ≠ (gainsOf 3).getD 7 0 := by
  decide +kernel

theorem lastGain_pos : 0 < (gainsOf 3).getD 7 0 := by decide +kernel

/-- **C68 is false**: a residual that shape 3 represents exactly with its last gain is quantised with an error. -/
theorem C68_fails : ¬ C68_statement := by
  intro hs
  obtain ⟨a, ha⟩ : ∃ a : ℝ, a = (((gainsOf 3).getD 7 0 : ℚ) : ℝ) := ⟨_, rfl⟩
  have hpos : 0 < a := by rw [ha]; exact_mod_cast lastGain_pos
  obtain ⟨r1, hr, ht⟩ := snsRotate_surjective (targetAt_length a)
  obtain ⟨c, ec, c1, c2, c3, c4, c5, -⟩ := C42_partial (targetAt_length a)
  have hst : (List.replicate 16 (0 : ℝ)).length = 16 := by simp
  obtain ⟨s, es⟩ : ∃ s, snsStage2 r1 (List.replicate 16 (0 : ℝ)) = .ok s := by
    unfold snsStage2
    simp only
    rw [ht, ec, Res.bind_ok]
    have hch := snsChoose_ok (α := ℝ) (fun _ => rfl) (targetAt a)
      (fun j => snsNormalize (match j with | 0 => c.y0 | 1 => c.y1 | 2 => c.y2 | _ => c.y3))
    simp only at hch
    generalize snsChoose (targetAt a) (snsNormalize c.y0) (snsNormalize c.y1) (snsNormalize c.y2) (snsNormalize c.y3) = s at hch ⊢
    have hv : ShapeVector s.shapeJ (candidateOf s.shapeJ c) := by
      have hsh : s.shapeJ = 0 ∨ s.shapeJ = 1 ∨ s.shapeJ = 2 ∨ s.shapeJ = 3 := by have := hch.1; omega
      rcases hsh with e | e | e | e <;> rw [e]
      · exact c5.2 ⟨a, by simp [targetAt, List.replicate], hpos.ne'⟩
      · exact c2
      · exact c3
      · exact c4
    obtain ⟨J, lsa, lsb, q, f1, -⟩ := snsEnumerate_vq (gind := s.gind) hch.1 c1 hv
    rw [f1, Res.bind_ok]
    exact ⟨_, rfl⟩
  have hcc : snsCands (snsRotate r1) = .ok c := by rw [ht]; exact ec
  have hle := hs r1 _ s c hr hst es hcc 3 7 (by norm_num) (by decide)
  obtain ⟨p1, p2, -⟩ := C68_partial hr hst es hcc
  have hl := snsCands_lengths (targetAt_length a) ec
  rw [ht] at hle
  -- shape 3 with the last gain is exact
  have h3 : scaledCand c 3 7 = targetAt a := by
    obtain ⟨u, q, c', e', hu, g1, g2, -, -, g5⟩ := C67_partial (targetAt_length a)
    rw [targetAt_abs hpos.le] at g1 g2
    obtain ⟨-, e6⟩ := shape3_at hpos g1 g2
    rw [ec] at g5
    obtain rfl := Res.ok.inj g5
    unfold scaledCand
    rw [← ha]
    simp only [candidateOf, e6]
    have : withSigns (targetAt a) (pulsesAt 6) = pulsesAt 6 := by
      simp [withSigns, targetAt, pulsesAt, List.replicate, not_lt.2 hpos.le]
    rw [this]
    unfold unitVector
    rw [pulseEnergy_at, Real.sqrt_sq (by norm_num)]
    simp [targetAt, pulsesAt, List.replicate]
  rw [h3, sqDist_self] at hle
  have heq := sqDist_eq_zero (by rw [targetAt_length, scaledCand_length hl]) hle
  have hen : vecEnergy (targetAt a) = a ^ 2 := by simp [vecEnergy, targetAt, List.replicate]
  rw [heq] at hen
  unfold scaledCand at hen
  rw [vecEnergy_scale] at hen
  obtain ⟨d1, d2⟩ := lastGain_distinct s.shapeJ p1 s.gind (by omega)
  have d1' : (0 : ℝ) < (((gainsOf s.shapeJ).getD s.gind 0 : ℚ) : ℝ) := by exact_mod_cast d1
  rcases unitVector_energy (candidateOf s.shapeJ c) with e | e
  · rw [e, mul_zero] at hen
    have := pow_eq_zero_iff (two_ne_zero) |>.1 hen.symm
    exact hpos.ne' this
  · rw [e, mul_one] at hen
    have := (pow_left_inj₀ d1'.le hpos.le two_ne_zero).1 hen
    rw [ha] at this
    exact d2 (by exact_mod_cast this)

/-! ## The rotation -/

theorem vecEnergy_fin {x : List ℝ} (h : x.length = 16) : vecEnergy x = ∑ i : Fin 16, x.getD i 0 ^ 2 := by
  unfold vecEnergy
  rw [← List.sum_ofFn]
  congr 1
  apply List.ext_getElem
  · simp [h]
  · intro i h1 h2
    rw [List.getElem_ofFn, List.getElem_map, List.getD_eq_getElem _ _ (by simpa using h1)]

theorem sqDist_fin {x y : List ℝ} (hx : x.length = 16) (hy : y.length = 16) : sqDist x y = ∑ i : Fin 16, (x.getD i 0 - y.getD i 0) ^ 2 :=
  sum_zip_fin hx hy 0 fun a b => (a - b) ^ 2

/-- **C69** In exact arithmetic the rotation in front of the second stage keeps all energies, up to the precision of its table, and
every distance between the residual and a vector that is rotated back is the one between the rotated residual and the
vector. -/
theorem C69 {r u : List ℝ} (hr : r.length = 16) (hu : u.length = 16) :
    |vecEnergy (snsRotate r) - vecEnergy r| ≤ 2 / 10 ^ 15 * vecEnergy r ∧
    |sqDist r (List.ofFn fun i : Fin 16 => ∑ j : Fin 16, u.getD j 0 * rotEntry i j) - sqDist (snsRotate r) u| ≤
      2 / 10 ^ 15 * (vecEnergy r + vecEnergy u) := by
  have hg : ∀ i : Fin 16, (List.ofFn fun i : Fin 16 => ∑ j : Fin 16, u.getD j 0 * rotEntry i j).getD i 0 =
      ∑ j : Fin 16, u.getD j 0 * rotEntry i j := by
    intro i
    rw [List.getD_eq_getElem _ _ (by rw [List.length_ofFn]; exact i.2), List.getElem_ofFn]
  rw [vecEnergy_fin (snsRotate_length r), vecEnergy_fin hr, vecEnergy_fin hu, sqDist_fin hr (by simp), sqDist_fin (snsRotate_length r) hu]
  simp only [hg, snsRotate_get hr]
  exact ⟨rotate_energy _, rotate_dist _ _⟩

theorem gains_le : ∀ j, j < 4 → ∀ i, i < gainCount j → (gainsOf j).getD i 0 ^ 2 ≤ 27 := by decide +kernel

theorem scaledCand_energy {c : SnsCands} {j i : Nat} (hj : j < 4) (hi : i < gainCount j) : vecEnergy (scaledCand c j i) ≤ 27 := by
  unfold scaledCand
  rw [vecEnergy_scale]
  have h : ((((gainsOf j).getD i 0 : ℚ) : ℝ)) ^ 2 ≤ 27 := by exact_mod_cast gains_le j hj i hi
  rcases unitVector_energy (candidateOf j c) with e | e <;> rw [e]
  · norm_num
  · rw [mul_one]; exact h

/-- **C69** Consequence: the error of the quantised scale factors is, up to the precision of the table, at most the one of every shape
with every gain but the last. -/
theorem C69_error {r1 st1 : List ℝ} (hr : r1.length = 16) (hst : st1.length = 16) {s : SnsStage2 ℝ} {c : SnsCands}
    (h : snsStage2 r1 st1 = .ok s) (hc : snsCands (snsRotate r1) = .ok c) {j i : Nat} (hj : j < 4) (hi : i + 1 < gainCount j) :
    ∑ n : Fin 16, (r1.getD n 0 + st1.getD n 0 - s.scfq.getD n 0) ^ 2 ≤
      ∑ n : Fin 16, (r1.getD n 0 - ∑ k : Fin 16, (scaledCand c j i).getD k 0 * rotEntry n k) ^ 2 + 4 / 10 ^ 15 * (vecEnergy r1 + 27) := by
  obtain ⟨p1, p2, p3, -, p5⟩ := C68_partial hr hst h hc
  have hl := snsCands_lengths (snsRotate_length r1) hc
  have hg : ∀ (u : List ℝ) (i : Fin 16), (List.ofFn fun i : Fin 16 => ∑ j : Fin 16, u.getD j 0 * rotEntry i j).getD i 0 =
      ∑ j : Fin 16, u.getD j 0 * rotEntry i j := by
    intro u i
    rw [List.getD_eq_getElem _ _ (by rw [List.length_ofFn]; exact i.2), List.getElem_ofFn]
  have a1 := (C69 hr (scaledCand_length hl s.shapeJ s.gind)).2
  have a2 := (C69 hr (scaledCand_length hl j i)).2
  rw [sqDist_fin hr (by simp)] at a1 a2
  simp only [hg] at a1 a2
  have e1 := scaledCand_energy (c := c) p1 (by omega : s.gind < gainCount s.shapeJ)
  have e2 := scaledCand_energy (c := c) hj (by omega : i < gainCount j)
  have hm := p3 j i hj hi
  have hs : ∑ n : Fin 16, (r1.getD n 0 + st1.getD n 0 - s.scfq.getD n 0) ^ 2 =
      ∑ n : Fin 16, (r1.getD n 0 - ∑ k : Fin 16, (scaledCand c s.shapeJ s.gind).getD k 0 * rotEntry n k) ^ 2 := by
    refine Finset.sum_congr rfl fun n _ => ?_
    rw [p5 n]
    ring
  rw [hs]
  rw [abs_le] at a1 a2
  linarith [a1.1, a1.2, a2.1, a2.2]

/-! ## Non-vacuity -/

example : ∃ lf hf st1 r1, snsStage1 (List.replicate 16 (1 : ℝ)) = .ok (lf, hf, st1, r1) ∧
    IsNearest (LFCB.map castL) ((List.replicate 16 (1 : ℝ)).take 8) lf := by
  obtain ⟨lf, hf, st1, r1, h, h1, -⟩ := C66 (scf := List.replicate 16 (1 : ℝ)) (by simp)
  exact ⟨lf, hf, st1, r1, h, h1⟩

example : ∃ u, snsSearch ((targetAt 2).map fun a => |a|) = .ok u ∧ u.y3 = pulsesAt 6 := by
  obtain ⟨u, q, c', e', hu, g1, g2, -⟩ := C67_partial (targetAt_length 2)
  rw [targetAt_abs (by norm_num)] at g1 g2
  exact ⟨u, hu, (shape3_at (by norm_num) g1 g2).2⟩

example : |vecEnergy (snsRotate (targetAt 1)) - vecEnergy (targetAt 1)| ≤ 2 / 10 ^ 15 * vecEnergy (targetAt 1) ∧ vecEnergy (targetAt 1) = 1 :=
  ⟨(C69 (targetAt_length 1) (targetAt_length 1)).1, by simp [vecEnergy, targetAt, List.replicate]⟩

end Lc3
