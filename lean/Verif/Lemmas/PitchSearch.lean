import Verif.Lemmas.PitchSignal
/-! Lemmas about the pitch analysis in exact arithmetic: what the searches find. -/

namespace Lc3
open Scalar Tables Finset Spec

/-! ## The lag at 6.4 kHz -/

theorem slice_carries {l : List ℝ} {x : ℤ → ℝ} {o : ℤ} {n a len : ℕ} (h : Carries l x o n) (ha : a + len ≤ n) :
    ((l.take (a + len)).drop a).length = len ∧ ∀ j < len, ((l.take (a + len)).drop a).getD j 0 = x (o + a + j) := by
  refine ⟨by rw [List.length_drop, List.length_take]; have := h.1; omega, fun j hj => ?_⟩
  rw [slice_getD (by have := h.1; omega) (by omega), h.2 _ (by omega)]
  congr 1; push_cast; ring

theorem dotS_carries {u v : List ℝ} {f g : ℕ → ℝ} {len : ℕ} (hu : u.length = len) (hv : v.length = len)
    (h1 : ∀ j < len, u.getD j 0 = f j) (h2 : ∀ j < len, v.getD j 0 = g j) : dotS u v = ∑ j ∈ range len, f j * g j := by
  rw [dotS_getD _ _ (by omega), hv]
  refine Finset.sum_congr rfl fun j hj => ?_
  rw [h1 j (Finset.mem_range.1 hj), h2 j (Finset.mem_range.1 hj)]

theorem autocorr_real (x6 : List ℝ) (w : ℤ → ℝ) (a : ℤ) (len : ℕ) (h : Carries x6 w (a - 114) (114 + len)) : ∀ (cnt k : ℕ), k + cnt ≤ 98 →
    ∃ r, autocorr x6 len k cnt = .ok r ∧ r.length = cnt ∧ ∀ j < cnt, r.getD j 0 = corr w a len ((17 + k + j : ℕ) : ℤ) := by
  intro cnt
  induction cnt with
  | zero => intro k _; exact ⟨[], rfl, rfl, fun j hj => absurd hj (by omega)⟩
  | succ cnt ih =>
    intro k hk
    obtain ⟨r, hr, hn, hv⟩ := ih (k + 1) (by omega)
    have e1 : K_MAX = 114 := rfl
    have e2 : K_MIN = 17 := rfl
    have hl := h.1
    simp only [autocorr]
    rw [e1, e2, sliceR_ok (by omega) (by omega), usub_of_le (by omega)]
    simp only [Res.bind_ok]
    rw [sliceR_ok (by omega) (by omega), hr]
    refine ⟨_, rfl, by simp [hn], fun j hj => ?_⟩
    cases j with
    | zero =>
      rw [List.getD_cons_zero]
      obtain ⟨l1, v1⟩ := slice_carries h (a := 114) (len := len) (by omega)
      obtain ⟨l2, v2⟩ := slice_carries h (a := 114 - (17 + k)) (len := len) (by omega)
      rw [dotS_carries l1 l2 v1 v2]
      unfold corr
      refine Finset.sum_congr rfl fun n _ => ?_
      congr 2
      · push_cast; ring
      · rw [Nat.cast_sub (by omega)]; push_cast; ring
    | succ j =>
      rw [List.getD_cons_succ, hv j (by omega)]
      congr 2; omega

theorem weightCorr_real : ∀ (l : List ℝ) (k j : ℕ), j < l.length →
    (weightCorr k l).getD j 0 = (1 - (((k + j : ℕ) : ℝ)) / (2 * 97)) * l.getD j 0
  | [], _, _, h => absurd h (by simp)
  | r :: rs, k, 0, _ => by
    simp only [weightCorr, List.getD_cons_zero, add_zero]
    rw [real_ofInt, real_ofInt]
    show (((1 : ℚ) : ℝ) - ((1 / 2 : ℚ) : ℝ) * ((k : ℤ) : ℝ) / ((((K_MAX - K_MIN : ℕ) : ℤ)) : ℝ)) * r = _
    rw [show K_MAX - K_MIN = 97 from rfl]
    push_cast
    ring
  | r :: rs, k, j + 1, h => by
    simp only [weightCorr, List.getD_cons_succ]
    rw [weightCorr_real rs (k + 1) j (by simpa using h), show k + 1 + j = k + (j + 1) by omega]

theorem indexOfMaxFrom_real (L : List ℝ) : ∀ (c n i : ℕ), n + c = L.length → i < L.length → (∀ k < n, L.getD k 0 ≤ L.getD i 0) →
    (∀ k < i, L.getD k 0 < L.getD i 0) → (i < n ∨ (n = 0 ∧ i = 0)) →
    indexOfMaxFrom (L.drop n) n i (L.getD i 0) < L.length ∧
    (∀ k < L.length, L.getD k 0 ≤ L.getD (indexOfMaxFrom (L.drop n) n i (L.getD i 0)) 0) ∧
    ∀ k < indexOfMaxFrom (L.drop n) n i (L.getD i 0), L.getD k 0 < L.getD (indexOfMaxFrom (L.drop n) n i (L.getD i 0)) 0 := by
  intro c
  induction c with
  | zero =>
    intro n i hn hi h1 h2 _
    rw [List.drop_of_length_le (by omega)]
    exact ⟨hi, fun k hk => h1 k (by omega), h2⟩
  | succ c ih =>
    intro n i hn hi h1 h2 h3
    have hd : L.drop n = L.getD n 0 :: L.drop (n + 1) := by
      rw [List.getD_eq_getElem _ _ (by omega)]; exact List.drop_eq_getElem_cons (by omega)
    rw [hd]
    simp only [indexOfMaxFrom]
    split
    · rename_i hlt
      rw [lt_real] at hlt
      apply ih (n + 1) n (by omega) (by omega)
      · intro k hk
        rcases Nat.lt_succ_iff_lt_or_eq.1 hk with hk | rfl
        · exact (h1 k hk).trans hlt.le
        · exact le_refl _
      · intro k hk
        exact lt_of_le_of_lt (h1 k hk) hlt
      · omega
    · rename_i hlt
      rw [lt_real, not_lt] at hlt
      apply ih (n + 1) i (by omega) hi
      · intro k hk
        rcases Nat.lt_succ_iff_lt_or_eq.1 hk with hk | rfl
        · exact h1 k hk
        · exact hlt
      · exact h2
      · omega

theorem indexOfMax_real {L : List ℝ} (h : L ≠ []) : indexOfMax L < L.length ∧ (∀ k < L.length, L.getD k 0 ≤ L.getD (indexOfMax L) 0) ∧
    ∀ k < indexOfMax L, L.getD k 0 < L.getD (indexOfMax L) 0 := by
  match L, h with
  | v :: vs, _ =>
    have := indexOfMaxFrom_real (v :: vs) (v :: vs).length 0 0 (by omega) (by simp) (fun k hk => absurd hk (by omega))
      (fun k hk => absurd hk (by omega)) (.inr ⟨rfl, rfl⟩)
    rw [List.drop_zero, List.getD_cons_zero] at this
    exact this

theorem firstMax_of_list {L : List ℝ} (h : L ≠ []) (f : ℕ → ℝ) (lo hi : ℕ) (hl : lo + L.length = hi + 1)
    (hf : ∀ j < L.length, L.getD j 0 = f (lo + j)) : FirstMax f lo hi (indexOfMax L + lo) := by
  obtain ⟨h1, h2, h3⟩ := indexOfMax_real h
  refine ⟨by omega, by omega, ?_, ?_⟩
  · intro k k1 k2
    have := h2 (k - lo) (by omega)
    rw [hf _ (by omega), hf _ h1, show lo + (k - lo) = k by omega, Nat.add_comm lo] at this
    exact this
  · intro k k1 k2
    have := h3 (k - lo) (by omega)
    rw [hf _ (by omega), hf _ h1, show lo + (k - lo) = k by omega, Nat.add_comm lo] at this
    exact this

theorem normValue_real (x6 : List ℝ) (w : ℤ → ℝ) (a : ℤ) (len : ℕ) (h : Carries x6 w (a - 114) (114 + len)) (lag : ℕ) (hg : lag ≤ 114) :
    normValue x6 len lag = .ok (lagEnergy w a len lag) := by
  unfold normValue
  have e1 : K_MAX = 114 := rfl
  have hl := h.1
  rw [e1, usub_of_le hg]; simp only [Res.bind_ok]
  rw [sliceR_ok (by omega) (by omega)]
  simp only [Res.bind_ok]
  obtain ⟨l1, v1⟩ := slice_carries h (a := 114 - lag) (len := len) (by omega)
  congr 1
  rw [foldl_sum_real (fun x : ℝ => x * x), real_zero, zero_add, sum_getD _ (fun x => x * x), l1]
  unfold lagEnergy
  refine Finset.sum_congr rfl fun n hn => ?_
  rw [v1 n (Finset.mem_range.1 hn), show a - 114 + ((114 - lag : ℕ) : ℤ) + n = a + n - lag by rw [Nat.cast_sub hg]; push_cast; ring]
  ring

/-- the pitch detection: it extends the 6.4 kHz signal by a frame and finds the lag of the specification -/
theorem pitchDetection_real (cfg : Lc3Config) (tPrev : Nat) (xt x6 : List ℝ) (x : ℤ → ℝ) (b : ℤ) (h1 : 17 ≤ tPrev) (h2 : tPrev ≤ 114)
    (hx : ∀ j < xt.length, xt.getD j 0 = x (2 * b - 232 + j)) (hxl : 232 + 2 * len6p4Of cfg.nMs ≤ xt.length)
    (hl6 : x6.length = x6ExtLen) (h6 : ∀ j < 114, x6.getD j 0 = at6k4 x (b - 114 + j)) :
    ∃ T present y, pitchDetection cfg tPrev xt x6 = .ok (T, present, y) ∧ y.length = x6ExtLen ∧
      (∀ j < 114 + len6p4Of cfg.nMs, y.getD j 0 = at6k4 x (b - 114 + j)) ∧ 17 ≤ T ∧ T ≤ 114 ∧
      OpenLoop (at6k4 x) b (len6p4Of cfg.nMs) tPrev T ∧
      (present = true ↔ 6 / 10 < normCorr (at6k4 x) b (len6p4Of cfg.nMs) T) := by
  have e0 : NMEM_12P8D = 232 := rfl
  have e1 : K_MAX = 114 := rfl
  have e2 : K_MIN = 17 := rfl
  have e3 : x6ExtLen = 178 := rfl
  have hlen : len6p4Of cfg.nMs ≤ 64 := by cases cfg.nMs <;> decide
  unfold pitchDetection
  generalize len6p4Of cfg.nMs = len at hlen hxl ⊢
  dsimp only
  rw [e0]
  rw [e3] at hl6
  rw [sliceR_ok (by omega) (le_refl _)]
  simp only [Res.bind_ok]
  rw [sliceR_ok (l := x6) (by omega) (by rw [e1]; omega)]
  simp only [Res.bind_ok]
  obtain ⟨hdl, hdv⟩ := downsample2_real x len (List.drop (232 - 3) (List.take xt.length xt)) b
    (by rw [List.length_drop, List.length_take]; omega) (fun j hj => by
      rw [List.length_drop, List.length_take] at hj
      rw [slice_getD (le_refl _) (by omega), hx _ (by omega)]
      congr 1; push_cast; ring)
  generalize downsample2 len (List.drop (232 - 3) (List.take xt.length xt)) = dl at hdl hdv
  have hy : (x6.take K_MAX ++ dl ++ x6.drop (K_MAX + dl.length)).length = 178 := by
    rw [List.length_append, List.length_append, List.length_take, List.length_drop, e1]; omega
  have hyv : Carries (x6.take K_MAX ++ dl ++ x6.drop (K_MAX + dl.length)) (at6k4 x) (b - 114) (114 + len) := by
    refine ⟨by omega, fun j hj => ?_⟩
    rw [e1, List.append_assoc]
    by_cases hj1 : j < 114
    · rw [List.getD_append _ _ _ _ (by rw [List.length_take]; omega)]
      rw [← h6 j hj1]
      simp [List.getD_eq_getElem?_getD, hj1]
    · rw [List.getD_append_right _ _ _ _ (by rw [List.length_take]; omega), List.length_take,
        show j - min 114 x6.length = j - 114 by omega, List.getD_append _ _ _ _ (by omega), hdv _ (by omega)]
      congr 1; rw [Nat.cast_sub (by omega)]; push_cast; ring
  generalize x6.take K_MAX ++ dl ++ x6.drop (K_MAX + dl.length) = y at hy hyv
  obtain ⟨r, hr, hrl, hrv⟩ := autocorr_real y _ b len hyv (K_MAX + 1 - K_MIN) 0 (by rw [e1, e2])
  rw [hr]; simp only [Res.bind_ok]
  rw [e1, e2] at hrl hrv
  rw [show 114 + 1 - 17 = 98 from rfl] at hrl hrv
  simp only [Nat.add_zero] at hrv
  have hfm1 : FirstMax (fun k => (1 - ((k : ℝ) - 17) / (2 * 97)) * corr (at6k4 x) b len k) 17 114 (indexOfMax (weightCorr 0 r) + 17) := by
    apply firstMax_of_list
    · intro hc; have := congrArg List.length hc; rw [weightCorr_length, hrl, List.length_nil] at this; omega
    · rw [weightCorr_length, hrl]
    · intro j hj
      rw [weightCorr_length, hrl] at hj
      rw [weightCorr_real _ _ _ (by omega), hrv j hj]
      push_cast
      congr 2; ring
  have hi1 : indexOfMax (weightCorr 0 r) ≤ 97 := by have := hfm1.2.1; omega
  generalize indexOfMax (weightCorr 0 r) = i1 at hi1 hfm1
  rw [usub_of_le (by omega)]; simp only [Res.bind_ok]
  rw [usub_of_le (by rw [e2]; omega)]; simp only [Res.bind_ok]
  rw [usub_of_le (by rw [e1, e2]; omega)]; simp only [Res.bind_ok]
  rw [sliceR_ok (by rw [e1, e2]; omega) (by rw [hrl, e1, e2]; omega)]; simp only [Res.bind_ok]
  rw [e1, e2]
  have hfm2 : FirstMax (fun k => corr (at6k4 x) b len k) (max 17 (tPrev - 4)) (min 114 (tPrev + 4))
      (indexOfMax (List.drop (Max.max 17 (tPrev - 4) - 17) (List.take (Min.min 114 (tPrev + 4) - 17 + 1) r))
        + (Max.max 17 (tPrev - 4) - 17) + 17) := by
    have hpl : (List.drop (Max.max 17 (tPrev - 4) - 17) (List.take (Min.min 114 (tPrev + 4) - 17 + 1) r)).length
        = Min.min 114 (tPrev + 4) - 17 + 1 - (Max.max 17 (tPrev - 4) - 17) := by
      rw [List.length_drop, List.length_take, hrl]; omega
    have := firstMax_of_list (L := List.drop (Max.max 17 (tPrev - 4) - 17) (List.take (Min.min 114 (tPrev + 4) - 17 + 1) r))
      (by intro hc; have := congrArg List.length hc; rw [hpl] at this; simp at this; omega)
      (fun k => corr (at6k4 x) b len k) (max 17 (tPrev - 4)) (min 114 (tPrev + 4)) (by rw [hpl]; omega) (by
        intro j hj
        rw [hpl] at hj
        rw [slice_getD (by rw [hrl]; omega) (by omega), hrv _ (by omega)]
        congr 1; push_cast; omega)
    rw [Nat.add_assoc, show Max.max 17 (tPrev - 4) - 17 + 17 = max 17 (tPrev - 4) by omega]
    exact this
  generalize indexOfMax (List.drop (Max.max 17 (tPrev - 4) - 17) (List.take (Min.min 114 (tPrev + 4) - 17 + 1) r))
        + (Max.max 17 (tPrev - 4) - 17) + 17 = lag2 at hfm2
  have b1 := hfm2.1
  have b2 := hfm2.2.1
  rw [normValue_real y _ b len hyv 0 (by omega)]; simp only [Res.bind_ok]
  rw [normValue_real y _ b len hyv (i1 + 17) (by omega)]; simp only [Res.bind_ok]
  rw [usub_of_le (by omega)]; simp only [Res.bind_ok]
  have hidx : ∀ lag, 17 ≤ lag → lag ≤ 114 → idx r (lag - 17) = .ok (corr (at6k4 x) b len lag) := by
    intro lag g1 g2
    rw [idx_eq_ok (by rw [hrl]; omega), ← List.getD_eq_getElem r 0 (by rw [hrl]; omega), hrv _ (by omega)]
    congr 2; push_cast; omega
  have hnc : ∀ lag : ℕ, maxS zero (corr (at6k4 x) b len lag / sqrt (lagEnergy (at6k4 x) b len ((0 : ℕ) : ℤ) * lagEnergy (at6k4 x) b len lag))
      = normCorr (at6k4 x) b len lag := by
    intro lag
    rw [real_zero]; rfl
  rw [hidx _ (by omega) (by omega)]; simp only [Res.bind_ok]
  rw [hnc]
  have hc2 : (if i1 + 17 = lag2 then Res.ok (normCorr (at6k4 x) b len ((i1 + 17 : ℕ) : ℤ)) else do
      let n2 ← normValue y len lag2
      let i2 ← usub lag2 17
      let r2 ← idx r i2
      .ok (maxS zero (r2 / sqrt (lagEnergy (at6k4 x) b len ((0 : ℕ) : ℤ) * n2)))) = .ok (normCorr (at6k4 x) b len lag2) := by
    split
    · rename_i h; rw [h]
    · rw [normValue_real y _ b len hyv lag2 (by omega)]; simp only [Res.bind_ok]
      rw [usub_of_le (by omega)]; simp only [Res.bind_ok]
      rw [hidx _ (by omega) (by omega)]; simp only [Res.bind_ok]
      rw [hnc]
  rw [hc2]
  simp only [Res.bind_ok]
  have h85 : lt ((ofRat (85 / 100) : ℝ) * normCorr (at6k4 x) b len ((i1 + 17 : ℕ) : ℤ)) (normCorr (at6k4 x) b len lag2) = true ↔
      85 / 100 * normCorr (at6k4 x) b len ((i1 + 17 : ℕ) : ℤ) < normCorr (at6k4 x) b len lag2 := by
    rw [lt_real]
    show ((85 / 100 : ℚ) : ℝ) * _ < _ ↔ _
    norm_num
  have h60 : ∀ z : ℝ, lt (ofRat (6 / 10) : ℝ) z = true ↔ 6 / 10 < z := by
    intro z
    rw [lt_real]
    show ((6 / 10 : ℚ) : ℝ) < _ ↔ _
    norm_num
  split
  · rename_i hlt
    rw [h85] at hlt
    exact ⟨_, _, _, rfl, by rw [hy, e3], hyv.2, by omega, by omega, ⟨_, _, hfm1, hfm2, by rw [if_pos hlt]⟩, h60 _⟩
  · rename_i hlt
    rw [h85] at hlt
    exact ⟨_, _, _, rfl, by rw [hy, e3], hyv.2, by omega, by omega, ⟨_, _, hfm1, hfm2, by rw [if_neg hlt]⟩, h60 _⟩

/-! ## The lag at 12.8 kHz -/

theorem lagSearch_real (xt : List ℝ) (x : ℤ → ℝ) (a : ℤ) (len kMin kMax : ℕ) (hx : Carries xt x (a - 232) (232 + len)) (hk : kMin ≤ kMax) :
    ∀ (cnt k : ℕ) (m : ℝ) (best : ℕ), k + cnt ≤ 233 → kMax < k + cnt →
    ((m = 0 ∧ best = kMin ∧ ∀ j : ℕ, kMin ≤ j → j ≤ kMax → j < k → corr x a len j ≤ 0) ∨
      (0 < m ∧ m = corr x a len best ∧ kMin ≤ best ∧ best ≤ kMax ∧ best < k ∧
        (∀ j : ℕ, kMin ≤ j → j ≤ kMax → j < k → corr x a len j ≤ m) ∧ ∀ j : ℕ, kMin ≤ j → j < best → corr x a len j < m)) →
    ∃ r p, lagSearch xt len kMin kMax k cnt m best = .ok (r, p) ∧ r.length = cnt ∧ (∀ j < cnt, r.getD j 0 = corr x a len ((k + j : ℕ) : ℤ)) ∧
      kMin ≤ p ∧ p ≤ kMax ∧
      ((∃ j : ℕ, kMin ≤ j ∧ j ≤ kMax ∧ 0 < corr x a len j) → FirstMax (fun j => corr x a len j) kMin kMax p) ∧
      ((∀ j : ℕ, kMin ≤ j → j ≤ kMax → corr x a len j ≤ 0) → p = kMin) := by
  intro cnt
  induction cnt with
  | zero =>
    intro k m best _ hk2 h
    refine ⟨[], best, rfl, rfl, fun j hj => absurd hj (by omega), ?_⟩
    rcases h with ⟨h1, h2, h3⟩ | ⟨h1, h2, h3, h4, h5, h6, h7⟩
    · refine ⟨by omega, by omega, ?_, fun _ => h2⟩
      rintro ⟨j, j1, j2, j3⟩
      exact absurd j3 (not_lt.2 (h3 j j1 j2 (by omega)))
    · refine ⟨h3, h4, fun _ => ⟨h3, h4, ?_, ?_⟩, ?_⟩
      · intro j j1 j2; show corr x a len j ≤ corr x a len best; rw [← h2]; exact h6 j j1 j2 (by omega)
      · intro j j1 j2; show corr x a len j < corr x a len best; rw [← h2]; exact h7 j j1 j2
      · intro hall
        have := hall best h3 h4
        linarith
  | succ cnt ih =>
    intro k m best hk1 hk2 h
    have e0 : NMEM_12P8D = 232 := rfl
    have hl := hx.1
    simp only [lagSearch]
    rw [e0]
    rw [sliceR_ok (by omega) (by omega), usub_of_le (by omega)]; simp only [Res.bind_ok]
    rw [usub_of_le (by omega)]; simp only [Res.bind_ok]
    rw [sliceR_ok (by omega) (by omega)]; simp only [Res.bind_ok]
    have hc : dotS ((xt.take (232 + len)).drop 232) ((xt.take (232 + len - k)).drop (232 - k)) = corr x a len k := by
      obtain ⟨l1, v1⟩ := slice_carries hx (a := 232) (len := len) (by omega)
      obtain ⟨l2, v2⟩ := slice_carries hx (a := 232 - k) (len := len) (by omega)
      rw [show 232 + len - k = 232 - k + len by omega, dotS_carries l1 l2 v1 v2]
      unfold corr
      refine Finset.sum_congr rfl fun n _ => ?_
      congr 2
      · push_cast; ring
      · rw [Nat.cast_sub (by omega)]; push_cast; ring
    rw [hc]
    have cons : ∀ (m' : ℝ) (best' : ℕ),
        ((m' = 0 ∧ best' = kMin ∧ ∀ j : ℕ, kMin ≤ j → j ≤ kMax → j < k + 1 → corr x a len j ≤ 0) ∨
          (0 < m' ∧ m' = corr x a len best' ∧ kMin ≤ best' ∧ best' ≤ kMax ∧ best' < k + 1 ∧
            (∀ j : ℕ, kMin ≤ j → j ≤ kMax → j < k + 1 → corr x a len j ≤ m') ∧ ∀ j : ℕ, kMin ≤ j → j < best' → corr x a len j < m')) →
        ∃ r p, (do
        let (r, best) ← lagSearch xt len kMin kMax (k + 1) cnt m' best'
        .ok (corr x a len k :: r, best)) = .ok (r, p) ∧ r.length = cnt + 1 ∧
        (∀ j < cnt + 1, r.getD j 0 = corr x a len ((k + j : ℕ) : ℤ)) ∧ kMin ≤ p ∧ p ≤ kMax ∧
        ((∃ j : ℕ, kMin ≤ j ∧ j ≤ kMax ∧ 0 < corr x a len j) → FirstMax (fun j => corr x a len j) kMin kMax p) ∧
        ((∀ j : ℕ, kMin ≤ j → j ≤ kMax → corr x a len j ≤ 0) → p = kMin) := fun m' best' hinv => by
      obtain ⟨r, p, hr, hl, hv, rest⟩ := ih (k + 1) m' best' (by omega) (by omega) hinv
      rw [hr]
      refine ⟨_, _, rfl, by simp [hl], ?_, rest⟩
      intro j hj
      cases j with
      | zero => rfl
      | succ j => rw [List.getD_cons_succ, hv j (by omega)]; congr 2; omega
    by_cases hb : (lt m (corr x a len k) && decide (kMin ≤ k) && decide (k ≤ kMax)) = true
    · rw [if_pos hb, if_pos hb]
      simp only [Bool.and_eq_true, decide_eq_true_eq, lt_real] at hb
      obtain ⟨⟨hb1, hb2⟩, hb3⟩ := hb
      apply cons
      right
      refine ⟨?_, rfl, hb2, hb3, by omega, ?_, ?_⟩
      · rcases h with ⟨h1, -⟩ | ⟨h1, -⟩ <;> linarith
      · intro j j1 j2 j3
        rcases Nat.lt_succ_iff_lt_or_eq.1 j3 with j3 | rfl
        · rcases h with ⟨h1, h2, h3⟩ | ⟨h1, h2, h3, h4, h5, h6, h7⟩
          · have := h3 j j1 j2 j3; linarith
          · have := h6 j j1 j2 j3; linarith
        · exact le_refl _
      · intro j j1 j3
        rcases h with ⟨h1, h2, h3⟩ | ⟨h1, h2, h3, h4, h5, h6, h7⟩
        · have := h3 j j1 (by omega) j3; linarith
        · have := h6 j j1 (by omega) j3; linarith
    · rw [if_neg hb, if_neg hb]
      simp only [Bool.and_eq_true, decide_eq_true_eq, lt_real, not_and] at hb
      apply cons
      rcases h with ⟨h1, h2, h3⟩ | ⟨h1, h2, h3, h4, h5, h6, h7⟩
      · left
        refine ⟨h1, h2, fun j j1 j2 j3 => ?_⟩
        rcases Nat.lt_succ_iff_lt_or_eq.1 j3 with j3 | rfl
        · exact h3 j j1 j2 j3
        · by_contra hcon
          exact hb ⟨by rw [h1]; linarith, j1⟩ j2
      · right
        refine ⟨h1, h2, h3, h4, by omega, fun j j1 j2 j3 => ?_, h7⟩
        rcases Nat.lt_succ_iff_lt_or_eq.1 j3 with j3 | rfl
        · exact h6 j j1 j2 j3
        · by_contra hcon
          exact hb ⟨by linarith, j1⟩ j2

theorem tap_outside {l : List ℚ} {c i : ℤ} (h : c + i < 0 ∨ (l.length : ℤ) ≤ c + i) : tap l c i = 0 := by
  unfold tap
  split
  · rw [List.getD_eq_default _ _ (by omega)]; exact Rat.cast_zero
  · rfl

theorem interpolateR_real (r : List ℝ) (rel : ℕ) (d : ℤ) (g : ℤ → ℝ) (h4 : 4 ≤ rel) (hr : rel + 4 < r.length) (hl : r.length < 1000)
    (hg : ∀ m : ℤ, -4 ≤ m → m ≤ 4 → r.getD (rel + m).toNat 0 = g m) :
    ∀ (cnt : ℕ) (m : ℤ) (acc : ℝ), -4 ≤ m → m + cnt ≤ 5 →
    interpolateR r rel d cnt m acc = .ok (acc + ∑ j ∈ range cnt, g (m + j) * tap TAB_LTPF_INTERP_R 15 (4 * (m + j) - d)) := by
  intro cnt
  induction cnt with
  | zero => intro m acc _ _; simp [interpolateR]
  | succ cnt ih =>
    intro m acc h1 h2
    have hT : TAB_LTPF_INTERP_R.length = 31 := rfl
    simp only [interpolateR]
    push_cast at h2
    rw [Finset.sum_range_succ']
    simp only [Nat.cast_zero, add_zero, Nat.cast_add, Nat.cast_one]
    have hsum : ∀ F : ℤ → ℝ, ∑ j ∈ range cnt, F (m + ((j : ℤ) + 1)) = ∑ j ∈ range cnt, F (m + 1 + (j : ℤ)) := fun F =>
      Finset.sum_congr rfl fun j _ => by rw [show m + ((j : ℤ) + 1) = m + 1 + j by ring]
    rw [hsum (fun z => g z * tap TAB_LTPF_INTERP_R 15 (4 * z - d))]
    split
    · rename_i hc
      rw [i32AsUsize_of_nonneg (x := 4 * m - d + 15) (by omega) (by omega),
        i32AsUsize_of_nonneg (x := (rel : Int) + m) (by omega) (by omega)]
      obtain ⟨w, hh⟩ := idx_total (l := TAB_LTPF_INTERP_R) (i := (4 * m - d + 15).toNat) (by rw [hT]; omega)
      have hv := hg m (by omega) (by omega)
      rw [List.getD_eq_getElem _ _ (by omega)] at hv
      rw [hh]; simp only [Res.bind_ok]
      rw [idx_eq_ok (l := r) (i := ((rel : Int) + m).toNat) (by omega)]; simp only [Res.bind_ok]
      rw [ih _ _ (by omega) (by omega), hv,
        tap_of_idx (l := TAB_LTPF_INTERP_R) (c := 15) (i := 4 * m - d) (w := w) (by omega) (by rw [add_comm]; exact hh)]
      congr 1
      show acc + _ * (w : ℝ) + _ = _
      ring
    · rename_i hc
      simp only [Res.bind_ok]
      rw [ih _ _ (by omega) (by omega), tap_outside (by rw [hT]; omega), mul_zero, add_zero]

theorem sum_Icc_nine (F : ℤ → ℝ) : ∑ m ∈ Icc (-4 : ℤ) 4, F m = ∑ j ∈ range 9, F (-4 + j) := by
  rw [show Icc (-4 : ℤ) 4 = (range 9).image (fun j : ℕ => (-4 + j : ℤ)) by decide, Finset.sum_image (fun a _ b _ h => by simpa using h)]

theorem sum_Icc_five (F : ℤ → ℝ) : ∑ m ∈ Icc (-2 : ℤ) 2, F m = ∑ j ∈ range 5, F (-2 + j) := by
  rw [show Icc (-2 : ℤ) 2 = (range 5).image (fun j : ℕ => (-2 + j : ℤ)) by decide, Finset.sum_image (fun a _ b _ h => by simpa using h)]

theorem bestFraction_real (r : List ℝ) (rel : ℕ) (V : ℤ → ℝ) (hV : ∀ d, interpolateR r rel d 9 (-4) zero = .ok (V d)) :
    ∀ (ds : List ℤ) (m : ℝ) (fr : ℤ), ds.Pairwise (· < ·) → ∃ v, bestFraction r rel ds m fr = .ok v ∧
      ((v = fr ∧ ∀ e ∈ ds, V e ≤ m) ∨ (v ∈ ds ∧ m < V v ∧ (∀ e ∈ ds, V e ≤ V v) ∧ ∀ e ∈ ds, e < v → V e < V v))
  | [], _, fr, _ => ⟨fr, rfl, .inl ⟨rfl, by simp⟩⟩
  | d :: ds, m, fr, hp => by
    simp only [bestFraction]
    rw [hV]; simp only [Res.bind_ok]
    rw [List.pairwise_cons] at hp
    split
    · rename_i hlt
      rw [lt_real] at hlt
      obtain ⟨v, hv, h⟩ := bestFraction_real r rel V hV ds (V d) d hp.2
      refine ⟨v, hv, .inr ?_⟩
      rcases h with ⟨rfl, h⟩ | ⟨h1, h2, h3, h4⟩
      · refine ⟨by simp, hlt, ?_, ?_⟩
        · intro e he
          rcases List.mem_cons.1 he with rfl | he
          · exact le_refl _
          · exact h e he
        · intro e he hlt'
          rcases List.mem_cons.1 he with rfl | he
          · exact absurd hlt' (lt_irrefl _)
          · exact absurd hlt' (not_lt.2 (hp.1 e he).le)
      · refine ⟨by simp [h1], hlt.trans h2, ?_, ?_⟩
        · intro e he
          rcases List.mem_cons.1 he with rfl | he
          · exact h2.le
          · exact h3 e he
        · intro e he hlt'
          rcases List.mem_cons.1 he with rfl | he
          · exact h2
          · exact h4 e he hlt'
    · rename_i hlt
      rw [lt_real, not_lt] at hlt
      obtain ⟨v, hv, h⟩ := bestFraction_real r rel V hV ds m fr hp.2
      refine ⟨v, hv, ?_⟩
      rcases h with ⟨rfl, h⟩ | ⟨h1, h2, h3, h4⟩
      · left
        refine ⟨rfl, fun e he => ?_⟩
        rcases List.mem_cons.1 he with rfl | he
        · exact hlt
        · exact h e he
      · right
        refine ⟨by simp [h1], h2, ?_, ?_⟩
        · intro e he
          rcases List.mem_cons.1 he with rfl | he
          · linarith
          · exact h3 e he
        · intro e he hlt'
          rcases List.mem_cons.1 he with rfl | he
          · linarith
          · exact h4 e he hlt'

theorem mem_fractionsOf (p : ℕ) (e : ℤ) : e ∈ fractionsOf p ↔ quarters p e := by
  unfold fractionsOf quarters
  split
  · simp only [List.mem_cons, List.not_mem_nil, or_false]; omega
  · split
    · simp only [List.mem_cons, List.not_mem_nil, or_false]; omega
    · split
      · simp only [List.mem_cons, List.not_mem_nil, or_false]; omega
      · simp only [List.not_mem_nil, false_iff]; omega

theorem pairwise_fractionsOf (p : ℕ) : (fractionsOf p).Pairwise (· < ·) := by
  unfold fractionsOf
  split
  · decide
  · split
    · decide
    · split
      · decide
      · exact List.Pairwise.nil

/-- the lag parameter: the search and the index of the specification -/
theorem pitchLagParameter_real (cfg : Lc3Config) (xt : List ℝ) (x : ℤ → ℝ) (a : ℤ) (T : ℕ) (h1 : 17 ≤ T) (h2 : T ≤ 114)
    (hx : Carries xt x (a - 232) (232 + len12p8Of cfg.nMs)) :
    ∃ (p : ℕ) (e : ℤ) (q : ℕ), pitchLagParameter cfg xt T = .ok (encoderIndex q, q / 4, ((q % 4 : ℕ) : ℤ)) ∧ (q : ℤ) = 4 * p + e ∧
      q / 4 ≤ 228 ∧ ClosedLoop x a (len12p8Of cfg.nMs) T p ∧ Fraction x a (len12p8Of cfg.nMs) p e := by
  unfold pitchLagParameter
  rw [usub_of_le (by omega)]; simp only [Res.bind_ok]
  rw [usub_of_le (by omega)]; simp only [Res.bind_ok]
  rw [usub_of_le (by omega)]; simp only [Res.bind_ok]
  rw [if_neg (by omega)]
  generalize len12p8Of cfg.nMs = len at hx ⊢
  obtain ⟨r, b, hr, hl, hv, b1, b2, c1, c2⟩ := lagSearch_real xt x a len (Max.max 32 (2 * T - 4)) (Min.min 228 (2 * T + 4)) hx (by omega)
    (Min.min 228 (2 * T + 4) + 4 - (Max.max 32 (2 * T - 4) - 4) + 1) (Max.max 32 (2 * T - 4) - 4) 0 (Max.max 32 (2 * T - 4))
    (by omega) (by omega) (.inl ⟨rfl, rfl, fun j j1 j2 j3 => absurd j3 (by omega)⟩)
  rw [real_zero, hr]; simp only [Res.bind_ok]
  rw [usub_of_le (by omega)]; simp only [Res.bind_ok]
  have hcl : ClosedLoop x a len T b := ⟨c1, c2⟩
  have hV : ∀ d, interpolateR r (b - (Max.max 32 (2 * T - 4) - 4)) d 9 (-4) zero = .ok (corrBetween x a len b d) := by
    intro d
    rw [interpolateR_real r (b - (Max.max 32 (2 * T - 4) - 4)) d (fun m => corr x a len (b + m)) (by omega) (by omega) (by omega) (by
      intro m m1 m2
      rw [hv _ (by omega)]
      congr 1
      omega) 9 (-4) zero (by omega) (by omega)]
    unfold corrBetween
    rw [sum_Icc_nine, real_zero, zero_add]
  obtain ⟨e, he, hcase⟩ := bestFraction_real r _ (corrBetween x a len b) hV (fractionsOf b) 0 0 (pairwise_fractionsOf b)
  rw [he]; simp only [Res.bind_ok]
  simp only [mem_fractionsOf] at hcase
  have hfrac : Fraction x a len b e := by
    rcases hcase with ⟨g1, g2⟩ | ⟨g1, g2, g3, g4⟩
    · exact ⟨fun ⟨e', q1, q2⟩ => absurd q2 (not_lt.2 (g2 e' q1)), fun _ => g1⟩
    · exact ⟨fun _ => ⟨g1, g3, g4⟩, fun hall => absurd g2 (not_lt.2 (hall e g1))⟩
  have hq : quarters b e ∨ e = 0 := by
    rcases hcase with ⟨g1, g2⟩ | ⟨g1, g2, g3, g4⟩
    · exact .inr g1
    · exact .inl g1
  unfold quarters at hq
  refine ⟨b, e, (4 * b + e).toNat, ?_, by omega, by omega, hcl, hfrac⟩
  have hq4 : ∀ (p : ℕ) (fr : ℤ), 32 ≤ p → 0 ≤ fr → fr ≤ 3 → (4 * p + fr = 4 * b + e) →
      (pitchIndexOf p fr, p, fr) = (encoderIndex (4 * b + e).toNat, (4 * b + e).toNat / 4, (((4 * b + e).toNat % 4 : ℕ) : ℤ)) := by
    intro p fr p0 f1 f2 hpf
    have ht : Int.tdiv fr 2 = fr / 2 := Int.tdiv_eq_ediv_of_nonneg f1
    have hi : pitchIndexOf p fr = encoderIndex (4 * b + e).toNat := by
      unfold pitchIndexOf encoderIndex
      rw [ht]
      by_cases c1 : p < 127
      · rw [if_pos c1, if_pos (by omega), i32AsUsize_of_nonneg (by omega) (by omega)]; omega
      · rw [if_neg c1, if_neg (show ¬ (4 * (b : ℤ) + e).toNat < 4 * 127 by omega)]
        by_cases c2 : p < 157
        · rw [if_pos ⟨by omega, c2⟩, if_pos (by omega), i32AsUsize_of_nonneg (by omega) (by omega)]; omega
        · rw [if_neg (show ¬ (127 ≤ p ∧ p < 157) by omega), if_neg (by omega)]; omega
    rw [hi, Prod.mk.injEq, Prod.mk.injEq]
    refine ⟨rfl, ?_, ?_⟩ <;> omega
  split
  · rw [usub_of_le (by omega)]; simp only [Res.bind_ok]
    rw [hq4 _ _ (by omega) (by omega) (by omega) (by omega)]
  · simp only [Res.bind_ok]
    rw [hq4 _ _ (by omega) (by omega) (by omega) (by omega)]

/-! ## Activation -/

theorem interpX_real (xt : List ℝ) (x : ℤ → ℝ) (a : ℤ) (hx : ∀ j < xt.length, xt.getD j 0 = x (a - 232 + j)) (n d : ℤ) (hl : 0 ≤ 230 + n)
    (hu : 234 + n < xt.length) (hb : xt.length < 1000) : ∀ (cnt : ℕ) (k : ℤ) (acc : ℝ), -2 ≤ k → k + cnt ≤ 3 →
    interpX xt n d cnt k acc = .ok (acc + ∑ j ∈ range cnt, x (a + n - (k + j)) * tap TAB_LTPF_INTERP_X12K8 7 (4 * (k + j) - d)) := by
  intro cnt
  induction cnt with
  | zero => intro k acc _ _; simp [interpX]
  | succ cnt ih =>
    intro k acc h1 h2
    have hT : TAB_LTPF_INTERP_X12K8.length = 15 := rfl
    have e0 : NMEM_12P8D = 232 := rfl
    push_cast at h2
    simp only [interpX]
    rw [e0, Finset.sum_range_succ']
    simp only [Nat.cast_zero, add_zero, Nat.cast_add, Nat.cast_one]
    have hsum : ∀ F : ℤ → ℝ, ∑ j ∈ range cnt, F (k + ((j : ℤ) + 1)) = ∑ j ∈ range cnt, F (k + 1 + (j : ℤ)) := fun F =>
      Finset.sum_congr rfl fun j _ => by rw [show k + ((j : ℤ) + 1) = k + 1 + j by ring]
    rw [hsum (fun z => x (a + n - z) * tap TAB_LTPF_INTERP_X12K8 7 (4 * z - d))]
    split
    · rw [i32AsUsize_of_nonneg (x := ((232 : Nat) : Int) + n - k) (by omega) (by omega),
        i32AsUsize_of_nonneg (x := 4 * k - d + 7) (by omega) (by omega)]
      have hv := hx (((232 : Nat) : Int) + n - k).toNat (by omega)
      rw [List.getD_eq_getElem _ _ (by omega), show a - 232 + ((((232 : Nat) : Int) + n - k).toNat : ℤ) = a + n - k by omega] at hv
      obtain ⟨c, hc⟩ := idx_total (l := TAB_LTPF_INTERP_X12K8) (i := (4 * k - d + 7).toNat) (by rw [hT]; omega)
      rw [idx_eq_ok (l := xt) (i := (((232 : Nat) : Int) + n - k).toNat) (by omega)]; simp only [Res.bind_ok]
      rw [hc]; simp only [Res.bind_ok]
      rw [ih _ _ (by omega) (by omega), hv,
        tap_of_idx (l := TAB_LTPF_INTERP_X12K8) (c := 7) (i := 4 * k - d) (w := c) (by omega) (by rw [add_comm]; exact hc)]
      congr 1
      show acc + _ * (c : ℝ) + _ = _
      ring
    · simp only [Res.bind_ok]
      rw [ih _ _ (by omega) (by omega), tap_outside (by rw [hT]; omega), mul_zero, add_zero]

theorem interpX_between (xt : List ℝ) (x : ℤ → ℝ) (a : ℤ) (hx : ∀ j < xt.length, xt.getD j 0 = x (a - 232 + j)) (n d : ℤ) (hl : 0 ≤ 230 + n)
    (hu : 234 + n < xt.length) (hb : xt.length < 1000) : interpX xt n d 5 (-2) zero = .ok (between x (a + n) d) := by
  rw [interpX_real xt x a hx n d hl hu hb 5 (-2) zero (by omega) (by omega), real_zero, zero_add]
  unfold between
  rw [sum_Icc_five]

theorem activationSums_real (xt : List ℝ) (x : ℤ → ℝ) (a : ℤ) (hx : ∀ j < xt.length, xt.getD j 0 = x (a - 232 + j)) (p : ℕ) (fr : ℤ)
    (hp : p ≤ 228) (hb : xt.length < 1000) : ∀ (cnt n : ℕ) (s1 s2 s3 : ℝ), 234 + n + cnt ≤ xt.length →
    activationSums xt p fr n cnt (s1, s2, s3) = .ok (s1 + ∑ j ∈ range cnt, between x (a + (n + j : ℕ)) 0 * between x (a + (n + j : ℕ) - p) fr,
      s2 + ∑ j ∈ range cnt, between x (a + (n + j : ℕ)) 0 ^ 2, s3 + ∑ j ∈ range cnt, between x (a + (n + j : ℕ) - p) fr ^ 2) := by
  intro cnt
  induction cnt with
  | zero => intro n s1 s2 s3 _; simp [activationSums]
  | succ cnt ih =>
    intro n s1 s2 s3 h
    simp only [activationSums]
    rw [interpX_between xt x a hx n 0 (by omega) (by omega) hb]; simp only [Res.bind_ok]
    rw [interpX_between xt x a hx _ fr (by omega) (by omega) hb]; simp only [Res.bind_ok]
    rw [ih _ _ _ _ (by omega)]
    have hsum : ∀ F : ℕ → ℝ, ∑ j ∈ range (cnt + 1), F (n + j) = F n + ∑ j ∈ range cnt, F (n + 1 + j) := by
      intro F
      rw [Finset.sum_range_succ', add_comm, Nat.add_zero]
      congr 1
      exact Finset.sum_congr rfl fun j _ => by rw [show n + (j + 1) = n + 1 + j by omega]
    rw [hsum (fun z => between x (a + (z : ℕ)) 0 * between x (a + (z : ℕ) - p) fr), hsum (fun z => between x (a + (z : ℕ)) 0 ^ 2),
      hsum (fun z => between x (a + (z : ℕ) - p) fr ^ 2), show a + ((n : ℤ) - p) = a + n - p by ring]
    congr 2
    · ring
    · congr 1 <;> ring

/-- what the encoder remembers, as in the specification -/
def EncLtpf.mem (s : EncLtpf ℝ) : PitchMem := ⟨s.tPrev, s.memNc, s.memMemNc, s.memPitch, s.memActive⟩

theorem activationBit_real (cfg : Lc3Config) (s : EncLtpf ℝ) (x : ℤ → ℝ) (a : ℤ) (hx : ∀ j < s.xt.length, s.xt.getD j 0 = x (a - 232 + j))
    (hl : s.xt.length = xtExtLen cfg) (q : ℕ) (hq : q / 4 ≤ 228) (nn g : Bool) :
    ∃ active : Bool, activationBit cfg s (q / 4) ((q % 4 : ℕ) : ℤ) nn g
      = .ok (active, periodicity x a (len12p8Of cfg.nMs) (q / 4) ((q % 4 : ℕ) : ℤ), (q : ℝ) / 4) ∧
      (active = true ↔ (g = true ∧ nn = false) ∧
        Activated cfg.nMs s.mem (periodicity x a (len12p8Of cfg.nMs) (q / 4) ((q % 4 : ℕ) : ℤ)) (q / 4)) := by
  have hl' : 234 + len12p8Of cfg.nMs ≤ s.xt.length ∧ s.xt.length < 1000 := by
    rw [hl]; unfold xtExtLen; cases cfg.nMs <;> decide
  unfold activationBit
  rw [real_zero, activationSums_real s.xt x a hx (q / 4) _ hq hl'.2 (len12p8Of cfg.nMs) 0 0 0 0 (by omega)]
  simp only [Res.bind_ok, zero_add, Nat.zero_add]
  have hnc : (if lt (0 : ℝ) (sqrt ((∑ j ∈ range (len12p8Of cfg.nMs), between x (a + j) 0 ^ 2) *
        ∑ j ∈ range (len12p8Of cfg.nMs), between x (a + j - (q / 4 : ℕ)) ((q % 4 : ℕ) : ℤ) ^ 2)) = true then
      (∑ j ∈ range (len12p8Of cfg.nMs), between x (a + j) 0 * between x (a + j - (q / 4 : ℕ)) ((q % 4 : ℕ) : ℤ)) /
        sqrt ((∑ j ∈ range (len12p8Of cfg.nMs), between x (a + j) 0 ^ 2) *
          ∑ j ∈ range (len12p8Of cfg.nMs), between x (a + j - (q / 4 : ℕ)) ((q % 4 : ℕ) : ℤ) ^ 2) else 0)
      = periodicity x a (len12p8Of cfg.nMs) (q / 4) ((q % 4 : ℕ) : ℤ) := by
    unfold periodicity
    split
    · rfl
    · rename_i h
      rw [lt_real, not_lt] at h
      have h0 : Real.sqrt ((∑ j ∈ range (len12p8Of cfg.nMs), between x (a + j) 0 ^ 2) *
        ∑ j ∈ range (len12p8Of cfg.nMs), between x (a + j - (q / 4 : ℕ)) ((q % 4 : ℕ) : ℤ) ^ 2) = 0 :=
        le_antisymm h (Real.sqrt_nonneg _)
      rw [h0, div_zero]
  rw [hnc]
  have hpitch : (ofInt ((q / 4 : ℕ) : ℤ) + ofInt ((q % 4 : ℕ) : ℤ) / ofRat 4 : ℝ) = (q : ℝ) / 4 := by
    rw [real_ofInt, real_ofInt]
    show _ + _ / ((4 : ℚ) : ℝ) = _
    have : (q : ℝ) = 4 * (q / 4 : ℕ) + (q % 4 : ℕ) := by exact_mod_cast (Nat.div_add_mod q 4).symm
    rw [this]
    simp only [Int.cast_natCast, Rat.cast_ofNat]
    ring
  rw [hpitch]
  refine ⟨_, rfl, ?_⟩
  generalize periodicity x a (len12p8Of cfg.nMs) (q / 4) ((q % 4 : ℕ) : ℤ) = nc
  have c94 : (ofRat (94 / 100) : ℝ) = 94 / 100 := by show ((94 / 100 : ℚ) : ℝ) = _; norm_num
  have c9 : (ofRat (9 / 10) : ℝ) = 9 / 10 := by show ((9 / 10 : ℚ) : ℝ) = _; norm_num
  have c84 : (ofRat (84 / 100) : ℝ) = 84 / 100 := by show ((84 / 100 : ℚ) : ℝ) = _; norm_num
  have c2 : (ofRat 2 : ℝ) = 2 := by show ((2 : ℚ) : ℝ) = _; norm_num
  have c1 : (ofRat (-1 / 10) : ℝ) = -1 / 10 := by show ((-1 / 10 : ℚ) : ℝ) = _; norm_num
  have cabs : ∀ z : ℝ, absS z = |z| := fun _ => rfl
  unfold Activated EncLtpf.mem
  simp only [c94, c9, c84, c2, c1, cabs]
  by_cases hg : (g && !nn) = true
  · rw [if_pos hg]
    simp only [Bool.and_eq_true, Bool.not_eq_true'] at hg
    simp only [Bool.or_eq_true, Bool.and_eq_true, Bool.not_eq_true', decide_eq_true_eq, lt_real]
    have : -1 / 10 < nc - s.memNc ↔ s.memNc - 1 / 10 < nc := by constructor <;> intro h <;> linarith
    rw [this]
    tauto
  · rw [if_neg hg]
    simp only [Bool.and_eq_true, Bool.not_eq_true'] at hg
    simp only [Bool.false_eq_true, false_iff, not_and]
    exact fun h => absurd h hg

end Lc3
