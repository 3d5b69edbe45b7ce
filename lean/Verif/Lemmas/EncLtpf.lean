import Verif.Model.EncLtpf
import Mathlib.Tactic.NormNum
/-! Lemmas about the pitch analysis of the encoder: every access is in range whatever the comparisons give. -/

namespace Lc3
open Scalar Tables

theorem sliceR_ok {β : Type} {l : List β} {a b : Nat} (h : a ≤ b) (hb : b ≤ l.length) :
    sliceR l a b = .ok ((l.take b).drop a) := if_pos ⟨h, hb⟩

theorem shiftDown_ok {β : Type} {l : List β} {a : Nat} (h : a ≤ l.length) :
    ∃ r, shiftDown l a = .ok r ∧ r.length = l.length := by
  refine ⟨_, if_pos h, ?_⟩
  rw [List.length_append, List.length_drop, List.length_drop]; omega

theorem usub_of_le {a b : Nat} (h : b ≤ a) : usub a b = .ok (a - b) := by
  unfold usub; rw [if_pos h]

theorem i32AsUsize_of_nonneg {x : Int} (h : 0 ≤ x) (h2 : x < 18446744073709551616) : i32AsUsize x = x.toNat := by
  unfold i32AsUsize; rw [Int.emod_eq_of_lt h h2]

theorem idx_total {β : Type} {l : List β} {i : Nat} (h : i < l.length) : ∃ v, idx l i = .ok v :=
  ⟨_, idx_eq_ok h⟩

variable {α : Type} [Scalar α]

theorem resampleSum_ok (xs : List Int) (p n : Nat) : ∀ (cnt : Nat) (k : Int) (acc : α),
    (∀ j : Int, k ≤ j → j < k + cnt → -120 < (p : Int) * j - (15 * n % p : Nat) → (p : Int) * j - (15 * n % p : Nat) < 120 →
      0 ≤ ((240 / p : Nat) : Int) + (((15 * n / p : Nat) : Int) + j - (120 / p : Nat)) ∧
      ((240 / p : Nat) : Int) + (((15 * n / p : Nat) : Int) + j - (120 / p : Nat)) < xs.length) → xs.length < 2 ^ 32 →
    ∃ r : α, resampleSum xs p n cnt k acc = .ok r := by
  intro cnt
  induction cnt with
  | zero => intro k acc _ _; exact ⟨acc, rfl⟩
  | succ cnt ih =>
    intro k acc h hl
    have step : ∀ acc' : α, ∃ r : α, resampleSum xs p n cnt (k + 1) acc' = .ok r := fun acc' =>
      ih (k + 1) acc' (fun j h1 h2 => h j (by omega) (by push_cast at h2 ⊢; omega)) hl
    simp only [resampleSum]
    by_cases hc : -120 < (p : Int) * k - (15 * n % p : Nat) ∧ (p : Int) * k - (15 * n % p : Nat) < 120
    · rw [if_pos hc]
      obtain ⟨b1, b2⟩ := h k (by omega) (by push_cast; omega) hc.1 hc.2
      rw [i32AsUsize_of_nonneg b1 (by omega)]
      obtain ⟨v, hv⟩ := idx_total (l := xs) (i := (((240 / p : Nat) : Int)
        + (((15 * n / p : Nat) : Int) + k - (120 / p : Nat))).toNat) (by omega)
      rw [hv]
      simp only [Res.bind_ok]
      have hT : TAB_RESAMP_FILTER.length = 239 := rfl
      generalize hq : (p : Int) * k - (15 * n % p : Nat) = q at hc ⊢
      rw [i32AsUsize_of_nonneg (x := 119 + q) (by omega) (by omega)]
      obtain ⟨w, hw⟩ := idx_total (l := TAB_RESAMP_FILTER) (i := (119 + q).toNat) (by rw [hT]; omega)
      rw [hw]
      simp only [Res.bind_ok]
      exact step _
    · rw [if_neg hc]
      simp only [Res.bind_ok]
      exact step _

omit [Scalar α] in
/-- the up sampling factor, and the length of the sample buffer in terms of it -/
theorem upFactor_cases (f : SamplingFrequency) (d : FrameDuration) :
    (upFactorOf (Lc3Config.new f d).fs = 24 ∨ upFactorOf (Lc3Config.new f d).fs = 12 ∨ upFactorOf (Lc3Config.new f d).fs = 8 ∨
      upFactorOf (Lc3Config.new f d).fs = 6 ∨ upFactorOf (Lc3Config.new f d).fs = 4) ∧
    xsExtLen (Lc3Config.new f d) = 240 / upFactorOf (Lc3Config.new f d).fs
      + 15 * len12p8Of d / upFactorOf (Lc3Config.new f d).fs := by
  cases f <;> cases d <;> decide

theorem resampleAll_ok (f : SamplingFrequency) (d : FrameDuration) (xs : List Int)
    (hx : xs.length = xsExtLen (Lc3Config.new f d)) : ∀ (cnt n : Nat), n + cnt ≤ len12p8Of d →
    ∃ r : List α, resampleAll (Lc3Config.new f d) xs n cnt = .ok r ∧ r.length = cnt := by
  intro cnt
  induction cnt with
  | zero => intro n _; exact ⟨[], rfl, rfl⟩
  | succ cnt ih =>
    intro n hn
    obtain ⟨r, hr, hl⟩ := ih (n + 1) (by omega)
    obtain ⟨s, hs⟩ := resampleSum_ok (α := α) xs (upFactorOf (Lc3Config.new f d).fs) n
      (2 * (120 / upFactorOf (Lc3Config.new f d).fs) + 1) (-((120 / upFactorOf (Lc3Config.new f d).fs : Nat) : Int)) zero
      (by
        rw [hx]
        intro j h1 h2 h3 h4
        obtain ⟨hp, hL⟩ := upFactor_cases f d
        rw [hL]
        have hlen : len12p8Of d = 128 ∨ len12p8Of d = 96 := by cases d <;> decide
        generalize len12p8Of d = len at *
        generalize upFactorOf (Lc3Config.new f d).fs = p at *
        rcases hp with rfl | rfl | rfl | rfl | rfl <;> rcases hlen with rfl | rfl <;>
          norm_num at h1 h2 h3 h4 ⊢ <;> omega)
      (by rw [hx]; cases f <;> cases d <;> decide)
    simp only [resampleAll]
    rw [hs]; simp only [Res.bind_ok]; rw [hr]
    exact ⟨_, rfl, by simp [hl]⟩

theorem highPass50_length : ∀ (l : List α) (h1 h2 : α), (highPass50 l h1 h2).1.length = l.length
  | [], _, _ => rfl
  | x :: xs, h1, h2 => by
    simp only [highPass50, List.length_cons]
    rw [highPass50_length xs]

theorem downsample2_length : ∀ (cnt : Nat) (l : List α), (downsample2 cnt l).length ≤ cnt
  | 0, _ => by simp [downsample2]
  | cnt + 1, l => by
    match l with
    | [] | [_] | [_, _] | [_, _, _] | [_, _, _, _] => simp [downsample2]
    | s0 :: s1 :: s2 :: s3 :: s4 :: r =>
      simp only [downsample2, List.length_cons]
      have := downsample2_length cnt (s2 :: s3 :: s4 :: r)
      omega

theorem autocorr_ok (x6 : List α) (len : Nat) (hl : K_MAX + len ≤ x6.length) : ∀ (cnt k : Nat), k + cnt ≤ 98 →
    ∃ r, autocorr x6 len k cnt = .ok r ∧ r.length = cnt := by
  intro cnt
  induction cnt with
  | zero => intro k _; exact ⟨[], rfl, rfl⟩
  | succ cnt ih =>
    intro k hk
    obtain ⟨r, hr, hn⟩ := ih (k + 1) (by omega)
    have e1 : K_MAX = 114 := rfl
    have e2 : K_MIN = 17 := rfl
    rw [e1] at hl
    simp only [autocorr]
    rw [e1, e2, sliceR_ok (by omega) (by omega), usub_of_le (by omega)]
    simp only [Res.bind_ok]
    rw [sliceR_ok (by omega) (by omega), hr]
    exact ⟨_, rfl, by simp [hn]⟩

theorem weightCorr_length : ∀ (l : List α) (k : Nat), (weightCorr k l).length = l.length
  | [], _ => rfl
  | _ :: rs, k => by simp [weightCorr, weightCorr_length rs]

theorem indexOfMaxFrom_lt : ∀ (l : List α) (n i : Nat) (m : α) (b : Nat), i < b → n + l.length ≤ b →
    indexOfMaxFrom l n i m < b
  | [], _, _, _, _, h, _ => h
  | v :: vs, n, i, m, b, h, h2 => by
    simp only [indexOfMaxFrom]
    simp only [List.length_cons] at h2
    split
    · exact indexOfMaxFrom_lt vs _ _ _ _ (by omega) (by omega)
    · exact indexOfMaxFrom_lt vs _ _ _ _ h (by omega)

theorem indexOfMax_lt {l : List α} (h : l ≠ []) : indexOfMax l < l.length := by
  match l, h with
  | v :: vs, _ => exact indexOfMaxFrom_lt _ _ _ _ _ (by simp) (by simp)

theorem normValue_ok (x6 : List α) (len lag : Nat) (hl : K_MAX + len ≤ x6.length) (h : lag ≤ K_MAX) :
    ∃ v, normValue x6 len lag = .ok v := by
  unfold normValue
  rw [usub_of_le h]; simp only [Res.bind_ok]
  rw [sliceR_ok (by omega) (by omega)]
  exact ⟨_, rfl⟩

/-- the pitch detection returns a lag between 17 and 114 -/
theorem pitchDetection_ok (cfg : Lc3Config) (tPrev : Nat) (xt x6 : List α) (h1 : 17 ≤ tPrev) (h2 : tPrev ≤ 114)
    (hx : NMEM_12P8D ≤ xt.length) (h6 : x6.length = x6ExtLen) :
    ∃ t b y, pitchDetection cfg tPrev xt x6 = .ok (t, b, y) ∧ 17 ≤ t ∧ t ≤ 114 ∧ y.length = x6ExtLen := by
  have e0 : NMEM_12P8D = 232 := rfl
  have e1 : K_MAX = 114 := rfl
  have e2 : K_MIN = 17 := rfl
  have e3 : x6ExtLen = 178 := rfl
  have hlen : len6p4Of cfg.nMs ≤ 64 := by cases cfg.nMs <;> decide
  unfold pitchDetection
  generalize len6p4Of cfg.nMs = len at hlen
  dsimp only
  rw [e0] at hx ⊢
  rw [e3] at h6
  rw [sliceR_ok (by omega) (le_refl _)]
  simp only [Res.bind_ok]
  rw [sliceR_ok (l := x6) (by omega) (by rw [e1]; omega)]
  simp only [Res.bind_ok]
  have hd := downsample2_length len (List.drop (232 - 3) (List.take xt.length xt))
  generalize downsample2 len (List.drop (232 - 3) (List.take xt.length xt)) = dl at hd
  have hy : (x6.take K_MAX ++ dl ++ x6.drop (K_MAX + dl.length)).length = 178 := by
    rw [List.length_append, List.length_append, List.length_take, List.length_drop, e1]; omega
  generalize x6.take K_MAX ++ dl ++ x6.drop (K_MAX + dl.length) = y at hy
  obtain ⟨r, hr, hrl⟩ := autocorr_ok y len (by rw [e1]; omega) (K_MAX + 1 - K_MIN) 0 (by rw [e1, e2])
  rw [hr]; simp only [Res.bind_ok]
  rw [e1, e2] at hrl
  have hi1 : indexOfMax (weightCorr 0 r) < 98 := by
    have := indexOfMax_lt (l := weightCorr 0 r) (by
      intro hc; have := congrArg List.length hc; rw [weightCorr_length, hrl, List.length_nil] at this; omega)
    rw [weightCorr_length, hrl] at this; omega
  generalize indexOfMax (weightCorr 0 r) = i1 at hi1
  rw [usub_of_le (by omega)]; simp only [Res.bind_ok]
  rw [usub_of_le (by rw [e2]; omega)]; simp only [Res.bind_ok]
  rw [usub_of_le (by rw [e1, e2]; omega)]; simp only [Res.bind_ok]
  rw [sliceR_ok (by rw [e1, e2]; omega) (by rw [hrl, e1, e2]; omega)]; simp only [Res.bind_ok]
  have hi2 : indexOfMax (List.drop (Max.max K_MIN (tPrev - 4) - K_MIN)
      (List.take (Min.min K_MAX (tPrev + 4) - K_MIN + 1) r)) + (Max.max K_MIN (tPrev - 4) - K_MIN) + K_MIN ≤ 114 := by
    have hpl : (List.drop (Max.max K_MIN (tPrev - 4) - K_MIN)
      (List.take (Min.min K_MAX (tPrev + 4) - K_MIN + 1) r)).length
        = Min.min K_MAX (tPrev + 4) - K_MIN + 1 - (Max.max K_MIN (tPrev - 4) - K_MIN) := by
      rw [List.length_drop, List.length_take, hrl, e1, e2]; omega
    have := indexOfMax_lt (l := List.drop (Max.max K_MIN (tPrev - 4) - K_MIN)
      (List.take (Min.min K_MAX (tPrev + 4) - K_MIN + 1) r)) (by
        intro hc; have := congrArg List.length hc; rw [hpl, e1, e2] at this; simp at this; omega)
    rw [hpl] at this
    rw [e1, e2] at this ⊢
    omega
  have hi2' : 17 ≤ indexOfMax (List.drop (Max.max K_MIN (tPrev - 4) - K_MIN)
      (List.take (Min.min K_MAX (tPrev + 4) - K_MIN + 1) r)) + (Max.max K_MIN (tPrev - 4) - K_MIN) + K_MIN := by
    rw [e2]; omega
  generalize indexOfMax (List.drop (Max.max K_MIN (tPrev - 4) - K_MIN)
      (List.take (Min.min K_MAX (tPrev + 4) - K_MIN + 1) r)) + (Max.max K_MIN (tPrev - 4) - K_MIN) + K_MIN = lag2 at hi2 hi2'
  rw [e2]
  obtain ⟨n0, hn0⟩ := normValue_ok y len 0 (by rw [e1]; omega) (by omega)
  obtain ⟨n1, hn1⟩ := normValue_ok y len (i1 + 17) (by rw [e1]; omega) (by rw [e1]; omega)
  obtain ⟨n2, hn2⟩ := normValue_ok y len lag2 (by rw [e1]; omega) (by rw [e1]; omega)
  obtain ⟨r1, hr1⟩ := idx_total (l := r) (i := i1 + 17 - 17) (by rw [hrl]; omega)
  obtain ⟨r2, hr2⟩ := idx_total (l := r) (i := lag2 - 17) (by rw [hrl]; omega)
  rw [hn0]; simp only [Res.bind_ok]
  rw [hn1]; simp only [Res.bind_ok]
  rw [usub_of_le (by omega)]; simp only [Res.bind_ok]
  rw [hr1]; simp only [Res.bind_ok]
  have key : ∀ c1 c2 : α, ∃ t b z, (if lt (ofRat (85 / 100) * c1) c2
      then Res.ok (lag2, lt (ofRat (6 / 10)) c2, y) else Res.ok (i1 + 17, lt (ofRat (6 / 10)) c1, y)) = .ok (t, b, z)
        ∧ 17 ≤ t ∧ t ≤ 114 ∧ z.length = x6ExtLen := by
    intro c1 c2
    split
    · exact ⟨_, _, _, rfl, hi2', hi2, by rw [hy, e3]⟩
    · exact ⟨_, _, _, rfl, by omega, by omega, by rw [hy, e3]⟩
  split
  · simp only [Res.bind_ok]
    exact key _ _
  · rw [hn2]; simp only [Res.bind_ok]
    rw [usub_of_le (by omega)]; simp only [Res.bind_ok]
    rw [hr2]; simp only [Res.bind_ok]
    exact key _ _

theorem lagSearch_ok (xt : List α) (len kMin kMax : Nat) (hx : NMEM_12P8D + len ≤ xt.length) :
    ∀ (cnt k : Nat) (m : α) (best : Nat), k + cnt ≤ 233 → kMin ≤ best → best ≤ kMax →
    ∃ r b, lagSearch xt len kMin kMax k cnt m best = .ok (r, b) ∧ r.length = cnt ∧ kMin ≤ b ∧ b ≤ kMax := by
  intro cnt
  induction cnt with
  | zero => intro k m best _ h1 h2; exact ⟨[], best, rfl, rfl, h1, h2⟩
  | succ cnt ih =>
    intro k m best hk h1 h2
    have e0 : NMEM_12P8D = 232 := rfl
    simp only [lagSearch]
    rw [e0] at hx ⊢
    rw [sliceR_ok (by omega) (by omega), usub_of_le (by omega)]; simp only [Res.bind_ok]
    rw [usub_of_le (by omega)]; simp only [Res.bind_ok]
    rw [sliceR_ok (by omega) (by omega)]; simp only [Res.bind_ok]
    generalize dotS (α := α) _ _ = c
    by_cases hb : (lt m c && decide (kMin ≤ k) && decide (k ≤ kMax)) = true
    · rw [if_pos hb, if_pos hb]
      simp only [Bool.and_eq_true, decide_eq_true_eq] at hb
      obtain ⟨r, b, hr, hl, b1, b2⟩ := ih (k + 1) c k (by omega) hb.1.2 hb.2
      rw [hr]
      exact ⟨_, _, rfl, by simp [hl], b1, b2⟩
    · rw [if_neg hb, if_neg hb]
      obtain ⟨r, b, hr, hl, b1, b2⟩ := ih (k + 1) m best (by omega) h1 h2
      rw [hr]
      exact ⟨_, _, rfl, by simp [hl], b1, b2⟩

theorem interpolateR_ok (r : List α) (rel : Nat) (d : Int) (h4 : 4 ≤ rel) (hr : rel + 4 < r.length) (hl : r.length < 1000) :
    ∀ (cnt : Nat) (m : Int) (acc : α), -4 ≤ m → m + cnt ≤ 5 → ∃ v, interpolateR r rel d cnt m acc = .ok v := by
  intro cnt
  induction cnt with
  | zero => intro m acc _ _; exact ⟨acc, rfl⟩
  | succ cnt ih =>
    intro m acc h1 h2
    have hT : TAB_LTPF_INTERP_R.length = 31 := rfl
    simp only [interpolateR]
    push_cast at h2
    split
    · rename_i hc
      rw [i32AsUsize_of_nonneg (x := 4 * m - d + 15) (by omega) (by omega),
        i32AsUsize_of_nonneg (x := (rel : Int) + m) (by omega) (by omega)]
      obtain ⟨h, hh⟩ := idx_total (l := TAB_LTPF_INTERP_R) (i := (4 * m - d + 15).toNat) (by rw [hT]; omega)
      obtain ⟨v, hv⟩ := idx_total (l := r) (i := ((rel : Int) + m).toNat) (by omega)
      rw [hh]; simp only [Res.bind_ok]; rw [hv]; simp only [Res.bind_ok]
      exact ih _ _ (by omega) (by omega)
    · simp only [Res.bind_ok]
      exact ih _ _ (by omega) (by omega)

theorem bestFraction_ok (r : List α) (rel : Nat) (h4 : 4 ≤ rel) (hr : rel + 4 < r.length) (hl : r.length < 1000) :
    ∀ (ds : List Int) (m : α) (fr : Int), ∃ v, bestFraction r rel ds m fr = .ok v ∧ (v = fr ∨ v ∈ ds)
  | [], _, fr => ⟨fr, rfl, .inl rfl⟩
  | d :: ds, m, fr => by
    obtain ⟨w, hw⟩ := interpolateR_ok r rel d h4 hr hl 9 (-4) zero (by omega) (by omega)
    simp only [bestFraction]
    rw [hw]; simp only [Res.bind_ok]
    split
    · obtain ⟨v, hv, h⟩ := bestFraction_ok r rel h4 hr hl ds w d
      exact ⟨v, hv, .inr (by rcases h with h | h <;> simp [h])⟩
    · obtain ⟨v, hv, h⟩ := bestFraction_ok r rel h4 hr hl ds m fr
      exact ⟨v, hv, h.imp id (fun h => by simp [h])⟩

/-- what `pitch_lag_parameter` can return: the lag lies between 32 and 228; up to 126 the fraction is arbitrary, up to 156 it is a
half, above it is zero -/
theorem pitchLagParameter_ok (cfg : Lc3Config) (xt : List α) (t : Nat) (h1 : 17 ≤ t) (h2 : t ≤ 114)
    (hx : NMEM_12P8D + len12p8Of cfg.nMs ≤ xt.length) :
    ∃ p fr, pitchLagParameter cfg xt t = .ok (pitchIndexOf p fr, p, fr) ∧ 32 ≤ p ∧ p ≤ 228 ∧ 0 ≤ fr ∧ fr ≤ 3 ∧
      (127 ≤ p → fr = 0 ∨ fr = 2) ∧ (157 ≤ p → fr = 0) := by
  unfold pitchLagParameter
  rw [usub_of_le (by omega)]; simp only [Res.bind_ok]
  rw [usub_of_le (by omega)]; simp only [Res.bind_ok]
  rw [usub_of_le (by omega)]; simp only [Res.bind_ok]
  rw [if_neg (by omega)]
  obtain ⟨r, b, hr, hl, b1, b2⟩ := lagSearch_ok xt (len12p8Of cfg.nMs) (Max.max 32 (2 * t - 4)) (Min.min 228 (2 * t + 4)) hx
    (Min.min 228 (2 * t + 4) + 4 - (Max.max 32 (2 * t - 4) - 4) + 1) (Max.max 32 (2 * t - 4) - 4) zero (Max.max 32 (2 * t - 4))
    (by omega) (le_refl _) (by omega)
  rw [hr]; simp only [Res.bind_ok]
  rw [usub_of_le (by omega)]; simp only [Res.bind_ok]
  obtain ⟨fr, hfr, hm⟩ := bestFraction_ok r (b - (Max.max 32 (2 * t - 4) - 4)) (by omega) (by omega) (by omega)
    (fractionsOf b) zero 0
  rw [hfr]; simp only [Res.bind_ok]
  have hb1 : 32 ≤ b := by omega
  have hb2 : b ≤ 228 := by omega
  have hcase : (b = 32 ∧ 0 ≤ fr ∧ fr ≤ 3) ∨ (32 < b ∧ b < 127 ∧ -3 ≤ fr ∧ fr ≤ 3) ∨
      (127 ≤ b ∧ b < 157 ∧ (fr = -2 ∨ fr = 0 ∨ fr = 2)) ∨ (157 ≤ b ∧ fr = 0) := by
    rcases hm with hm | hm
    · omega
    · unfold fractionsOf at hm
      split at hm
      · simp at hm; omega
      · split at hm
        · simp at hm; omega
        · split at hm
          · simp at hm; omega
          · simp at hm
  split
  · rw [usub_of_le (by omega)]; simp only [Res.bind_ok]
    refine ⟨_, _, rfl, ?_⟩
    omega
  · simp only [Res.bind_ok]
    refine ⟨_, _, rfl, ?_⟩
    omega

theorem interpX_ok (xt : List α) (n d : Int) (hl : 0 ≤ 230 + n) (hu : 234 + n < xt.length) (hb : xt.length < 1000) :
    ∀ (cnt : Nat) (k : Int) (acc : α), -2 ≤ k → k + cnt ≤ 3 → ∃ v, interpX xt n d cnt k acc = .ok v := by
  intro cnt
  induction cnt with
  | zero => intro k acc _ _; exact ⟨acc, rfl⟩
  | succ cnt ih =>
    intro k acc h1 h2
    have hT : TAB_LTPF_INTERP_X12K8.length = 15 := rfl
    have e0 : NMEM_12P8D = 232 := rfl
    push_cast at h2
    simp only [interpX]
    rw [e0]
    split
    · rw [i32AsUsize_of_nonneg (x := ((232 : Nat) : Int) + n - k) (by omega) (by omega),
        i32AsUsize_of_nonneg (x := 4 * k - d + 7) (by omega) (by omega)]
      obtain ⟨v, hv⟩ := idx_total (l := xt) (i := (((232 : Nat) : Int) + n - k).toNat) (by omega)
      obtain ⟨c, hc⟩ := idx_total (l := TAB_LTPF_INTERP_X12K8) (i := (4 * k - d + 7).toNat) (by rw [hT]; omega)
      rw [hv]; simp only [Res.bind_ok]; rw [hc]; simp only [Res.bind_ok]
      exact ih _ _ (by omega) (by omega)
    · simp only [Res.bind_ok]
      exact ih _ _ (by omega) (by omega)

theorem activationSums_ok (xt : List α) (p : Nat) (fr : Int) (hp : p ≤ 228) (hb : xt.length < 1000) :
    ∀ (cnt n : Nat) (s : α × α × α), 234 + n + cnt ≤ xt.length → ∃ v, activationSums xt p fr n cnt s = .ok v := by
  intro cnt
  induction cnt with
  | zero => intro n s _; exact ⟨s, by simp only [activationSums]⟩
  | succ cnt ih =>
    intro n s h
    obtain ⟨a, b, c⟩ := s
    obtain ⟨v, hv⟩ := interpX_ok xt n 0 (by omega) (by omega) hb 5 (-2) zero (by omega) (by omega)
    obtain ⟨w, hw⟩ := interpX_ok xt ((n : Int) - p) fr (by omega) (by omega) hb 5 (-2) zero (by omega) (by omega)
    simp only [activationSums]
    rw [hv]; simp only [Res.bind_ok]; rw [hw]; simp only [Res.bind_ok]
    exact ih _ _ (by omega)

theorem activationBit_ok (cfg : Lc3Config) (s : EncLtpf α) (p : Nat) (fr : Int) (nn g : Bool) (hp : p ≤ 228)
    (hl : s.xt.length = xtExtLen cfg) : ∃ v, activationBit cfg s p fr nn g = .ok v := by
  have hl' : 234 + len12p8Of cfg.nMs ≤ s.xt.length ∧ s.xt.length < 1000 := by
    rw [hl]; unfold xtExtLen; cases cfg.nMs <;> decide
  unfold activationBit
  obtain ⟨⟨a, b, c⟩, hv⟩ := activationSums_ok s.xt p fr hp hl'.2 (len12p8Of cfg.nMs) 0 (zero, zero, zero) (by omega)
  rw [hv]
  exact ⟨_, rfl⟩

end Lc3
