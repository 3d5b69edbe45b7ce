import Verif.Lemmas.EncLtpf
import Verif.Lemmas.TnsStable
import Verif.Props.Bandwidth
import Verif.Props.Rate
import Verif.Spec.Pitch
import Mathlib.Data.List.GetD
/-! Lemmas about the pitch analysis in exact arithmetic: what the buffers hold. -/

namespace Lc3
open Scalar Tables Finset Spec

/-- the first `n` entries of a list are the samples of a signal from `o` on -/
def Carries (l : List ℝ) (x : ℤ → ℝ) (o : ℤ) (n : ℕ) : Prop := n ≤ l.length ∧ ∀ j < n, l.getD j 0 = x (o + j)

theorem real_zero : (zero : ℝ) = 0 := Rat.cast_zero

theorem tap_of_idx {l : List ℚ} {c i : ℤ} {w : ℚ} (h0 : 0 ≤ c + i) (h : idx l (c + i).toNat = .ok w) : tap l c i = (w : ℝ) := by
  unfold tap
  rw [if_pos h0]
  rw [List.getD_eq_getElem?_getD, (idx_ok_iff ..).1 h]; rfl

/-! ## Resampling -/

theorem resampleSum_real (xs : List Int) (p n : Nat) (s : ℤ → ℝ) (o : ℤ)
    (hs : ∀ j < xs.length, ((xs.getD j 0 : ℤ) : ℝ) = s (o + j)) : ∀ (cnt : Nat) (k : Int) (acc : ℝ),
    (∀ j : Int, k ≤ j → j < k + cnt → -120 < (p : Int) * j - (15 * n % p : Nat) → (p : Int) * j - (15 * n % p : Nat) < 120 →
      0 ≤ ((240 / p : Nat) : Int) + (((15 * n / p : Nat) : Int) + j - (120 / p : Nat)) ∧
      ((240 / p : Nat) : Int) + (((15 * n / p : Nat) : Int) + j - (120 / p : Nat)) < xs.length) → xs.length < 2 ^ 32 →
    resampleSum xs p n cnt k acc = .ok (acc + ∑ j ∈ range cnt,
      if -120 < (p : Int) * (k + j) - (15 * n % p : Nat) ∧ (p : Int) * (k + j) - (15 * n % p : Nat) < 120 then
        s (o + (((240 / p : Nat) : Int) + (((15 * n / p : Nat) : Int) + (k + j) - (120 / p : Nat))))
          * tap TAB_RESAMP_FILTER 119 ((p : Int) * (k + j) - (15 * n % p : Nat)) else 0) := by
  intro cnt
  induction cnt with
  | zero => intro k acc _ _; simp [resampleSum]
  | succ cnt ih =>
    intro k acc h hl
    have step := fun acc' : ℝ =>
      ih (k + 1) acc' (fun j h1 h2 => h j (by omega) (by push_cast at h2 ⊢; omega)) hl
    rw [Finset.sum_range_succ']
    simp only [Nat.cast_zero, add_zero, Nat.cast_add, Nat.cast_one]
    simp only [resampleSum]
    have hsum : ∀ F : ℤ → ℝ, ∑ j ∈ range cnt, F (k + ((j : ℤ) + 1)) = ∑ j ∈ range cnt, F (k + 1 + (j : ℤ)) := fun F =>
      Finset.sum_congr rfl fun j _ => by rw [show k + ((j : ℤ) + 1) = k + 1 + j by ring]
    rw [hsum (fun z => if -120 < (p : Int) * z - (15 * n % p : Nat) ∧ (p : Int) * z - (15 * n % p : Nat) < 120 then
        s (o + (((240 / p : Nat) : Int) + (((15 * n / p : Nat) : Int) + z - (120 / p : Nat))))
          * tap TAB_RESAMP_FILTER 119 ((p : Int) * z - (15 * n % p : Nat)) else 0)]
    by_cases hc : -120 < (p : Int) * k - (15 * n % p : Nat) ∧ (p : Int) * k - (15 * n % p : Nat) < 120
    · rw [if_pos hc, if_pos hc]
      obtain ⟨b1, b2⟩ := h k (by omega) (by push_cast; omega) hc.1 hc.2
      rw [i32AsUsize_of_nonneg b1 (by omega)]
      have hv := hs (((240 / p : Nat) : Int) + (((15 * n / p : Nat) : Int) + k - (120 / p : Nat))).toNat (by omega)
      rw [idx_eq_ok (l := xs) (i := (((240 / p : Nat) : Int)
        + (((15 * n / p : Nat) : Int) + k - (120 / p : Nat))).toNat) (by omega)]
      rw [List.getD_eq_getElem _ _ (by omega), Int.toNat_of_nonneg b1] at hv
      simp only [Res.bind_ok]
      have hT : TAB_RESAMP_FILTER.length = 239 := rfl
      generalize hq : (p : Int) * k - (15 * n % p : Nat) = q at hc ⊢
      rw [i32AsUsize_of_nonneg (x := 119 + q) (by omega) (by omega)]
      obtain ⟨w, hw⟩ := idx_total (l := TAB_RESAMP_FILTER) (i := (119 + q).toNat) (by rw [hT]; omega)
      rw [hw]
      simp only [Res.bind_ok]
      rw [step, tap_of_idx (by omega) hw, real_ofInt, hv]
      congr 1
      show acc + _ * (w : ℝ) + _ = _
      ring
    · rw [if_neg hc, if_neg hc]
      simp only [Res.bind_ok]
      rw [step, add_zero]

/-- the taps that meet an input sample -/
theorem taps_reindex (P c : ℕ) (hP : 0 < P) (hc : 120 = P * c) (b : ℤ) (r : ℕ) (hr : r < P) (G : ℤ → ℤ → ℝ) :
    ∑ j ∈ range (2 * c + 1), (if -120 < (P : ℤ) * (-(c : ℤ) + j) - r ∧ (P : ℤ) * (-(c : ℤ) + j) - r < 120 then
      G (b + (-(c : ℤ) + j)) ((P : ℤ) * (-(c : ℤ) + j) - r) else 0)
    = ∑ i ∈ Icc (-119 : ℤ) 119, if (P : ℤ) ∣ (P * b + r) + i then G (((P * b + r) + i) / (P : ℤ)) i else 0 := by
  have hP' : (0 : ℤ) < P := by exact_mod_cast hP
  rw [← Finset.sum_filter, ← Finset.sum_filter]
  refine Finset.sum_bij' (fun j _ => (P : ℤ) * (-(c : ℤ) + j) - r) (fun i _ => ((i + r) / (P : ℤ) + c).toNat) ?_ ?_ ?_ ?_ ?_
  · intro j hj
    simp only [Finset.mem_filter, Finset.mem_range, Finset.mem_Icc] at hj ⊢
    refine ⟨by omega, ⟨b + (-(c : ℤ) + j), by ring⟩⟩
  · intro i hi
    simp only [Finset.mem_filter, Finset.mem_range, Finset.mem_Icc] at hi ⊢
    obtain ⟨⟨h1, h2⟩, e, he⟩ := hi
    have hi' : i + r = P * (e - b) := by linear_combination he
    rw [hi', Int.mul_ediv_cancel_left _ hP'.ne']
    have hc' : (120 : ℤ) = P * c := by exact_mod_cast hc
    have l1 : -(c : ℤ) ≤ e - b := by
      by_contra hlt
      have : e - b ≤ -(c : ℤ) - 1 := by omega
      nlinarith [mul_le_mul_of_nonneg_left this hP'.le]
    have l2 : e - b ≤ c := by
      by_contra hlt
      have : (c : ℤ) + 1 ≤ e - b := by omega
      have hr' : (r : ℤ) < P := by exact_mod_cast hr
      nlinarith [mul_le_mul_of_nonneg_left this hP'.le]
    have l3 : (((e - b + c).toNat : ℕ) : ℤ) = e - b + c := Int.toNat_of_nonneg (by omega)
    rw [l3, show -(c : ℤ) + (e - b + c) = e - b by ring, ← hi']
    omega
  · intro j hj
    have : (P : ℤ) * (-(c : ℤ) + j) - r + r = P * (-(c : ℤ) + j) := by ring
    show (((P : ℤ) * (-(c : ℤ) + j) - r + r) / (P : ℤ) + c).toNat = j
    rw [this, Int.mul_ediv_cancel_left _ hP'.ne']; omega
  · intro i hi
    simp only [Finset.mem_filter, Finset.mem_Icc] at hi
    obtain ⟨⟨h1, h2⟩, e, he⟩ := hi
    have hi' : i + r = P * (e - b) := by linear_combination he
    show (P : ℤ) * (-(c : ℤ) + (((i + r) / (P : ℤ) + c).toNat : ℕ)) - r = i
    rw [hi', Int.mul_ediv_cancel_left _ hP'.ne']
    have hc' : (120 : ℤ) = P * c := by exact_mod_cast hc
    have l1 : -(c : ℤ) ≤ e - b := by
      by_contra hlt
      have : e - b ≤ -(c : ℤ) - 1 := by omega
      nlinarith [mul_le_mul_of_nonneg_left this hP'.le]
    have l3 : (((e - b + c).toNat : ℕ) : ℤ) = e - b + c := Int.toNat_of_nonneg (by omega)
    rw [l3]; linear_combination -hi'
  · intro j hj
    show G _ _ = G _ _
    congr 1
    rw [show ((P : ℤ) * b + r) + ((P : ℤ) * (-(c : ℤ) + j) - r) = P * (b + (-(c : ℤ) + j)) by ring, Int.mul_ediv_cancel_left _ hP'.ne']

theorem spacing_eq (f : SamplingFrequency) (d : FrameDuration) :
    upFactorOf (Lc3Config.new f d).fs = spacing (Lc3Config.new f d).fs ∧
    15 * len12p8Of d = spacing (Lc3Config.new f d).fs * (Lc3Config.new f d).nf ∧
    resampFactorOf (Lc3Config.new f d).fs = (if (Lc3Config.new f d).fs = 8000 then 1 / 2 else 1) := by
  refine ⟨?_, ?_, rfl⟩ <;> cases f <;> cases d <;> decide

/-- the resampled frame: `xs` holds the samples from `t nf - 240 / P` on -/
theorem resampleAll_real (f : SamplingFrequency) (d : FrameDuration) (xs : List Int) (s : ℤ → ℝ) (t : ℕ)
    (hx : xs.length = xsExtLen (Lc3Config.new f d))
    (hs : ∀ j < xs.length, ((xs.getD j 0 : ℤ) : ℝ)
      = s ((t * (Lc3Config.new f d).nf : ℕ) - (240 / spacing (Lc3Config.new f d).fs : ℕ) + j)) :
    ∀ (cnt n : Nat), n + cnt ≤ len12p8Of d → ∃ r : List ℝ, resampleAll (Lc3Config.new f d) xs n cnt = .ok r ∧ r.length = cnt ∧
      ∀ j < cnt, r.getD j 0 = at12k8 (Lc3Config.new f d).fs s ((t * len12p8Of d : ℕ) + n + j) := by
  intro cnt
  induction cnt with
  | zero => intro n _; exact ⟨[], rfl, rfl, fun j hj => absurd hj (by omega)⟩
  | succ cnt ih =>
    intro n hn
    obtain ⟨r, hr, hl, hv⟩ := ih (n + 1) (by omega)
    have hb := resampleSum_real xs (upFactorOf (Lc3Config.new f d).fs) n s _ hs
      (2 * (120 / upFactorOf (Lc3Config.new f d).fs) + 1) (-((120 / upFactorOf (Lc3Config.new f d).fs : Nat) : Int)) 0
      (by
        rw [hx]
        intro j h1 h2 h3 h4
        obtain ⟨hp, hL⟩ := upFactor_cases f d
        rw [hL]
        have hlen : len12p8Of d = 128 ∨ len12p8Of d = 96 := by cases d <;> decide
        generalize len12p8Of d = len at *
        generalize upFactorOf (Lc3Config.new f d).fs = p at *
        rcases hp with rfl | rfl | rfl | rfl | rfl <;> rcases hlen with rfl | rfl <;>
          norm_num at h1 h2 h3 h4 ⊢ <;> omega)
      (by rw [hx]; cases f <;> cases d <;> decide)
    obtain ⟨e1, e2, e3⟩ := spacing_eq f d
    obtain ⟨hp, -⟩ := upFactor_cases f d
    simp only [resampleAll]
    rw [real_zero, hb, e1, e3]
    rw [e1] at hp
    simp only [Res.bind_ok]; rw [hr]
    refine ⟨_, rfl, by simp [hl], ?_⟩
    intro j hj
    cases j with
    | zero =>
      rw [List.getD_cons_zero]
      unfold at12k8
      generalize (Lc3Config.new f d).fs = fs at *
      generalize (Lc3Config.new f d).nf = nf at *
      generalize spacing fs = P at *
      have hc : 120 = P * (120 / P) := by rcases hp with rfl | rfl | rfl | rfl | rfl <;> rfl
      have h2 : 240 / P = 2 * (120 / P) := by rcases hp with rfl | rfl | rfl | rfl | rfl <;> rfl
      have hP : 0 < P := by omega
      have hbase : (15 : ℤ) * (((t * len12p8Of d : ℕ) : ℤ) + n + (0 : ℕ)) = P * ((t * nf : ℕ) + (15 * n / P : ℕ)) + (15 * n % P : ℕ) := by
        have h3 : ((15 * n : ℕ) : ℤ) = P * (15 * n / P : ℕ) + (15 * n % P : ℕ) := by
          exact_mod_cast (Nat.div_add_mod (15 * n) P).symm
        have h4 : (15 * len12p8Of d : ℤ) = P * nf := by exact_mod_cast e2
        push_cast at h3 ⊢
        linear_combination t * h4 + h3
      rw [hbase, zero_add]
      have hre := taps_reindex P (120 / P) hP hc ((t * nf : ℕ) + (15 * n / P : ℕ)) (15 * n % P) (Nat.mod_lt _ hP)
        (fun a i => s (a - (120 / P : ℕ)) * tap TAB_RESAMP_FILTER 119 i)
      rw [show ((120 : ℤ) / (P : ℤ)) = ((120 / P : ℕ) : ℤ) by norm_cast, ← hre]
      have hsc : (ofInt (P : ℤ) * ofRat (if fs = 8000 then 1 / 2 else 1) : ℝ) = (P : ℝ) * (if fs = 8000 then 1 / 2 else 1) := by
        rw [real_ofInt]
        show _ * (((if fs = 8000 then 1 / 2 else 1 : ℚ)) : ℝ) = _
        split <;> norm_num
      rw [hsc, mul_comm]
      congr 1
      refine Finset.sum_congr rfl fun j _ => ?_
      rw [h2]
      split
      · congr 2
        push_cast; ring
      · rfl
    | succ j =>
      rw [List.getD_cons_succ, hv j (by omega)]
      congr 1
      push_cast; ring

/-! ## High pass -/

theorem polesZ_rec (u : ℤ → ℝ) {n : ℤ} (hn : 0 ≤ n) :
    polesZ u n = u n + 19652933726226904 / 10 ^ 16 * polesZ u (n - 1) - 9658854605688177 / 10 ^ 16 * polesZ u (n - 2) := by
  obtain ⟨m, rfl⟩ := Int.eq_ofNat_of_zero_le hn
  unfold polesZ
  match m with
  | 0 => norm_num [poles]
  | 1 => norm_num [poles]
  | m + 2 =>
    rw [if_pos (by omega), if_pos (by push_cast; omega), if_pos (by push_cast; omega),
      show (((m + 2 : ℕ) : ℤ)).toNat = m + 2 by omega, show (((m + 2 : ℕ) : ℤ) - 1).toNat = m + 1 by omega,
      show (((m + 2 : ℕ) : ℤ) - 2).toNat = m by omega, poles]
    norm_cast

theorem highPass50_real (u : ℤ → ℝ) : ∀ (l : List ℝ) (o : ℤ), 0 ≤ o → (∀ j < l.length, l.getD j 0 = u (o + j)) →
    (∀ j < l.length, (highPass50 l (polesZ u (o - 1)) (polesZ u (o - 2))).1.getD j 0 = highPassed u (o + j)) ∧
    (highPass50 l (polesZ u (o - 1)) (polesZ u (o - 2))).2 = (polesZ u (o + l.length - 1), polesZ u (o + l.length - 2)) := by
  intro l
  induction l with
  | nil => intro o _ _; simp [highPass50]
  | cons x l ih =>
    intro o ho h
    have h0 : x = u o := by simpa using h 0 (by simp)
    have hh : x - (ofRat (-19652933726226904 / 10000000000000000) : ℝ) * polesZ u (o - 1)
        - (ofRat (9658854605688177 / 10000000000000000) : ℝ) * polesZ u (o - 2) = polesZ u o := by
      rw [polesZ_rec u ho, h0]
      show u o - ((-19652933726226904 / 10000000000000000 : ℚ) : ℝ) * _ - ((9658854605688177 / 10000000000000000 : ℚ) : ℝ) * _ = _
      push_cast
      ring
    have := ih (o + 1) (by omega) (fun j hj => by
      have := h (j + 1) (by simpa using hj)
      rw [List.getD_cons_succ] at this
      rw [this]; congr 1; push_cast; ring)
    rw [show o + 1 - 1 = o by ring, show o + 1 - 2 = o - 1 by ring] at this
    simp only [highPass50]
    rw [hh]
    refine ⟨?_, ?_⟩
    · intro j hj
      cases j with
      | zero =>
        rw [List.getD_cons_zero]
        unfold highPassed
        show ((9827947082978771 / 10000000000000000 : ℚ) : ℝ) * _ + ((-1965589416595754 / 1000000000000000 : ℚ) : ℝ) * _
          + ((9827947082978771 / 10000000000000000 : ℚ) : ℝ) * _ = _
        simp only [Nat.cast_zero, add_zero]
        push_cast
        ring
      | succ j =>
        rw [List.getD_cons_succ, this.1 j (by simpa using hj)]
        congr 1; push_cast; ring
    · refine Eq.trans (Prod.mk.eta) (this.2.trans ?_)
      rw [List.length_cons]
      congr 2 <;> push_cast <;> ring

/-! ## Decimation -/

theorem downsample2_real (x : ℤ → ℝ) : ∀ (cnt : ℕ) (l : List ℝ) (o : ℤ), 2 * cnt + 3 ≤ l.length →
    (∀ j < l.length, l.getD j 0 = x (2 * o - 3 + j)) →
    (downsample2 cnt l).length = cnt ∧ ∀ j < cnt, (downsample2 cnt l).getD j 0 = at6k4 x (o + j)
  | 0, l, _, _, _ => ⟨by simp [downsample2], fun j hj => absurd hj (by omega)⟩
  | cnt + 1, l, o, hl, h => by
    match l, hl, h with
    | s0 :: s1 :: s2 :: s3 :: s4 :: r, hl, h =>
      have ih := downsample2_real x cnt (s2 :: s3 :: s4 :: r) (o + 1) (by simp only [List.length_cons] at hl ⊢; omega) (fun j hj => by
        have := h (j + 2) (by simp only [List.length_cons] at hj ⊢; omega)
        rw [List.getD_cons_succ, List.getD_cons_succ] at this
        rw [this]; congr 1; push_cast; ring)
      simp only [downsample2]
      refine ⟨by rw [List.length_cons, ih.1], ?_⟩
      intro j hj
      cases j with
      | zero =>
        have e0 := h 0 (by simp)
        have e1 := h 1 (by simp)
        have e2 := h 2 (by simp)
        have e3 := h 3 (by simp)
        have e4 := h 4 (by simp)
        simp only [List.getD_cons_zero, List.getD_cons_succ] at e0 e1 e2 e3 e4
        rw [List.getD_cons_zero, e0, e1, e2, e3, e4]
        unfold at6k4
        show ((1236796411180537 / 10000000000000000 : ℚ) : ℝ) * _ + ((2353512128364889 / 10000000000000000 : ℚ) : ℝ) * _
          + ((2819382920909148 / 10000000000000000 : ℚ) : ℝ) * _ + ((2353512128364889 / 10000000000000000 : ℚ) : ℝ) * _
          + ((1236796411180537 / 10000000000000000 : ℚ) : ℝ) * _ = _
        rw [show 2 * o - 3 + ((0 : ℕ) : ℤ) = 2 * (o + (0 : ℕ)) - 3 by push_cast; ring,
          show 2 * o - 3 + ((1 : ℕ) : ℤ) = 2 * (o + (0 : ℕ)) - 2 by push_cast; ring,
          show 2 * o - 3 + ((2 : ℕ) : ℤ) = 2 * (o + (0 : ℕ)) - 1 by push_cast; ring,
          show 2 * o - 3 + ((3 : ℕ) : ℤ) = 2 * (o + (0 : ℕ)) by push_cast; ring,
          show 2 * o - 3 + ((4 : ℕ) : ℤ) = 2 * (o + (0 : ℕ)) + 1 by push_cast; ring]
        norm_num
      | succ j =>
        rw [List.getD_cons_succ, ih.2 j (by omega)]
        congr 1; push_cast; ring

end Lc3
