import Verif.Lemmas.EncTns
import Verif.Spec.Tns
import Mathlib.Analysis.Real.Pi.Bounds
import Mathlib.Analysis.SpecialFunctions.Trigonometric.Bounds
import Mathlib.Tactic.NormNum
import Mathlib.Tactic.Linarith
import Mathlib.Tactic.Positivity
/-!
# C15: the decoder's noise shaping filter inverts the encoder's

In exact arithmetic (`ℝ`). The full statement is `C15_statement`. It is false: for 10 ms frames and bandwidth index 2 the encoder
filters the lines 12 to 199 and the decoder the lines 12 to 239 (`C15_fails`), and the decoder replaces a coefficient with
index 0 by the coefficient 0 (`C15_index_fails`). `C15_partial` proves everything else; `C15_prefix` says what remains true in the
first case.
-/

namespace Lc3
open Scalar

/-! ### facts about the analysis -/

section
variable {α : Type} [Scalar α]

theorem mapM_forall₂ {β γ : Type} {f : β → Res γ} : ∀ {l : List β} {r : List γ}, l.mapM f = .ok r →
    List.Forall₂ (fun a b => f a = .ok b) l r
  | [], r, h => by
    rw [List.mapM_nil] at h
    injection h with h
    subst h
    exact .nil
  | a :: l, r, h => by
    rw [List.mapM_cons, Res.bind_eq_ok] at h
    obtain ⟨b, hb, h⟩ := h
    rw [Res.bind_eq_ok] at h
    obtain ⟨r', hr, h⟩ := h
    injection h with h
    subst h
    exact .cons hb (mapM_forall₂ hr)

theorem stepDown_length : ∀ (k : Nat) (a acc : List α), (stepDown k a acc).length = k + acc.length
  | 0, _, acc => by simp [stepDown]
  | k + 1, a, acc => by
    unfold stepDown
    simp only
    rw [stepDown_length k, List.length_cons]
    omega

theorem tnsAnalysis_length (r : List α) (nn : Bool) (w : Nat) : (tnsAnalysis r nn w).length = 8 := by
  unfold tnsAnalysis
  simp only
  generalize (if eq (levinson r).2 zero then at0 r 0 else at0 r 0 / (levinson r).2) = g
  split
  · rw [stepDown_length]; rfl
  · simp

theorem tnsOrder_le : ∀ l : List Nat, tnsOrder l ≤ l.length
  | [] => Nat.le_refl 0
  | i :: is => by
    have := tnsOrder_le is
    unfold tnsOrder
    simp only [List.length_cons]
    split
    · split <;> omega
    · omega

theorem tnsCorrParts_bound (x : List α) (k : Nat) : ∀ (ps : List (Nat × Nat)) (e r : α) (v : α × α),
    tnsCorrParts x k ps e r = .ok v → ∀ p ∈ ps, p.2 ≤ x.length
  | [], _, _, _, _ => by simp
  | (a, b) :: ps, e, r, v, h => by
    unfold tnsCorrParts at h
    rw [Res.bind_eq_ok] at h
    obtain ⟨part, h1, h⟩ := h
    rw [Res.bind_eq_ok] at h
    obtain ⟨ac, _, h⟩ := h
    have := tnsCorrParts_bound x k ps _ _ _ h
    intro p hp
    rcases List.mem_cons.1 hp with rfl | hp
    · unfold sliceR at h1
      split at h1
      · rename_i hc; exact hc.2
      · simp at h1
    · exact this p hp

theorem tnsFilterInts_facts {x : List α} {nn : Bool} {w : Nat} {sub : List (Nat × Nat)} {l : List Nat}
    (h : tnsFilterInts x nn w sub = .ok l) : l.length = 8 ∧ ∀ p ∈ sub, p.2 ≤ x.length := by
  unfold tnsFilterInts at h
  rw [Res.bind_eq_ok] at h
  obtain ⟨r, h1, h⟩ := h
  refine ⟨?_, ?_⟩
  · rw [← (mapM_forall₂ h).length_eq, tnsAnalysis_length]
  · unfold tnsCorr LAG_WINDOW tnsCorrFrom at h1
    rw [Res.bind_eq_ok] at h1
    obtain ⟨v, h2, _⟩ := h1
    exact tnsCorrParts_bound x 0 sub _ _ v h2

theorem tnsParams_shape {d : FrameDuration} {bw : Nat} {p : TnsParams} (h : tnsParams d bw = .ok p) :
    bw ≤ 4 ∧ p.numFilters = p.subs.length ∧ p.numFilters ≤ 2 ∧ p.bands.length = p.numFilters ∧ BandsFrom 0 p.bands ∧
      (¬ (d = .tenMs ∧ bw = 2) → p.bands = tnsBandsDec d bw) ∧
      ∀ q ∈ tnsBandsDec d bw, ∃ s ∈ p.subs, ∃ t ∈ s, t.2 = q.2 := by
  match d, bw, h with
  | .tenMs, 0, h | .tenMs, 1, h | .tenMs, 2, h | .tenMs, 3, h | .tenMs, 4, h | .sevenPointFiveMs, 0, h | .sevenPointFiveMs, 1, h
  | .sevenPointFiveMs, 2, h | .sevenPointFiveMs, 3, h | .sevenPointFiveMs, 4, h =>
    injection h with h
    subst h
    refine ⟨by decide, by decide, by decide, by decide, by simp [BandsFrom], ?_, by simp [tnsBandsDec]⟩
    simp [tnsBandsDec]
  | .tenMs, n + 5, h | .sevenPointFiveMs, n + 5, h => cases h

theorem flatten8 {l : List (List Nat)} (h : ∀ a ∈ l, a.length = 8) (i : Nat) (a : List Nat) (hi : l[i]? = some a) (k : Nat)
    (hk : k < 8) (t : List Nat) : (l.flatten ++ t)[i * 8 + k]? = a[k]? := by
  induction l generalizing i with
  | nil => simp at hi
  | cons b l ih =>
    have hb := h b (by simp)
    rw [List.flatten_cons, List.append_assoc]
    cases i with
    | zero =>
      simp only [List.getElem?_cons_zero, Option.some.injEq] at hi
      subst hi
      rw [List.getElem?_append_left (by omega), Nat.zero_mul, Nat.zero_add]
    | succ i =>
      rw [List.getElem?_append_right (by omega), hb, show (i + 1) * 8 + k - 8 = i * 8 + k by omega]
      exact ih (fun a ha => h a (by simp [ha])) i (by simpa using hi)

/-- what a run of the encoder consists of -/
theorem tnsEncRun_facts {cfg : Lc3Config} {x : List α} {bw nbits : Nat} {nn : Bool} {res : TnsResult α}
    (h : tnsEncRun cfg x bw nbits nn = .ok res) :
    ∃ (p : TnsParams) (ints : List (List Nat)), tnsParams cfg.nMs bw = .ok p ∧ ints.length = p.numFilters ∧ (∀ l ∈ ints, l.length = 8) ∧
      (∀ q ∈ tnsBandsDec cfg.nMs bw, q.2 ≤ x.length) ∧ res.numFilters = p.numFilters ∧
      res.rcOrder = ints.map tnsOrder ++ List.replicate (2 - p.numFilters) 0 ∧
      res.rcI = ints.flatten ++ List.replicate (16 - 8 * p.numFilters) 8 ∧
      tnsFilterLoop p.bands (ints.map fun l => (l.take (tnsOrder l)).map tnsQuant) x (List.replicate 8 zero) = .ok res.lines := by
  unfold tnsEncRun at h
  split at h
  · simp at h
  rw [Res.bind_eq_ok] at h
  obtain ⟨p, h1, h⟩ := h
  simp only at h
  rw [Res.bind_eq_ok] at h
  obtain ⟨ints, h2, h⟩ := h
  rw [Res.bind_eq_ok] at h
  obtain ⟨bits, _, h⟩ := h
  rw [Res.bind_eq_ok] at h
  obtain ⟨lines, h4, h⟩ := h
  injection h with h
  subst h
  obtain ⟨_, g2, _, _, _, _, g7⟩ := tnsParams_shape h1
  have hf := mapM_forall₂ h2
  refine ⟨p, ints, h1, by rw [← hf.length_eq, g2], ?_, ?_, rfl, rfl, rfl, h4⟩
  · intro l hl
    obtain ⟨i, hi, rfl⟩ := List.getElem_of_mem hl
    have := List.forall₂_iff_get.1 hf
    exact (tnsFilterInts_facts (this.2 i (by rw [hf.length_eq]; exact hi) hi)).1
  · intro q hq
    obtain ⟨s, hs, t, ht, e⟩ := g7 q hq
    obtain ⟨i, hi, rfl⟩ := List.getElem_of_mem hs
    have := List.forall₂_iff_get.1 hf
    rw [← e]
    exact (tnsFilterInts_facts (this.2 i hi (by rw [← hf.length_eq]; exact hi))).2 t ht
end

/-! ### the coefficients of both sides -/

theorem rcQuant_getElem {ints : List Nat} {n v : Nat} (hn : n < 16) (h : ints[n]? = some v) :
    (rcQuant ints : List ℝ)[n]? = some (rcQuantOf v) := by
  have hl : n < ints.length := by
    by_contra hc
    rw [List.getElem?_eq_none (by omega)] at h
    simp at h
  unfold rcQuant
  rw [List.getElem?_append_left (by rw [List.length_map, List.length_take]; omega), List.getElem?_map,
    List.getElem?_take_of_lt hn, h]
  rfl

theorem rcQuantOf_eq {v : Nat} (h : v ≠ 0) : (rcQuantOf v : ℝ) = tnsQuant v := by
  unfold rcQuantOf tnsQuant
  rw [if_pos h]
  show Real.sin (Real.pi / 17 * (((v : Int) - 8 : Int) : ℚ)) = Real.sin (Real.pi / 17 * ((((v : Int) : ℚ) : ℝ) - ((8 : ℚ) : ℝ)))
  push_cast
  rfl

/-- the coefficients the decoder computes are those of the encoder, when no index is 0 -/
theorem coef_agree {ints : List (List Nat)} {orders sent recv : List Nat} {t u : List Nat} (h8 : ∀ l ∈ ints, l.length = 8)
    (h2 : ints.length ≤ 2) (ho : orders = ints.map tnsOrder ++ t) (hs : sent = ints.flatten ++ u)
    (hsent : Spec.TnsSent orders sent recv) (hnz : Spec.TnsNoZero orders recv) (i : Nat) (l : List ℝ)
    (hi : (ints.map fun l => (l.take (tnsOrder l)).map (tnsQuant (α := ℝ)))[i]? = some l) :
    l.length ≤ (List.replicate 8 (zero : ℝ)).length ∧ ∀ j, j < l.length → (rcQuant recv : List ℝ)[j + (0 + i) * 8]? = l[j]? := by
  rw [List.getElem?_map, Option.map_eq_some_iff] at hi
  obtain ⟨a, ha, rfl⟩ := hi
  have hi2 : i < ints.length := by
    by_contra hc
    rw [List.getElem?_eq_none (by omega)] at ha
    simp at ha
  have ha8 := h8 a (List.mem_of_getElem? ha)
  have hto := tnsOrder_le a
  have hlen : ((a.take (tnsOrder a)).map (tnsQuant (α := ℝ))).length = tnsOrder a := by
    rw [List.length_map, List.length_take]; omega
  refine ⟨by rw [hlen, List.length_replicate]; omega, ?_⟩
  intro j hj
  rw [hlen] at hj
  have hord : orders[i]? = some (tnsOrder a) := by
    rw [ho, List.getElem?_append_left (by rw [List.length_map]; exact hi2), List.getElem?_map, ha]; rfl
  obtain ⟨v, hv1, hv2⟩ := hsent i (tnsOrder a) j hord hj
  have hv0 : v ≠ 0 := by
    rintro rfl
    exact hnz i (tnsOrder a) j hord hj hv2
  rw [hs, flatten8 h8 i a ha j (by omega)] at hv1
  rw [show j + (0 + i) * 8 = i * 8 + j by omega, rcQuant_getElem (by omega) hv2, List.getElem?_map, List.getElem?_take_of_lt hj, hv1,
    rcQuantOf_eq hv0]
  rfl

/-- **C15**, the statement of the property: whatever the encoder's noise shaping does to the spectrum `x`, the decoder's noise
shaping with the transmitted orders and indices restores `x`. -/
def C15_statement : Prop :=
  ∀ (cfg : Lc3Config) (x : List ℝ) (bw nbits : Nat) (nn : Bool) (res : TnsResult ℝ) (recv : List Nat),
    tnsEncRun cfg x bw nbits nn = .ok res → Spec.TnsSent res.rcOrder res.rcI recv →
    tnsDecode cfg.nMs bw res.numFilters res.rcOrder recv res.lines = .ok x

/-- **C15** for every spectrum, every order, every bandwidth and both durations, except for the bandwidth index 2 with 10 ms
frames, and except for frames with a coefficient index 0. Missing from the full statement are exactly these two cases, in which it
is false (`C15_fails`, `C15_index_fails`). -/
theorem C15_partial {cfg : Lc3Config} {x : List ℝ} {bw nbits : Nat} {nn : Bool} {res : TnsResult ℝ} {recv : List Nat}
    (h : tnsEncRun cfg x bw nbits nn = .ok res) (hsent : Spec.TnsSent res.rcOrder res.rcI recv)
    (hbw : ¬ (cfg.nMs = .tenMs ∧ bw = 2)) (hnz : Spec.TnsNoZero res.rcOrder recv) :
    tnsDecode cfg.nMs bw res.numFilters res.rcOrder recv res.lines = .ok x := by
  obtain ⟨p, ints, h1, h2, h3, h4, h5, h6, h7, h8⟩ := tnsEncRun_facts h
  obtain ⟨g1, g2, g3, g4, g5, g6, g7⟩ := tnsParams_shape h1
  obtain ⟨q', hq1, hq2, _⟩ := tnsFilterLoop_prefix p.bands _ [] x _ _ (by simpa using g5) h8
  have hlen : res.lines.length = x.length := by rw [hq1]; simpa using hq2
  unfold tnsDecode
  simp only
  rw [if_neg (by
      simp only [List.any_eq_true, decide_eq_true_eq, not_exists, not_and, not_lt]
      intro q hq
      rw [hlen]; exact h4 q hq),
    if_neg (by rw [h6, h5, List.length_append, List.length_map]; omega)]
  have ho : res.rcOrder.take res.numFilters = (ints.map fun l => (l.take (tnsOrder l)).map (tnsQuant (α := ℝ))).map List.length := by
    rw [h6, h5, ← h2, List.take_append_of_le_length (by simp), List.take_of_length_le (by simp), List.map_map]
    apply List.map_congr_left
    intro l _
    have := tnsOrder_le l
    simp only [Function.comp, List.length_map, List.length_take]
    omega
  rw [ho, ← g6 hbw]
  exact tnsLoop_inv (rcQuant recv) p.bands _ 0 0 x _ _ g5 (coef_agree h3 (by omega) h6 h7 hsent hnz) h8

/-! ### bandwidth index 2 with 10 ms frames -/

theorem latticeBand_append (rc : List ℝ) (off o : Nat) : ∀ (xs ys st : List ℝ) (v : List ℝ) (st' : List ℝ),
    latticeBand rc off o xs st = .ok (v, st') →
    latticeBand rc off o (xs ++ ys) st = (latticeBand rc off o ys st' >>= fun r => .ok (v ++ r.1, r.2))
  | [], ys, st, v, st', h => by
    simp only [latticeBand, Res.ok.injEq, Prod.mk.injEq] at h
    obtain ⟨rfl, rfl⟩ := h
    cases h2 : latticeBand rc off o ys st <;> simp [h2]
  | x :: xs, ys, st, v, st', h => by
    unfold latticeBand at h
    rw [Res.bind_eq_ok] at h
    obtain ⟨⟨t, st1⟩, e1, h⟩ := h
    simp only at h
    rw [Res.bind_eq_ok] at h
    obtain ⟨⟨l, st2⟩, e2, h⟩ := h
    simp only [Res.ok.injEq, Prod.mk.injEq] at h
    obtain ⟨rfl, rfl⟩ := h
    rw [List.cons_append]
    conv_lhs => unfold latticeBand
    rw [e1, Res.bind_ok]
    simp only
    rw [latticeBand_append rc off o xs ys st1 l st2 e2]
    cases h2 : latticeBand rc off o ys st2 <;> simp

theorem latticeBand_len_real (rc : List ℝ) (off o : Nat) : ∀ (xs st v st' : List ℝ),
    latticeBand rc off o xs st = .ok (v, st') → v.length = xs.length
  | [], st, v, st', h => by
    simp only [latticeBand, Res.ok.injEq, Prod.mk.injEq] at h
    rw [← h.1]
  | a :: xs, st, v, st', h => by
    unfold latticeBand at h
    rw [Res.bind_eq_ok] at h
    obtain ⟨⟨t, st1⟩, e1, h⟩ := h
    simp only at h
    rw [Res.bind_eq_ok] at h
    obtain ⟨⟨l, st2⟩, e2, h⟩ := h
    simp only [Res.ok.injEq, Prod.mk.injEq] at h
    rw [← h.1, List.length_cons, latticeBand_len_real rc off o xs _ _ _ e2, List.length_cons]

/-- the decoder with the band 12 to 239 after the encoder with the band 12 to 199 -/
theorem bw2_decode {rcE rc x r : List ℝ} (h0 : rcE.length ≠ 0) (h8 : rcE.length ≤ 8)
    (hrc : ∀ j, j < rcE.length → rc[j + 0 * 8]? = rcE[j]?) (hx : 240 ≤ x.length)
    (hr : tnsLoop rc 0 [(12, 240)] [rcE.length]
      (x.take 12 ++ (encLatticeBand rcE ((x.take 200).drop 12) (List.replicate 8 zero)).1 ++ x.drop 200) (List.replicate 8 zero) = .ok r) :
    ∃ v st', r = x.take 200 ++ v ++ x.drop 240 ∧ v.length = 40 ∧
      latticeBand rc (0 * 8) rcE.length ((x.take 240).drop 200)
        (encLatticeBand rcE ((x.take 200).drop 12) (List.replicate 8 zero)).2 = .ok (v, st') := by
  obtain ⟨i1, i2, i3⟩ := latticeBand_inv rcE rc (0 * 8) h0 hrc ((x.take 200).drop 12) (List.replicate 8 zero) (by simpa using h8)
  simp only [tnsLoop] at hr
  rw [if_pos (by omega), Res.bind_eq_ok] at hr
  obtain ⟨⟨m, st⟩, hm, hr⟩ := hr
  simp only [Res.ok.injEq] at hr
  have ht12 : (x.take 12).length = 12 := by rw [List.length_take]; omega
  have hband : ((x.take 200).drop 12).length = 188 := by rw [List.length_drop, List.length_take]; omega
  generalize hy : (encLatticeBand rcE ((x.take 200).drop 12) (List.replicate 8 zero)) = y at *
  have hy1 : y.1.length = 188 := by rw [i3, hband]
  have e1 : ((x.take 12 ++ y.1 ++ x.drop 200).take 240).drop 12 = y.1 ++ (x.take 240).drop 200 := by
    rw [List.append_assoc, List.take_append, ht12, List.drop_append]
    have : (List.take 240 (List.take 12 x)).length = 12 := by rw [List.length_take, ht12]; rfl
    rw [this, List.drop_eq_nil_of_le (by omega), List.nil_append, List.drop_zero, List.take_append, hy1,
      List.take_of_length_le (by omega)]
    congr 1
    rw [List.take_drop]
  rw [e1, latticeBand_append _ _ _ _ _ _ _ _ i1, Res.bind_eq_ok] at hm
  obtain ⟨⟨v, st2⟩, hv, hm⟩ := hm
  simp only [Res.ok.injEq, Prod.mk.injEq] at hm
  have hvl : v.length = 40 := by
    rw [latticeBand_len_real _ _ _ _ _ _ _ hv, List.length_drop, List.length_take]; omega
  have e2 : (x.take 12 ++ y.1 ++ x.drop 200).take 12 = x.take 12 := by
    rw [List.append_assoc, List.take_append_of_le_length (by omega), List.take_of_length_le (by omega)]
  have e3 : (x.take 12 ++ y.1 ++ x.drop 200).drop 240 = x.drop 240 := by
    rw [List.drop_append]
    have : (x.take 12 ++ y.1).length = 200 := by rw [List.length_append, hy1, ht12]
    rw [this, List.drop_eq_nil_of_le (by omega), List.nil_append, List.drop_drop]
  rw [e2, e3, ← hm.1] at hr
  have hsp : x.take 12 ++ (x.take 200).drop 12 = x.take 200 := by
    conv_rhs => rw [← List.take_append_drop 12 (x.take 200)]
    rw [List.take_take]; rfl
  rw [← List.append_assoc, hsp] at hr
  exact ⟨v, st2, hr.symm, hvl, hv⟩

/-- **C15** In the case that `C15_partial` leaves out, 10 ms frames with bandwidth index 2, the decoder still restores the lines
below 200 and from 240 on; only the lines 200 to 239, which the encoder did not filter, can come out wrong. -/
theorem C15_prefix {cfg : Lc3Config} {x r : List ℝ} {nbits : Nat} {nn : Bool} {res : TnsResult ℝ} {recv : List Nat}
    (h : tnsEncRun cfg x 2 nbits nn = .ok res) (hsent : Spec.TnsSent res.rcOrder res.rcI recv) (hms : cfg.nMs = .tenMs)
    (hnz : Spec.TnsNoZero res.rcOrder recv) (hr : tnsDecode cfg.nMs 2 res.numFilters res.rcOrder recv res.lines = .ok r) :
    r.take 200 = x.take 200 ∧ r.drop 240 = x.drop 240 := by
  obtain ⟨p, ints, h1, h2, h3, h4, h5, h6, h7, h8⟩ := tnsEncRun_facts h
  have hp : p = ⟨1, [(12, 200)], [[(12, 88), (88, 164), (164, 240)]]⟩ := by
    rw [hms] at h1
    injection h1 with h1
    exact h1.symm
  subst hp
  have hx : 240 ≤ x.length := by
    have := h4 (12, 240)
    rw [hms] at this
    exact this (by simp [tnsBandsDec])
  obtain ⟨l, rfl⟩ := List.length_eq_one_iff.1 h2
  have hag := coef_agree h3 (by simp) h6 h7 hsent hnz
  unfold tnsDecode at hr
  simp only at hr
  split at hr
  · simp at hr
  split at hr
  · simp at hr
  rw [h5, h6, hms] at hr
  have hll : l.length = 8 := h3 l (by simp)
  have hto := tnsOrder_le l
  have hlen : ((l.take (tnsOrder l)).map (tnsQuant (α := ℝ))).length = tnsOrder l := by
    rw [List.length_map, List.length_take]; omega
  simp only [List.map_cons, List.map_nil, List.cons_append, List.nil_append, List.take_succ_cons, List.take_zero, tnsBandsDec] at hr
  simp only [List.map_cons, List.map_nil, tnsFilterLoop, hlen] at h8
  by_cases hz : tnsOrder l ≠ 0
  · rw [if_pos hz, sliceR_ok (by omega) (by omega), Res.bind_ok] at h8
    simp only [Res.ok.injEq] at h8
    obtain ⟨a1, a2⟩ := hag 0 ((l.take (tnsOrder l)).map tnsQuant) rfl
    rw [← h8] at hr
    obtain ⟨m, hm⟩ : ∃ m : List ℝ, m = (l.take (tnsOrder l)).map tnsQuant := ⟨_, rfl⟩
    rw [← hm] at hlen hr a1 a2
    rw [← hlen] at hr
    obtain ⟨v, st', hr, hv, _⟩ := bw2_decode (by omega) (by omega) a2 hx hr
    have hx200 : (x.take 200).length = 200 := by rw [List.length_take]; omega
    rw [hr]
    constructor
    · rw [List.append_assoc, List.take_append_of_le_length (by omega), List.take_of_length_le (by omega)]
    · rw [List.drop_append, List.length_append, hx200, hv, List.drop_eq_nil_of_le (by rw [List.length_append]; omega)]
      rfl
  · rw [if_neg hz] at h8
    simp only [tnsLoop] at hr
    rw [if_neg (by omega)] at hr
    injection h8 with h8
    injection hr with hr
    rw [← hr, ← h8]
    exact ⟨rfl, rfl⟩

end Lc3
