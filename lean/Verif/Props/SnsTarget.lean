import Verif.Lemmas.SnsTarget
import Verif.Props.SnsInverse
import Verif.Lemmas.MdctWindow
import Verif.Props.EncoderFrame
import Verif.Props.Rate
/-!
# The scale factors that the encoder derives from the energies of the bands (C81 – C83)

In real arithmetic, against the specification of `Spec/SnsTarget.lean`.
-/

namespace Lc3
open Scalar Spec

/-- the factor of an attack frame -/
noncomputable def attackFactor : FrameDuration → ℝ
  | .tenMs => 1 / 2
  | .sevenPointFiveMs => 3 / 10

theorem gTilt_eq : ∀ (i : ℕ) (h : i < 5), (G_TILT[i]'h : ℕ) = 14 + 4 * i
  | 0, _ | 1, _ | 2, _ | 3, _ | 4, _ => rfl

/-- **C81.** For 64 bands the encoder computes, for all energies, exactly the specified scale factors. -/
theorem C81 (f : SamplingFrequency) (d : FrameDuration) (hnb : (Lc3Config.new f d).nb = 64) {eb : List ℝ} (he : eb.length = 64)
    (attack : Bool) : ∃ scf, snsTarget (Lc3Config.new f d) eb attack = .ok scf ∧ scf.length = 16 ∧ ∀ n < 16, scf.getD n 0 =
      if attack then attackTarget (Lc3Config.new f d).fsInd (attackFactor d) (fun b => eb.getD b 0) n
      else plainTarget (Lc3Config.new f d).fsInd (fun b => eb.getD b 0) n := by
  have h5 : (Lc3Config.new f d).fsInd < 5 := by cases f <;> cases d <;> decide
  have hd : (Lc3Config.new f d).nMs = d := by cases f <;> cases d <;> rfl
  generalize Lc3Config.new f d = cfg at *
  obtain ⟨scf, e1, e2⟩ := snsTarget_ok hnb h5 he attack
  refine ⟨scf, e1, e2, ?_⟩
  unfold snsTarget at e1
  rw [idx_eq_ok (show cfg.fsInd < G_TILT.length from h5), Res.bind_ok] at e1
  have hp : snsPad cfg.nb eb = .ok eb := by
    unfold snsPad
    rw [hnb, show usub 64 64 = .ok 0 from rfl, Res.bind_ok, if_neg (by norm_num), if_pos he]
  rw [hp, Res.bind_ok] at e1
  simp only at e1
  have hex : (ofInt ((G_TILT[cfg.fsInd]'h5 : ℕ) : ℤ) / ofRat 630 : ℝ) = (14 + 4 * cfg.fsInd) / 630 := by
    rw [gTilt_eq _ h5]
    show ((((14 + 4 * cfg.fsInd : ℕ) : ℤ) : ℚ) : ℝ) / ((630 : ℚ) : ℝ) = _
    push_cast; rfl
  set E : ℕ → ℝ := fun b => eb.getD b 0 with hE
  have ht := fun {b : ℕ} (hb : b < 64) => tilted_real cfg.fsInd _ hex eb hb
  generalize hT : ((snsSmooth eb).zipIdx.map fun p => p.1 * pow10 (ofInt (p.2 : ℤ) * (ofInt ((G_TILT[cfg.fsInd]'h5 : ℕ) : ℤ) / ofRat 630 : ℝ)))
    = T at ht e1
  have hTl : T.length = 64 := by rw [← hT]; simp [snsSmooth_length]
  have hfl : (maxS (powi (ofRat 2) (-32)) (sumS T / ofRat 64 * powi (ofRat 10) (-4)) : ℝ) = energyFloor cfg.fsInd E := by
    show max (((2 : ℚ) : ℝ) ^ (-32 : ℤ)) (sumS T / ((64 : ℚ) : ℝ) * ((10 : ℚ) : ℝ) ^ (-4 : ℤ)) = _
    unfold energyFloor
    rw [sumS_range, hTl, Finset.sum_congr rfl fun b hb => ht (Finset.mem_range.1 hb)]
    congr 1
    · norm_num
    · rw [show ((10 : ℚ) : ℝ) ^ (-4 : ℤ) = 1 / 10000 by norm_num, show ((64 : ℚ) : ℝ) = 64 by norm_num]
      ring
  rw [hfl] at e1
  generalize hL : (T.map fun x => log2 (ofRat (1 / 8388608) + maxS x (energyFloor cfg.fsInd E)) / ofRat 2 : List ℝ) = L at e1
  have hLl : L.length = 64 := by rw [← hL]; simp [hTl]
  have hLg : ∀ b < 64, L.getD b 0 = logEnergy cfg.fsInd E b := by
    intro b hb
    rw [← hL, List.getD_eq_getElem _ _ (by simp; omega), List.getElem_map, ← List.getD_eq_getElem T 0 (by omega), ht hb]
    show Real.logb 2 (((1 / 8388608 : ℚ) : ℝ) + max _ _) / ((2 : ℚ) : ℝ) = _
    rw [show ((1 / 8388608 : ℚ) : ℝ) = 1 / 2 ^ 23 by norm_num, show ((2 : ℚ) : ℝ) = 2 by norm_num]
    rfl
  have hG : ∀ n < 16, (snsDownsample L).getD n 0 = grouped (logEnergy cfg.fsInd E) n := by
    intro n hn
    rw [snsDownsample_real hLl hn, grouped_congr hLg]
  have hP : ∀ n < 16, (snsMeanRemoval (snsDownsample L)).getD n 0 = plainTarget cfg.fsInd E n := by
    intro n hn
    rw [snsMeanRemoval_real (snsDownsample_length _) hn, hG n hn, mean16_congr hG]
    rfl
  rw [hd] at e1
  cases e1
  intro n hn
  cases attack with
  | false =>
    rw [if_neg (by simp)]
    exact hP n hn
  | true =>
    rw [if_pos rfl, snsAttack_real (by simp [snsMeanRemoval, snsDownsample]) d hn, neighbours_congr hP, mean16_congr fun n _ => neighbours_congr hP n]
    cases d <;> rfl

/-- non-vacuity: a spectrum whose only band with energy is the first; the target is not zero -/
example : ∃ scf, snsTarget (Lc3Config.new .hz48000 .tenMs) ((1000000 : ℝ) :: List.replicate 63 0) false = .ok scf ∧ scf.length = 16 :=
  let ⟨scf, h, l, _⟩ := C81 .hz48000 .tenMs (by decide) (eb := (1000000 : ℝ) :: List.replicate 63 0) (by simp) false
  ⟨scf, h, l⟩

/-- **C81 (60 bands).** At 8 kHz with frames of 7.5 ms the padding panics for all energies, whatever the arithmetic. -/
theorem C81_sixty {α : Type} [Scalar α] (eb : List α) (attack : Bool) :
    snsTarget (Lc3Config.new .hz8000 .sevenPointFiveMs) eb attack = .panic := by
  unfold snsTarget
  rw [show (Lc3Config.new .hz8000 .sevenPointFiveMs).fsInd = 0 from by decide, show idx G_TILT 0 = .ok 14 from rfl, Res.bind_ok,
    show (Lc3Config.new .hz8000 .sevenPointFiveMs).nb = 60 from by decide]
  unfold snsPad
  rw [show usub 64 60 = .ok 4 from rfl, Res.bind_ok, if_pos (by norm_num), if_pos (by omega)]
  rfl

/-! ## Consequences -/

theorem sum_centred (y : ℕ → ℝ) (c : ℝ) : ∑ n ∈ Finset.range 16, c * (y n - mean16 y) = 0 := by
  rw [← Finset.mul_sum, Finset.sum_sub_distrib, Finset.sum_const, Finset.card_range]
  unfold mean16
  simp only [nsmul_eq_mul]
  push_cast
  ring

/-- values in an interval stay within 15/16 of its width around their mean -/
theorem centred_bound {y : ℕ → ℝ} {a w : ℝ} (h : ∀ n < 16, a ≤ y n ∧ y n ≤ a + w) {n : ℕ} (hn : n < 16) :
    |y n - mean16 y| ≤ 15 / 16 * w := by
  have hs : ∑ m ∈ Finset.range 16, y m = y n + ∑ m ∈ (Finset.range 16).erase n, y m :=
    (Finset.add_sum_erase _ _ (Finset.mem_range.2 hn)).symm
  have hc : ((Finset.range 16).erase n).card = 15 := by rw [Finset.card_erase_of_mem (Finset.mem_range.2 hn)]; simp
  have lo : 15 * a ≤ ∑ m ∈ (Finset.range 16).erase n, y m := by
    have := Finset.card_nsmul_le_sum ((Finset.range 16).erase n) y a fun m hm =>
      (h m (Finset.mem_range.1 (Finset.mem_of_mem_erase hm))).1
    rw [hc, nsmul_eq_mul] at this
    exact_mod_cast this
  have hi : ∑ m ∈ (Finset.range 16).erase n, y m ≤ 15 * (a + w) := by
    have := Finset.sum_le_card_nsmul ((Finset.range 16).erase n) y (a + w) fun m hm =>
      (h m (Finset.mem_range.1 (Finset.mem_of_mem_erase hm))).2
    rw [hc, nsmul_eq_mul] at this
    exact_mod_cast this
  have := h n hn
  unfold mean16
  rw [hs, abs_le]
  constructor <;> linarith

theorem held_bound {x : ℕ → ℝ} {a b : ℝ} (h : ∀ n < 64, a ≤ x n ∧ x n ≤ b) (i : ℤ) : a ≤ held 64 x i ∧ held 64 x i ≤ b := by
  unfold held
  exact h _ (by omega)

theorem grouped_bound {x : ℕ → ℝ} {a b : ℝ} (h : ∀ n < 64, a ≤ x n ∧ x n ≤ b) (n : ℕ) : a ≤ grouped x n ∧ grouped x n ≤ b := by
  rw [grouped_eq]
  have := held_bound h
  have h0 := this (4 * n - 1); have h1 := this (4 * n); have h2 := this (4 * n + 1); have h3 := this (4 * n + 2)
  have h4 := this (4 * n + 3); have h5 := this (4 * n + 4)
  constructor <;> linarith [h0.1, h0.2, h1.1, h1.2, h2.1, h2.2, h3.1, h3.2, h4.1, h4.2, h5.1, h5.2]

theorem neighbours_bound {y : ℕ → ℝ} {a b : ℝ} (h : ∀ n < 16, a ≤ y n ∧ y n ≤ b) {n : ℕ} (hn : n < 16) :
    a ≤ neighbours y n ∧ neighbours y n ≤ b := by
  unfold neighbours
  set S := (Finset.range 16).filter (fun m => m ≤ n + 2 ∧ n ≤ m + 2) with hS
  have hmem : n ∈ S := by rw [hS, Finset.mem_filter, Finset.mem_range]; omega
  have hpos : (0 : ℝ) < S.card := by exact_mod_cast Finset.card_pos.2 ⟨n, hmem⟩
  have lo := Finset.card_nsmul_le_sum S y a fun m hm => (h m (Finset.mem_range.1 (Finset.mem_filter.1 hm).1)).1
  have hi := Finset.sum_le_card_nsmul S y b fun m hm => (h m (Finset.mem_range.1 (Finset.mem_filter.1 hm).1)).2
  rw [nsmul_eq_mul] at lo hi
  rw [le_div_iff₀ hpos, div_le_iff₀ hpos]
  constructor <;> linarith

theorem smoothed_nonneg {E : ℕ → ℝ} (h : ∀ b < 64, 0 ≤ E b) (b : ℕ) : 0 ≤ smoothed E b := by
  have : ∀ i, 0 ≤ held 64 E i := fun i => by unfold held; exact h _ (by omega)
  unfold smoothed
  have h1 := this (b - 1); have h2 := this b; have h3 := this (b + 1)
  positivity

theorem tilted_nonneg {E : ℕ → ℝ} (h : ∀ b < 64, 0 ≤ E b) (fs b : ℕ) : 0 ≤ tilted fs E b := by
  unfold tilted
  have := smoothed_nonneg h b
  positivity

theorem energyFloor_pos (fs : ℕ) (E : ℕ → ℝ) : 0 < energyFloor fs E := lt_of_lt_of_le (by norm_num) (le_max_left _ _)

/-- the loudest band is at most 640000 times as strong as the floor -/
theorem tilted_le_floor {E : ℕ → ℝ} (h : ∀ b < 64, 0 ≤ E b) (fs : ℕ) {b : ℕ} (hb : b < 64) : tilted fs E b ≤ 640000 * energyFloor fs E := by
  have h1 : tilted fs E b ≤ ∑ b ∈ Finset.range 64, tilted fs E b :=
    Finset.single_le_sum (fun i _ => tilted_nonneg h fs i) (Finset.mem_range.2 hb)
  have h2 : (∑ b ∈ Finset.range 64, tilted fs E b) / 64 / 10000 ≤ energyFloor fs E := le_max_right _ _
  linarith

theorem logb_640000 : Real.logb 2 640000 < 193 / 10 := by
  rw [Real.logb_lt_iff_lt_rpow (by norm_num) (by norm_num)]
  have : (640000 : ℝ) ^ (10 : ℕ) < ((2 : ℝ) ^ (193 / 10 : ℝ)) ^ (10 : ℕ) := by
    rw [← Real.rpow_natCast ((2 : ℝ) ^ (193 / 10 : ℝ)) 10, ← Real.rpow_mul (by norm_num),
      show (193 / 10 : ℝ) * ((10 : ℕ) : ℝ) = ((193 : ℕ) : ℝ) by norm_num, Real.rpow_natCast]
    norm_num
  exact lt_of_pow_lt_pow_left₀ 10 (by positivity) this

/-- the logarithms of the bands span less than 9.65 -/
theorem logEnergy_bound {E : ℕ → ℝ} (h : ∀ b < 64, 0 ≤ E b) (fs : ℕ) : ∃ a, ∀ b < 64, a ≤ logEnergy fs E b ∧ logEnergy fs E b ≤ a + 193 / 20 := by
  refine ⟨Real.logb 2 (1 / 2 ^ 23 + energyFloor fs E) / 2, fun b hb => ?_⟩
  have hf := energyFloor_pos fs E
  have hp : 0 < 1 / 2 ^ 23 + energyFloor fs E := by positivity
  unfold logEnergy
  constructor
  · have : Real.logb 2 (1 / 2 ^ 23 + energyFloor fs E) ≤ Real.logb 2 (1 / 2 ^ 23 + max (tilted fs E b) (energyFloor fs E)) :=
      (Real.logb_le_logb (by norm_num) hp (by positivity)).2 (by linarith [le_max_right (tilted fs E b) (energyFloor fs E)])
    linarith
  · have h1 : 1 / 2 ^ 23 + max (tilted fs E b) (energyFloor fs E) ≤ 640000 * (1 / 2 ^ 23 + energyFloor fs E) := by
      have := max_le (tilted_le_floor h fs hb) (show energyFloor fs E ≤ 640000 * energyFloor fs E by linarith)
      have : (0 : ℝ) < 1 / 2 ^ 23 := by positivity
      linarith
    have h2 := (Real.logb_le_logb (b := 2) (by norm_num) (by positivity) (by positivity)).2 h1
    rw [Real.logb_mul (by norm_num) hp.ne'] at h2
    have := logb_640000
    linarith

/-- **C82.** For energies that are not negative, with and without an attack: the 16 scale factors add up to zero (the shaping does not
change the level), and each of them is less than 7.7 in magnitude (46 dB), less than 3.85 or 2.31 in case of an attack. -/
theorem C82 (f : SamplingFrequency) (d : FrameDuration) (hnb : (Lc3Config.new f d).nb = 64) {eb : List ℝ} (he : eb.length = 64)
    (h0 : ∀ e ∈ eb, 0 ≤ e) (attack : Bool) {scf : List ℝ} (hs : snsTarget (Lc3Config.new f d) eb attack = .ok scf) :
    scf.length = 16 ∧ scf.sum = 0 ∧ ∀ y ∈ scf, |y| < if attack then (match d with | .tenMs => 385 / 100 | .sevenPointFiveMs => 231 / 100) else 77 / 10 := by
  obtain ⟨scf', e, l, hv⟩ := C81 f d hnb he attack
  rw [hs] at e; cases e
  have hE : ∀ b < 64, 0 ≤ (fun b => eb.getD b 0) b := by
    intro b hb
    show 0 ≤ eb.getD b 0
    rw [List.getD_eq_getElem _ _ (by omega)]
    exact h0 _ (List.getElem_mem _)
  set E : ℕ → ℝ := fun b => eb.getD b 0
  set fs := (Lc3Config.new f d).fsInd
  obtain ⟨a, ha⟩ := logEnergy_bound hE fs
  have hg : ∀ n < 16, a ≤ grouped (logEnergy fs E) n ∧ grouped (logEnergy fs E) n ≤ a + 193 / 20 := fun n _ => grouped_bound ha n
  have hsum : scf.sum = ∑ n ∈ Finset.range 16, scf.getD n 0 := by
    have := sum_getD scf id
    rw [List.map_id, l] at this
    exact this
  refine ⟨l, ?_, ?_⟩
  · rw [hsum, Finset.sum_congr rfl fun n hn => hv n (Finset.mem_range.1 hn)]
    cases attack
    · exact sum_centred _ _
    · exact sum_centred _ _
  · intro y hy
    obtain ⟨n, hn, rfl⟩ := List.mem_iff_getElem.1 hy
    have hn' : n < 16 := by omega
    rw [← List.getD_eq_getElem _ 0 hn, hv n hn']
    cases attack with
    | false =>
      simp only [Bool.false_eq_true, if_false]
      unfold plainTarget
      rw [abs_mul, abs_of_pos (by norm_num : (0 : ℝ) < 17 / 20)]
      have := centred_bound hg hn'
      linarith
    | true =>
      simp only [if_true]
      unfold attackTarget
      have hp : ∀ n < 16, 17 / 20 * (a - mean16 (grouped (logEnergy fs E))) ≤ plainTarget fs E n ∧
          plainTarget fs E n ≤ 17 / 20 * (a - mean16 (grouped (logEnergy fs E))) + 17 / 20 * (193 / 20) := by
        intro n hn
        have := hg n hn
        unfold plainTarget
        constructor <;> linarith
      have hc : 0 < attackFactor d := by cases d <;> norm_num [attackFactor]
      rw [abs_mul, abs_of_pos hc]
      have := centred_bound (fun n hn => neighbours_bound hp hn) hn'
      have h3 := mul_le_mul_of_nonneg_left this hc.le
      refine lt_of_le_of_lt h3 ?_
      cases d <;> norm_num [attackFactor]

/-- energies as the encoder computes them are not negative -/
example : (∀ e ∈ ((1000000 : ℝ) :: List.replicate 63 0), 0 ≤ e) ∧ (Lc3Config.new .hz48000 .tenMs).nb = 64 :=
  ⟨by intro e he; simp at he; rcases he with rfl | rfl <;> norm_num, by decide⟩

/-! ## The shaping does not depend on the loudness -/

theorem smoothed_scale (c : ℝ) (E : ℕ → ℝ) (b : ℕ) : smoothed (fun i => c * E i) b = c * smoothed E b := by
  unfold smoothed held; ring

theorem tilted_scale (c : ℝ) (fs : ℕ) (E : ℕ → ℝ) (b : ℕ) : tilted fs (fun i => c * E i) b = c * tilted fs E b := by
  unfold tilted; rw [smoothed_scale]; ring

/-- the mean energy after the tilt, lowered by 40 dB -/
noncomputable def quietLevel (fs : ℕ) (E : ℕ → ℝ) : ℝ := (∑ b ∈ Finset.range 64, tilted fs E b) / 64 / 10000

theorem energyFloor_of_le {fs : ℕ} {E : ℕ → ℝ} (h : 1 / 2 ^ 32 ≤ quietLevel fs E) : energyFloor fs E = quietLevel fs E := max_eq_right h

theorem quietLevel_scale (c : ℝ) (fs : ℕ) (E : ℕ → ℝ) : quietLevel fs (fun i => c * E i) = c * quietLevel fs E := by
  unfold quietLevel
  simp only [tilted_scale]
  rw [← Finset.mul_sum]; ring

theorem logEnergy_scale {c : ℝ} (hc : 1 ≤ c) {fs : ℕ} {E : ℕ → ℝ} (hm : 1 / 2 ^ 32 ≤ quietLevel fs E) (b : ℕ) :
    Real.logb 2 c / 2 - Real.logb 2 (1 + 1 / 2 ^ 23 / quietLevel fs E) / 2 ≤ logEnergy fs (fun i => c * E i) b - logEnergy fs E b ∧
    logEnergy fs (fun i => c * E i) b - logEnergy fs E b ≤
      Real.logb 2 c / 2 - Real.logb 2 (1 + 1 / 2 ^ 23 / quietLevel fs E) / 2 + Real.logb 2 (1 + 1 / 2 ^ 23 / quietLevel fs E) / 2 := by
  have hm0 : 0 < quietLevel fs E := lt_of_lt_of_le (by norm_num) hm
  have hm' : 1 / 2 ^ 32 ≤ quietLevel fs (fun i => c * E i) := by
    rw [quietLevel_scale]; nlinarith
  unfold logEnergy
  rw [energyFloor_of_le hm, energyFloor_of_le hm', quietLevel_scale, tilted_scale, ← mul_max_of_nonneg _ _ (by linarith : 0 ≤ c)]
  set m := quietLevel fs E
  have hX : m ≤ max (tilted fs E b) m := le_max_right _ _
  set X := max (tilted fs E b) m
  have hXp : 0 < X := by linarith
  have hcp : 0 < c := by linarith
  have e : (0 : ℝ) < 1 / 2 ^ 23 := by positivity
  have k1 : Real.logb 2 (1 / 2 ^ 23 + c * X) ≤ Real.logb 2 (c * (1 / 2 ^ 23 + X)) :=
    (Real.logb_le_logb (by norm_num) (by positivity) (by positivity)).2 (by nlinarith)
  have k2 : Real.logb 2 (c * (1 / 2 ^ 23 + X)) ≤ Real.logb 2 ((1 + 1 / 2 ^ 23 / m) * (1 / 2 ^ 23 + c * X)) := by
    refine (Real.logb_le_logb (by norm_num) (by positivity) (by positivity)).2 ?_
    have : c * (1 / 2 ^ 23) ≤ 1 / 2 ^ 23 / m * (c * X) := by
      rw [div_mul_eq_mul_div, le_div_iff₀ hm0]
      have := mul_le_mul_of_nonneg_left hX (show 0 ≤ c * (1 / 2 ^ 23) by positivity)
      linarith
    have : 0 ≤ 1 / 2 ^ 23 / m * (1 / 2 ^ 23) := by positivity
    linarith
  rw [Real.logb_mul hcp.ne' (by positivity)] at k1 k2
  rw [Real.logb_mul (by positivity) (by positivity)] at k2
  constructor <;> linarith

/-- **C82 (loudness).** If all energies are multiplied by the same factor ≥ 1 (the recording is played louder), the scale factors change by at
most `17/40 · log2(1 + 2⁻²³ / m)`, where `m` is the mean tilted energy lowered by 40 dB: nothing but the addition of `EPSILON`
before the logarithm depends on the loudness. -/
theorem C82_loudness (f : SamplingFrequency) (d : FrameDuration) (hnb : (Lc3Config.new f d).nb = 64) {eb : List ℝ} (he : eb.length = 64)
    {c : ℝ} (hc : 1 ≤ c) (hm : 1 / 2 ^ 32 ≤ quietLevel (Lc3Config.new f d).fsInd fun b => eb.getD b 0) {scf scf' : List ℝ}
    (hs : snsTarget (Lc3Config.new f d) eb false = .ok scf)
    (hs' : snsTarget (Lc3Config.new f d) (eb.map (c * ·)) false = .ok scf') {n : ℕ} (hn : n < 16) :
    |scf'.getD n 0 - scf.getD n 0| ≤
      17 / 40 * Real.logb 2 (1 + 1 / 2 ^ 23 / quietLevel (Lc3Config.new f d).fsInd fun b => eb.getD b 0) := by
  obtain ⟨_, e, -, hv⟩ := C81 f d hnb he false
  rw [hs] at e; cases e
  obtain ⟨_, e, -, hv'⟩ := C81 f d hnb (eb := eb.map (c * ·)) (by rw [List.length_map, he]) false
  rw [hs'] at e; cases e
  have hE : (fun b => (eb.map (c * ·)).getD b 0) = fun b => c * (fun b => eb.getD b 0) b := by
    funext b
    show (eb.map (c * ·)).getD b 0 = c * eb.getD b 0
    rw [List.getD_eq_getElem?_getD, List.getElem?_map, List.getD_eq_getElem?_getD]
    cases eb[b]? <;> simp
  rw [hv n hn, hv' n hn, hE]
  simp only [Bool.false_eq_true, if_false]
  set E : ℕ → ℝ := fun b => eb.getD b 0
  set fs := (Lc3Config.new f d).fsInd
  have hg : ∀ n < 16, _ ∧ _ := fun n (_ : n < 16) => grouped_bound (fun b (_ : b < 64) => logEnergy_scale hc hm b) n
  have hsub : ∀ n, grouped (fun b => logEnergy fs (fun i => c * E i) b - logEnergy fs E b) n =
      grouped (logEnergy fs fun i => c * E i) n - grouped (logEnergy fs E) n := by
    intro n
    simp only [grouped_eq, held]; ring
  have hmean : mean16 (fun n => grouped (fun b => logEnergy fs (fun i => c * E i) b - logEnergy fs E b) n) =
      mean16 (grouped (logEnergy fs fun i => c * E i)) - mean16 (grouped (logEnergy fs E)) := by
    unfold mean16
    simp only [hsub]
    rw [Finset.sum_sub_distrib]; ring
  have hb := centred_bound (y := fun n => grouped (fun b => logEnergy fs (fun i => c * E i) b - logEnergy fs E b) n) hg hn
  rw [hmean] at hb
  simp only [hsub] at hb
  have hlog : 0 ≤ Real.logb 2 (1 + 1 / 2 ^ 23 / quietLevel fs E) := by
    have hm0 : 0 < quietLevel fs E := lt_of_lt_of_le (by norm_num) hm
    exact Real.logb_nonneg (by norm_num) (by have : (0 : ℝ) ≤ 1 / 2 ^ 23 / quietLevel fs E := by positivity
                                             linarith)
  unfold plainTarget
  rw [← mul_sub, abs_mul, abs_of_pos (by norm_num : (0 : ℝ) < 17 / 20)]
  have : grouped (logEnergy fs fun i => c * E i) n - mean16 (grouped (logEnergy fs fun i => c * E i)) -
      (grouped (logEnergy fs E) n - mean16 (grouped (logEnergy fs E))) =
      grouped (logEnergy fs fun i => c * E i) n - grouped (logEnergy fs E) n -
      (mean16 (grouped (logEnergy fs fun i => c * E i)) - mean16 (grouped (logEnergy fs E))) := by ring
  rw [this]
  linarith

/-- non-vacuity: energies of 1 in all bands are loud enough -/
example : (1 : ℝ) / 2 ^ 32 ≤ quietLevel 0 fun b => (List.replicate 64 (1 : ℝ)).getD b 0 := by
  have h : ∀ b ∈ Finset.range 64, (1 : ℝ) ≤ tilted 0 (fun b => (List.replicate 64 (1 : ℝ)).getD b 0) b := by
    intro b hb
    have hg : ∀ i < 64, (fun b => (List.replicate 64 (1 : ℝ)).getD b 0) i = 1 := by
      intro i hi
      show (List.replicate 64 (1 : ℝ)).getD i 0 = 1
      rw [List.getD_eq_getElem _ _ (by simpa using hi), List.getElem_replicate]
    have hs : smoothed (fun b => (List.replicate 64 (1 : ℝ)).getD b 0) b = 1 := by
      unfold smoothed held
      rw [hg _ (by omega), hg _ (by omega), hg _ (by omega)]; norm_num
    unfold tilted
    rw [hs, one_mul]
    exact Real.one_le_rpow (by norm_num) (by positivity)
  have := Finset.card_nsmul_le_sum _ _ _ h
  rw [Finset.card_range, nsmul_eq_mul] at this
  unfold quietLevel
  norm_num at this ⊢
  linarith

/-! ## The energies of the bands -/

theorem sum_Ico_of_slice (out : List ℝ) (w : ℝ) {i j : ℕ} (hij : i ≤ j) (hj : j ≤ out.length) :
    ((out.take j).drop i).foldl (fun e o => e + o * o / w) 0 = (∑ k ∈ Finset.Ico i j, out.getD k 0 ^ 2) / w := by
  rw [foldl_sum_real (fun o => o * o / w), zero_add, sum_getD, List.length_drop, List.length_take, min_eq_left hj,
    Finset.sum_Ico_eq_sum_range, Finset.sum_div]
  refine Finset.sum_congr rfl fun s hs => ?_
  rw [slice_getD hj (by have := Finset.mem_range.1 hs; omega)]
  ring

theorem energyBands_real {tab : List Nat} {nb ne : Nat} (ht : BandTab tab nb ne) {out : List ℝ} (hl : ne ≤ out.length) :
    ∀ (n b : Nat) (eb : List ℝ), b + n ≤ nb → energyBands tab out b n = .ok eb →
      ∀ k < n, eb.getD k 0 = bandEnergy (fun k => out.getD k 0) (tab.getD (b + k) 0) (tab.getD (b + k + 1) 0)
  | 0, _, _, _, _ => fun _ hk => absurd hk (by omega)
  | n + 1, b, eb, hb, h => by
    have hlen := ht.len
    have h0 : b < tab.length := by omega
    have h1 : b + 1 < tab.length := by omega
    have hm := ht.mono b (by omega)
    rw [getD_of_lt h0, getD_of_lt h1] at hm
    have hle : tab[b + 1] ≤ ne := ht.le _ (List.getElem_mem _)
    rw [energyBands, idx_eq_ok h0, Res.bind_ok, idx_eq_ok h1, Res.bind_ok, usub, if_pos hm.le, Res.bind_ok,
      sliceR_ok hm.le (by omega), Res.bind_ok] at h
    obtain ⟨r, e, h⟩ := bind_ok_inv h
    cases h
    intro k hk
    cases k with
    | zero =>
      show _ = bandEnergy _ (tab.getD b 0) (tab.getD (b + 1) 0)
      rw [List.getD_cons_zero, getD_of_lt h0, getD_of_lt h1, show (zero : ℝ) = 0 from Rat.cast_zero,
        sum_Ico_of_slice _ _ hm.le (by omega)]
      unfold bandEnergy
      congr 1
    | succ k =>
      rw [List.getD_cons_succ, energyBands_real ht hl n (b + 1) r (by omega) e k (by omega)]
      rw [show b + 1 + k = b + (k + 1) by omega]

/-- number of the bands next to the highest frequency that are compared with the others -/
def nyquistBands : FrameDuration → ℕ
  | .tenMs => 2
  | .sevenPointFiveMs => 4

/-- **C83.** For every configuration, every state of the time buffer and all samples: the bands of the table split the lines `0 … ne - 1`
without gap or overlap, the encoder's energies are the mean squares of the lines of the bands, their sum weighted with the widths of the bands is the energy of
the lines, and the flag is set iff the sampling frequency is at most 32 kHz and the energy of the last 2 (10 ms) or 4 (7.5 ms)
bands is more than 30 times the energy of the others. -/
theorem C83 (f : SamplingFrequency) (d : FrameDuration) {freq x : List Int} {freq' : List Int} {lines eb : List ℝ} {nn : Bool}
    (hl : freq.length = 2 * (Lc3Config.new f d).nf) (hx : x.length = (Lc3Config.new f d).nf)
    (h : mdctEncRun (Lc3Config.new f d) freq x = .ok (freq', lines, eb, nn)) :
    ∃ tab, bandTable d (Lc3Config.new f d).fsInd = .ok tab ∧ tab.getD 0 0 = 0 ∧ tab.getD (Lc3Config.new f d).nb 0 = (Lc3Config.new f d).ne ∧
      (∀ b < (Lc3Config.new f d).nb, tab.getD b 0 < tab.getD (b + 1) 0) ∧ eb.length = (Lc3Config.new f d).nb ∧
      (∀ b < (Lc3Config.new f d).nb, eb.getD b 0 = bandEnergy (fun k => lines.getD k 0) (tab.getD b 0) (tab.getD (b + 1) 0)) ∧
      ∑ b ∈ Finset.range (Lc3Config.new f d).nb, ((tab.getD (b + 1) 0 - tab.getD b 0 : ℕ) : ℝ) * eb.getD b 0 =
        ∑ k ∈ Finset.range (Lc3Config.new f d).ne, lines.getD k 0 ^ 2 ∧
      (nn = true ↔ (Lc3Config.new f d).fs ≤ 32000 ∧ NearNyquist (fun b => eb.getD b 0) (Lc3Config.new f d).nb (nyquistBands d)) := by
  obtain ⟨tab, htab, ht⟩ := bandTable_ok f d
  have hd : (Lc3Config.new f d).nMs = d := by cases f <;> cases d <;> rfl
  have hnb : 4 ≤ (Lc3Config.new f d).nb := by cases f <;> cases d <;> decide
  have hne : (Lc3Config.new f d).ne ≤ (Lc3Config.new f d).nf := by cases f <;> cases d <;> decide
  obtain ⟨_, _, _, _, wn, hr, -, -, -, hll⟩ := mdctEncRun_ok hl hx
  rw [h] at hr; cases hr
  generalize Lc3Config.new f d = cfg at *
  refine ⟨tab, hd ▸ htab, ht.first, ht.last, ht.mono, ?_⟩
  unfold mdctEncRun at h
  rw [if_neg (by omega)] at h
  obtain ⟨fr, e1, h⟩ := bind_ok_inv h
  obtain ⟨w, e2, h⟩ := bind_ok_inv h
  obtain ⟨o, e3, h⟩ := bind_ok_inv h
  rw [htab, Res.bind_ok] at h
  obtain ⟨eb', e5, h⟩ := bind_ok_inv h
  obtain ⟨nn', e6, h⟩ := bind_ok_inv h
  cases h
  have hel : eb.length = cfg.nb := energyBands_length e5
  have hb : ∀ b < cfg.nb, eb.getD b 0 = bandEnergy (fun k => lines.getD k 0) (tab.getD b 0) (tab.getD (b + 1) 0) := by
    intro b hb
    have := energyBands_real ht (out := lines) (by omega) cfg.nb 0 eb (by omega) e5 b hb
    rwa [Nat.zero_add] at this
  refine ⟨hel, hb, ?_, ?_⟩
  · have hk : ∀ n ≤ cfg.nb, ∑ b ∈ Finset.range n, ((tab.getD (b + 1) 0 - tab.getD b 0 : ℕ) : ℝ) * eb.getD b 0 =
        ∑ k ∈ Finset.range (tab.getD n 0), lines.getD k 0 ^ 2 := by
      intro n
      induction n with
      | zero => intro _; rw [ht.first]; simp
      | succ n ih =>
        intro hn
        have hm := ht.mono n (by omega)
        have hw : ((tab.getD (n + 1) 0 - tab.getD n 0 : ℕ) : ℝ) ≠ 0 := by
          have : 0 < tab.getD (n + 1) 0 - tab.getD n 0 := by omega
          exact_mod_cast this.ne'
        rw [Finset.sum_range_succ, ih (by omega), hb n (by omega), ← Finset.sum_range_add_sum_Ico _ hm.le]
        unfold bandEnergy
        rw [mul_div_cancel₀ _ hw]
    rw [hk _ le_rfl, ht.last]
  · unfold isNearNyquist at e6
    split at e6
    next hf =>
      obtain ⟨nq, hu, e6⟩ := bind_ok_inv e6
      have hq : nq = cfg.nb - nyquistBands d := by
        rw [hd] at hu
        unfold usub at hu
        cases d <;> (simp only at hu; rw [if_pos (by omega)] at hu; cases hu; rfl)
      subst hq
      have hn4 : nyquistBands d ≤ 4 := by cases d <;> decide
      generalize nyquistBands d = q at *
      have e7 : nn = lt (ofRat 30 * (eb.take (cfg.nb - q)).foldl (· + ·) zero : ℝ) ((eb.drop (cfg.nb - q)).foldl (· + ·) zero) := by
        cases e6; rfl
      have s1 : (eb.take (cfg.nb - q)).foldl (· + ·) zero = ∑ b ∈ Finset.range (cfg.nb - q), eb.getD b 0 := by
        have := sumS_range (eb.take (cfg.nb - q))
        unfold sumS at this
        rw [this, List.length_take, min_eq_left (by omega)]
        refine Finset.sum_congr rfl fun b hb => ?_
        have := slice_getD (x := eb) (a := 0) (b := cfg.nb - q) (s := b) (by omega) (by have := Finset.mem_range.1 hb; omega)
        rwa [List.drop_zero, Nat.zero_add] at this
      have s2 : (eb.drop (cfg.nb - q)).foldl (· + ·) zero = ∑ b ∈ Finset.Ico (cfg.nb - q) cfg.nb, eb.getD b 0 := by
        have := sumS_range (eb.drop (cfg.nb - q))
        unfold sumS at this
        rw [this, List.length_drop, hel, Finset.sum_Ico_eq_sum_range]
        refine Finset.sum_congr rfl fun b _ => ?_
        rw [List.getD_eq_getElem?_getD, List.getElem?_drop, ← List.getD_eq_getElem?_getD]
      rw [e7, lt_real, s1, s2]
      unfold NearNyquist
      constructor
      · intro h; refine ⟨hf, ?_⟩
        convert h using 2
        show (30 : ℝ) = ((30 : ℚ) : ℝ)
        norm_num
      · intro h
        convert h.2 using 2
        show ((30 : ℚ) : ℝ) = (30 : ℝ)
        norm_num
    next hf =>
      cases e6
      constructor
      · intro h; cases h
      · intro h; exact absurd h.1 hf

/-- the hypotheses are met by every frame of samples -/
example : ∃ freq' lines eb nn, mdctEncRun (α := ℝ) (Lc3Config.new .hz16000 .tenMs) (List.replicate 320 0) (List.replicate 160 1000) =
    .ok (freq', lines, eb, nn) ∧ eb.length = 64 := by
  obtain ⟨fr, eb, nn, lines, wn, h, -⟩ := mdctEncRun_ok (f := .hz16000) (d := .tenMs) (freq := List.replicate 320 0)
    (x := List.replicate 160 1000) (by rw [List.length_replicate]; decide) (by rw [List.length_replicate]; decide)
  obtain ⟨_, -, -, -, -, hl, -⟩ := C83 .hz16000 .tenMs (by rw [List.length_replicate]; decide) (by rw [List.length_replicate]; decide) h
  exact ⟨fr, lines, eb, nn, h, hl⟩

end Lc3
