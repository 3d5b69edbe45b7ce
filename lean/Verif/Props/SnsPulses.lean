import Verif.Lemmas.SnsPulses
import Verif.Lemmas.F32Err
import Verif.Lemmas.F32Eval
import Verif.Model.ScalarReal
import Verif.Props.SnsIndex
/-! # C42: the candidates of the pulse search -/

namespace Lc3
open Spec Tables Scalar

section
variable {α : Type} [Scalar α]

theorem snsCands_of_search {t : List α} (ht : t.length = 16) (h0 : ∀ y ∈ snsProject 6 (t.map absS), 0 ≤ y)
    (hs : pulseSum (snsProject 6 (t.map absS)) ≤ 6) :
    ∃ c, snsCands t = .ok c ∧ c.y1.length = 10 ∧ ShapeVector 1 (candidateOf 1 c) ∧ ShapeVector 2 (candidateOf 2 c) ∧
      ShapeVector 3 (candidateOf 3 c) ∧
      (ShapeVector 0 (candidateOf 0 c) ↔ ∃ a ∈ t.drop 10, lt zero (absS a) = true) ∧
      ((∀ a ∈ t.drop 10, lt zero (absS a) = false) → unitPulses (c.y0.drop 10) = 0) := by
  obtain ⟨c, e, a1, a2, a3, a4, a5, a6, a7, a8, a9⟩ := snsSearch_ok (absX := t.map absS) (by simpa using ht) h0 hs
  unfold snsCands
  rw [e]
  simp only [Res.bind_ok]
  have hB : pulseSum ((snsSigns t c.y0).drop 10) = pulseSum (c.y0.drop 10) := by
    rw [snsSigns_drop, pulseSum_snsSigns _ _ (by rw [List.length_drop, List.length_drop]; omega)]
  have hA : pulseSum ((snsSigns t c.y0).take 10) = pulseSum (c.y0.take 10) := by
    rw [snsSigns_take, pulseSum_snsSigns _ _ (by rw [List.length_take, List.length_take]; omega)]
  have hmap : (t.map absS).drop 10 = (t.drop 10).map absS := by rw [List.map_drop]
  rw [hmap] at a8 a9
  have hneg : (∀ a ∈ t.drop 10, lt zero (absS a) = false) → pulseSum (c.y0.drop 10) = 0 := by
    intro h
    refine (a9 ?_).2
    intro a ha
    obtain ⟨b, hb, rfl⟩ := List.mem_map.1 ha
    exact h b hb
  refine ⟨_, rfl, by rw [snsSigns_length _ _ (by omega)]; exact a5, ?_, ?_, ?_, ⟨?_, ?_⟩, ?_⟩
  · have hl : (snsSigns t c.y1).length = 10 := by rw [snsSigns_length _ _ (by omega)]; exact a5
    refine ⟨by simp only [candidateOf]; rw [List.length_append, hl, List.length_replicate], ?_, ?_⟩
    · simp only [candidateOf]
      rw [List.take_left' hl, unitPulses_eq, pulseSum_snsSigns _ _ (by omega), a6]
    · simp only [candidateOf]
      rw [List.drop_left' hl]
      rfl
  · exact ⟨by simp only [candidateOf]; rw [snsSigns_length _ _ (by omega), a3],
      by simp only [candidateOf]; rw [unitPulses_eq, pulseSum_snsSigns _ _ (by omega), a4]⟩
  · exact ⟨by simp only [candidateOf]; rw [snsSigns_length _ _ (by omega), a1],
      by simp only [candidateOf]; rw [unitPulses_eq, pulseSum_snsSigns _ _ (by omega), a2]⟩
  · rintro ⟨-, -, h⟩
    simp only [candidateOf] at h
    rw [unitPulses_eq, hB] at h
    by_contra hc
    have := hneg fun a ha => by
      by_contra h2
      exact hc ⟨a, ha, by simpa using h2⟩
    omega
  · rintro ⟨a, ha, hl⟩
    obtain ⟨h1, h2⟩ := a8 ⟨absS a, List.mem_map_of_mem ha, hl⟩
    refine ⟨by simp only [candidateOf]; rw [snsSigns_length _ _ (by omega), a7], ?_, ?_⟩
    · simp only [candidateOf]; rw [unitPulses_eq, hA, h1]
    · simp only [candidateOf]; rw [unitPulses_eq, hB, h2]
  · intro h
    simp only
    rw [unitPulses_eq, hB, hneg h]

end

/-! ## Exact arithmetic -/

theorem realToI32_natCast {z : Int} (h : 0 ≤ z) : 0 ≤ realToI32 (z : ℝ) ∧ realToI32 (z : ℝ) ≤ z := by
  unfold realToI32
  have : (0 : ℝ) ≤ (z : ℝ) := by exact_mod_cast h
  rw [if_pos this, Int.floor_intCast]
  omega

theorem foldl_add_real (l : List ℝ) (s : ℝ) : l.foldl (· + ·) s = s + l.sum := by
  induction l generalizing s with
  | nil => simp
  | cons a l ih => rw [List.foldl_cons, ih, List.sum_cons]; ring

/-- the projection in exact arithmetic: no entry is negative, at most 5 pulses -/
theorem snsProject_real (l : List ℝ) (h : ∀ a ∈ l, 0 ≤ a) :
    (∀ y ∈ snsProject 6 l, 0 ≤ y) ∧ pulseSum (snsProject 6 l) ≤ 5 := by
  obtain ⟨pf, hpf⟩ : ∃ pf : ℝ, pf = (ofInt ((6 : Nat) : Int) - one) / l.foldl (· + ·) (zero : ℝ) := ⟨_, rfl⟩
  have hs : l.foldl (· + ·) (zero : ℝ) = l.sum := by
    rw [foldl_add_real]
    show ((0 : ℚ) : ℝ) + l.sum = l.sum
    simp
  have h5 : (ofInt ((6 : Nat) : Int) - one : ℝ) = 5 := by
    show (((6 : ℕ) : ℤ) : ℚ) - (((1 : ℚ) : ℝ)) = (5 : ℝ)
    push_cast; norm_num
  have hsum : 0 ≤ l.sum := List.sum_nonneg h
  have hpf0 : 0 ≤ pf := by rw [hpf, hs, h5]; positivity
  have hprod : l.sum * pf ≤ 5 := by
    rw [hpf, hs, h5]
    rcases eq_or_ne l.sum 0 with e | e
    · rw [e]; norm_num
    · rw [mul_div_cancel₀ _ e]
  have he : snsProject 6 l = l.map fun a => realToI32 ((⌊a * pf⌋ : ℤ) : ℝ) := by
    unfold snsProject
    simp only
    rw [← hpf]
    rfl
  rw [he]
  have key : ∀ a ∈ l, 0 ≤ realToI32 ((⌊a * pf⌋ : ℤ) : ℝ) ∧ (realToI32 ((⌊a * pf⌋ : ℤ) : ℝ) : ℝ) ≤ a * pf := by
    intro a ha
    have h0 : 0 ≤ ⌊a * pf⌋ := Int.floor_nonneg.2 (mul_nonneg (h a ha) hpf0)
    obtain ⟨h1, h2⟩ := realToI32_natCast h0
    refine ⟨h1, le_trans ?_ (Int.floor_le (a * pf))⟩
    exact_mod_cast h2
  refine ⟨?_, ?_⟩
  · intro y hy
    obtain ⟨a, ha, rfl⟩ := List.mem_map.1 hy
    exact (key a ha).1
  · have main : ∀ l' : List ℝ, (∀ a ∈ l', a ∈ l) →
        ((pulseSum (l'.map fun a => realToI32 ((⌊a * pf⌋ : ℤ) : ℝ)) : ℕ) : ℝ) ≤ l'.sum * pf := by
      intro l'
      induction l' with
      | nil => intro _; simp
      | cons a l' ih =>
        intro hm
        have h1 := key a (hm a (by simp))
        have h2 := ih fun b hb => hm b (List.mem_cons_of_mem _ hb)
        rw [List.map_cons, pulseSum_cons, List.sum_cons, Nat.cast_add, add_mul]
        have : ((realToI32 ((⌊a * pf⌋ : ℤ) : ℝ)).natAbs : ℝ) = (realToI32 ((⌊a * pf⌋ : ℤ) : ℝ) : ℝ) := by
          rw [Nat.cast_natAbs, abs_of_nonneg h1.1]
        rw [this]
        linarith [h1.2]
    have := (main l fun a ha => ha).trans hprod
    exact_mod_cast this

/-- C42 as it should hold: in exact arithmetic every target leads to candidates of the four shapes. -/
def C42_statement : Prop := ∀ t : List ℝ, t.length = 16 → ∃ c, snsCands t = .ok c ∧ ∀ j, j < 4 → ShapeVector j (candidateOf j c)

theorem absS_real_pos (a : ℝ) : lt (zero : ℝ) (absS a) = true ↔ a ≠ 0 := by
  show (open Classical in decide (((0 : ℚ) : ℝ) < |a|)) = true ↔ _
  rw [decide_eq_true_iff]
  push_cast
  exact abs_pos

/-- **C42** (partial) In exact arithmetic the pulse search returns for every target; the candidates of shapes 1, 2 and 3 always
have their 10 pulses in the first 10 entries, 8 pulses and 6 pulses. The candidate of shape 0 has its 10 + 1 pulses
if and only if some of the last six entries of the target is not zero; otherwise it has no pulse in the last six entries.
(Missing: shape 0 for the other targets, see `C42_fails`.) -/
theorem C42_partial {t : List ℝ} (ht : t.length = 16) :
    ∃ c, snsCands t = .ok c ∧ c.y1.length = 10 ∧ ShapeVector 1 (candidateOf 1 c) ∧ ShapeVector 2 (candidateOf 2 c) ∧
      ShapeVector 3 (candidateOf 3 c) ∧ (ShapeVector 0 (candidateOf 0 c) ↔ ∃ a ∈ t.drop 10, a ≠ 0) ∧
      ((∀ a ∈ t.drop 10, a = 0) → unitPulses (c.y0.drop 10) = 0) := by
  obtain ⟨h0, h5⟩ := snsProject_real (t.map absS) fun a ha => by
    obtain ⟨b, _, rfl⟩ := List.mem_map.1 ha
    exact abs_nonneg b
  obtain ⟨c, e, a1, a2, a3, a4, a5, a6⟩ := snsCands_of_search ht h0 (by omega)
  refine ⟨c, e, a1, a2, a3, a4, ?_, ?_⟩
  · rw [a5]
    simp only [absS_real_pos]
  · intro h
    refine a6 fun a ha => ?_
    rw [← Bool.not_eq_true, absS_real_pos]
    exact not_not.2 (h a ha)

/-- **C42 is false**: for a target whose last six entries are zero, the candidate of shape 0 has no pulse there. -/
theorem C42_fails : ¬ C42_statement := by
  intro h
  obtain ⟨c, e, hc⟩ := h (1 :: List.replicate 15 0) (by simp)
  obtain ⟨c', e', -, -, -, -, h0, -⟩ := C42_partial (t := 1 :: List.replicate 15 0) (by simp)
  rw [e] at e'
  simp only [Res.ok.injEq] at e'
  subst e'
  obtain ⟨a, ha, hne⟩ := h0.1 (hc 0 (by norm_num))
  apply hne
  simp only [List.drop_succ_cons, List.drop_replicate] at ha
  exact List.eq_of_mem_replicate ha

/-! ## Binary32 -/

namespace F32

theorem toI32_floor_rnd {x : ℚ} (h0 : 0 ≤ x) (h1 : x ≤ 1000) :
    0 ≤ toI32 (floorF (rnd x)) ∧ (toI32 (floorF (rnd x)) : ℚ) ≤ x * (1 + 1 / 2 ^ 24) + 1 / 2 ^ 150 := by
  have hu := rndQ_upper h0
  have hn := rndQ_nonneg h0
  have hb : rndQ x < 2 ^ 128 := by
    norm_num at hu ⊢
    linarith
  rcases rnd_cases h0 with e | ⟨e, -⟩
  · unfold rnd at e
    rw [if_neg (not_le.2 hb), if_neg (by have : (0 : ℚ) < 2 ^ 128 := by positivity
                                         linarith)] at e
    cases e
  · rw [e]
    simp only [floorF, toI32]
    have hf : 0 ≤ ⌊rndQ x⌋ := Int.floor_nonneg.2 hn
    have ht : truncQ ((⌊rndQ x⌋ : ℤ) : ℚ) = ⌊rndQ x⌋ := by
      unfold truncQ
      rw [if_pos (by exact_mod_cast hf), Int.floor_intCast]
    rw [ht]
    refine ⟨by omega, ?_⟩
    have : max (-2147483648) (min 2147483647 ⌊rndQ x⌋) ≤ ⌊rndQ x⌋ := by omega
    have h2 : ((max (-2147483648) (min 2147483647 ⌊rndQ x⌋) : ℤ) : ℚ) ≤ (⌊rndQ x⌋ : ℚ) := by exact_mod_cast this
    exact h2.trans ((Int.floor_le _).trans hu)

theorem pulseSum_fin {pf : ℚ} (hpf : 0 ≤ pf) : ∀ (qs : List ℚ), (∀ q ∈ qs, 0 ≤ q ∧ q * pf ≤ 1000) →
    (∀ y ∈ qs.map (fun q => toI32 (floorF (rnd (q * pf)))), 0 ≤ y) ∧
    (pulseSum (qs.map fun q => toI32 (floorF (rnd (q * pf)))) : ℚ) ≤ qs.sum * pf * (1 + 1 / 2 ^ 24) + qs.length * (1 / 2 ^ 150) := by
  intro qs
  induction qs with
  | nil => intro _; simp
  | cons q qs ih =>
    intro h
    obtain ⟨i1, i2⟩ := ih fun x hx => h x (List.mem_cons_of_mem _ hx)
    obtain ⟨hq0, hq1⟩ := h q (by simp)
    obtain ⟨k1, k2⟩ := toI32_floor_rnd (mul_nonneg hq0 hpf) hq1
    refine ⟨?_, ?_⟩
    · intro y hy
      rw [List.map_cons] at hy
      rcases List.mem_cons.1 hy with rfl | hy
      · exact k1
      · exact i1 y hy
    · rw [List.map_cons, pulseSum_cons, List.sum_cons, Nat.cast_add, List.length_cons, Nat.cast_add, Nat.cast_one]
      have : ((toI32 (floorF (rnd (q * pf)))).natAbs : ℚ) = (toI32 (floorF (rnd (q * pf))) : ℚ) := by
        rw [Nat.cast_natAbs, abs_of_nonneg k1]
      rw [this]
      nlinarith

theorem sumC_16 : sumC 16 ≤ 1 + 1 / 2 ^ 18 := by
  norm_num [sumC]

theorem sumD_16 : sumD 16 ≤ 1 / 2 ^ 144 := by
  norm_num [sumD]

theorem sumD_nonneg : 0 ≤ sumD 16 := by
  norm_num [sumD]

end F32
open F32

/-- a value that is not a positive number smaller than 2^-125 -/
def NotTiny (v : F32) : Prop := ∀ q, v = .fin q → q ≤ 0 ∨ 1 / 2 ^ 125 ≤ q

theorem snsProject_f32 (el : Elem) (l : List F32) (hl : l.length = 16) (h : ∀ v ∈ l, AbsVal v)
    (hs : NotTiny (l.foldl F32.add (.fin 0))) :
    (∀ y ∈ @snsProject F32 (F32.scalar el) 6 l, 0 ≤ y) ∧ pulseSum (@snsProject F32 (F32.scalar el) 6 l) ≤ 5 := by
  have hz : rnd 0 = .fin 0 := by unfold rnd; rw [rndQ_zero]; norm_num
  have h5 : F32.sub (rnd (((6 : ℕ) : ℤ) : ℚ)) (rnd 1) = .fin 5 := by
    have e6 : rnd (((6 : ℕ) : ℤ) : ℚ) = .fin 6 := by
      have := rnd_nat (n := 6) (by norm_num)
      exact_mod_cast this
    have e1 : rnd 1 = .fin 1 := by exact_mod_cast rnd_nat (n := 1) (by norm_num)
    have e5 : rnd 5 = .fin 5 := by exact_mod_cast rnd_nat (n := 5) (by norm_num)
    rw [e6, e1]
    show rnd (6 + -1) = .fin 5
    rw [show (6 + -1 : ℚ) = 5 by norm_num, e5]
  obtain ⟨s, hs'⟩ : ∃ s, s = l.foldl F32.add (.fin 0) := ⟨_, rfl⟩
  have he : @snsProject F32 (F32.scalar el) 6 l = l.map fun a => F32.toI32 (floorF (F32.mul a (F32.div (.fin 5) s))) := by
    show l.map (fun a => F32.toI32 (floorF (F32.mul a
      (F32.div (F32.sub (rnd (((6 : ℕ) : ℤ) : ℚ)) (rnd 1)) (l.foldl F32.add (rnd 0)))))) = _
    rw [h5, hz, ← hs']
  rw [he]
  rw [← hs'] at hs
  have allzero : (∀ a ∈ l, F32.toI32 (floorF (F32.mul a (F32.div (.fin 5) s))) = 0) →
      (∀ y ∈ l.map (fun a => F32.toI32 (floorF (F32.mul a (F32.div (.fin 5) s)))), 0 ≤ y) ∧
      pulseSum (l.map fun a => F32.toI32 (floorF (F32.mul a (F32.div (.fin 5) s)))) ≤ 5 := by
    intro hall
    have e : (l.map fun a => F32.toI32 (floorF (F32.mul a (F32.div (.fin 5) s)))) = List.replicate 16 0 := by
      rw [List.eq_replicate_iff]
      refine ⟨by simpa using hl, ?_⟩
      intro b hb
      obtain ⟨a, ha, rfl⟩ := List.mem_map.1 hb
      exact hall a ha
    rw [e]
    refine ⟨?_, by simp⟩
    intro y hy
    rw [List.eq_of_mem_replicate hy]
  rcases foldl_add_abs l 0 (.inl rfl) h with e | e | ⟨s', qs, e1, e2, e3, e4, e5, e6, e7⟩
  · rw [← hs'] at e
    apply allzero
    intro a ha
    rw [e]
    rcases h a ha with rfl | rfl | ⟨q, rfl, -⟩ <;> rfl
  · rw [← hs'] at e
    apply allzero
    intro a ha
    rw [e]
    have : F32.div (.fin 5) (.inf false) = .fin 0 := rfl
    rw [this]
    rcases h a ha with rfl | rfl | ⟨q, rfl, -⟩
    · rfl
    · rfl
    · show F32.toI32 (floorF (rnd (q * 0))) = 0
      rw [mul_zero, hz]; rfl
  · rw [← hs'] at e1
    rcases e6 with e6 | e6
    · apply allzero
      intro a ha
      rw [e2] at ha
      obtain ⟨q, hq, rfl⟩ := List.mem_map.1 ha
      rw [e1, e6, (e7 e6).2 q hq]
      have : F32.div (.fin 5) (.fin 0) = .inf false := by
        show (if (0 : ℚ) = 0 then (if (5 : ℚ) = 0 then F32.nan else F32.inf (decide ((5 : ℚ) < 0))) else rnd (5 / 0)) = _
        norm_num
      rw [this]
      have : F32.mul (.fin 0) (.inf false) = .nan := by
        show (if isZero (.fin 0) || isZero (.inf false) then F32.nan else .inf (isNeg (.fin 0) != isNeg (.inf false))) = _
        simp [isZero]
      rw [this]; rfl
    · have hspos : 0 < s' := lt_of_lt_of_le (by positivity) e6
      have hs2 : 1 / 2 ^ 125 ≤ s' := by
        rcases hs s' e1 with h | h
        · linarith
        · exact h
      have hx0 : 0 ≤ 5 / s' := by positivity
      have hx1 : 5 / s' ≤ 5 * 2 ^ 125 := by
        rw [div_le_iff₀ hspos]
        have := mul_le_mul_of_nonneg_left hs2 (show (0 : ℚ) ≤ 5 * 2 ^ 125 by positivity)
        have e : (5 * 2 ^ 125 * (1 / 2 ^ 125) : ℚ) = 5 := by norm_num
        linarith
      have hr : rndQ (5 / s') ≤ 5 * 2 ^ 125 := by
        have := rndQ_mono hx1
        rwa [rndQ_rep (q := 5 * 2 ^ 125) ⟨5, 125, by rw [show (125 : ℤ) = ((125 : ℕ) : ℤ) from rfl, zpow_natCast]; norm_num, by norm_num, by norm_num⟩] at this
      have hd : F32.div (.fin 5) s = .fin (rndQ (5 / s')) := by
        rw [e1]
        show (if s' = 0 then _ else rnd (5 / s')) = _
        rw [if_neg hspos.ne']
        rcases rnd_cases hx0 with e | ⟨e, -⟩
        · unfold rnd at e
          have hlt : rndQ (5 / s') < 2 ^ 128 := by
            norm_num at hr ⊢
            linarith
          have := rndQ_nonneg hx0
          rw [if_neg (not_le.2 hlt), if_neg (by have : (0 : ℚ) < 2 ^ 128 := by positivity
                                                linarith)] at e
          cases e
        · exact e
      obtain ⟨pf, hpf⟩ : ∃ pf, pf = rndQ (5 / s') := ⟨_, rfl⟩
      rw [← hpf] at hd hr
      have hpf0 : 0 ≤ pf := by rw [hpf]; exact rndQ_nonneg hx0
      have hpu : pf * s' ≤ 5 * (1 + 1 / 2 ^ 24) + s' * (1 / 2 ^ 150) := by
        have := mul_le_mul_of_nonneg_right (rndQ_upper hx0) hspos.le
        rw [← hpf, add_mul, mul_assoc, mul_comm (1 + 1 / 2 ^ 24 : ℚ) s', ← mul_assoc, div_mul_cancel₀ _ hspos.ne'] at this
        linarith
      have hslt := e5 (by norm_num)
      have hsum0 : 0 ≤ qs.sum := List.sum_nonneg fun x hx => by
        rcases e3 x hx with h | h
        · exact h.ge
        · exact le_trans (by positivity) h
      rw [hl, zero_add] at e4
      have hsum1 : qs.sum ≤ (1 + 1 / 2 ^ 18) * s' + 1 / 2 ^ 144 := by
        have := mul_le_mul_of_nonneg_right sumC_16 hspos.le
        have := sumD_16
        linarith
      have htot : qs.sum * pf ≤ 5 + 1 / 2 ^ 10 := by
        have h1 := mul_le_mul_of_nonneg_right hsum1 hpf0
        have h2 : s' * (1 / 2 ^ 150) ≤ 1 / 2 ^ 22 := by
          norm_num at hslt ⊢
          linarith
        have h3 : 1 / 2 ^ 144 * pf ≤ 1 / 2 ^ 16 := by
          norm_num at hr ⊢
          linarith
        have h4 : ((1 + 1 / 2 ^ 18) * s' + 1 / 2 ^ 144) * pf = (1 + 1 / 2 ^ 18) * (pf * s') + 1 / 2 ^ 144 * pf := by ring
        rw [h4] at h1
        norm_num at h1 h2 h3 hpu ⊢
        linarith
      have hql : qs.length = 16 := by rw [← hl, e2, List.length_map]
      have hmap : (l.map fun a => F32.toI32 (floorF (F32.mul a (F32.div (.fin 5) s)))) =
          qs.map fun q => F32.toI32 (floorF (rnd (q * pf))) := by
        rw [hd, e2, List.map_map]
        rfl
      rw [hmap]
      have hnn : ∀ q ∈ qs, 0 ≤ q := by
        intro x hx
        rcases e3 x hx with h | h
        · exact h.ge
        · exact le_trans (by positivity) h
      obtain ⟨r1, r2⟩ := pulseSum_fin hpf0 qs fun q hq => by
        refine ⟨hnn q hq, ?_⟩
        have := mul_le_mul_of_nonneg_right (List.single_le_sum hnn q hq) hpf0
        exact this.trans (htot.trans (by norm_num))
      refine ⟨r1, ?_⟩
      rw [hql] at r2
      have : (pulseSum (qs.map fun q => F32.toI32 (floorF (rnd (q * pf)))) : ℚ) < 6 := by
        refine lt_of_le_of_lt r2 ?_
        norm_num at htot ⊢
        linarith
      have h6 : pulseSum (qs.map fun q => F32.toI32 (floorF (rnd (q * pf)))) < 6 := by exact_mod_cast this
      omega

/-- an `f32`: a NaN, an infinity or a representable number -/
def IsF32 (v : F32) : Prop := ∀ q, v = .fin q → Rep q

theorem absVal_of_rep {v : F32} (h : IsF32 v) : AbsVal (absF v) := by
  cases v with
  | nan => left; rfl
  | inf s => right; left; rfl
  | fin q =>
    right; right
    refine ⟨|q|, rfl, ?_⟩
    obtain ⟨m, e, hq, -, he⟩ := h q rfl
    rcases eq_or_ne m 0 with rfl | hm
    · left; rw [hq]; simp
    · right
      rw [hq, abs_mul, abs_of_pos (zpow_pos (by norm_num : (0 : ℚ) < 2) e)]
      have h1 : (1 : ℚ) ≤ |(m : ℚ)| := by
        have : 1 ≤ |m| := Int.one_le_abs hm
        exact_mod_cast this
      have h2 : (2 : ℚ) ^ (-149 : ℤ) ≤ 2 ^ e := zpow_le_zpow_right₀ (by norm_num) he
      have h3 : (1 / 2 ^ 149 : ℚ) = 2 ^ (-149 : ℤ) := by norm_num
      rw [h3]
      have h4 : (0 : ℚ) < 2 ^ e := zpow_pos (by norm_num) e
      nlinarith

/-- **C42** (partial, in binary32) The same with the rounding of `f32`, infinities and NaN included, if the sum of the magnitudes
that the code computes is not a positive number below 2^-125: the search returns, the candidates of shapes 1, 2 and 3
always have their pulses, that of shape 0 has them iff some of the last six entries of the target compares greater than zero in
magnitude. (Missing: shape 0 for the other targets; targets whose sum is that small.) -/
theorem C42_f32_partial (el : Elem) {t : List F32} (ht : t.length = 16) (hr : ∀ v ∈ t, IsF32 v)
    (hs : NotTiny ((t.map absF).foldl F32.add (.fin 0))) :
    ∃ c, @snsCands F32 (F32.scalar el) t = .ok c ∧ c.y1.length = 10 ∧ ShapeVector 1 (candidateOf 1 c) ∧
      ShapeVector 2 (candidateOf 2 c) ∧ ShapeVector 3 (candidateOf 3 c) ∧
      (ShapeVector 0 (candidateOf 0 c) ↔ ∃ a ∈ t.drop 10, F32.lt (.fin 0) (absF a) = true) := by
  obtain ⟨h0, h5⟩ := snsProject_f32 el (t.map absF) (by simpa using ht) (fun v hv => by
    obtain ⟨w, hw, rfl⟩ := List.mem_map.1 hv
    exact absVal_of_rep (hr w hw)) hs
  obtain ⟨c, e, a1, a2, a3, a4, a5, -⟩ := @snsCands_of_search F32 (F32.scalar el) t ht h0 (le_trans h5 (by norm_num))
  refine ⟨c, e, a1, a2, a3, a4, a5.trans ?_⟩
  have hz : rnd 0 = .fin 0 := by unfold rnd; rw [rndQ_zero]; norm_num
  show (∃ a ∈ t.drop 10, F32.lt (rnd 0) (absF a) = true) ↔ _
  rw [hz]

/-- elementary functions with a square root -/
def sqrtElem : Elem := ⟨F32.sqrtK, id, fun _ => .nan, fun _ => .nan, .nan, id, id, id, id, id, id, fun x _ => x⟩

/-- a target in the first stage's residual domain; every entry is an `f32` -/
def panicTarget : List ℚ :=
  let a := 12967301 / 16777216
  let b := 1900389 / 4194304
  let c := -7933041 / 67108864
  let d := -10172493 / 16777216
  [a, b, c, d, d, c, b, a, a, b, c, d, d, c, b, a]

set_option maxRecDepth 100000 in
/-- The consequence for the code: in `f32` there is a first stage residual (16 numbers of magnitude below 0.8) for which the rotated
target ends in six zeros and shape 0 is selected; the enumeration of the empty second part then overflows `usize`
(a panic in builds with overflow checks). -/
theorem C42_stage2_panics :
    (∀ q ∈ panicTarget, Rep q) ∧
    (∀ x ∈ (@snsRotate F32 (F32.scalar sqrtElem) (panicTarget.map .fin)).drop 10, x = .fin 0) ∧
    @snsStage2 F32 (F32.scalar sqrtElem) (panicTarget.map .fin) (List.replicate 16 (.fin 0)) = .panic := by
  refine ⟨?_, ?_, ?_⟩
  · intro q hq
    have : q = 12967301 / 16777216 ∨ q = 1900389 / 4194304 ∨ q = -7933041 / 67108864 ∨ q = -10172493 / 16777216 := by
      simp only [panicTarget, List.mem_cons, List.not_mem_nil, or_false] at hq
      tauto
    rcases this with rfl | rfl | rfl | rfl
    · exact ⟨12967301, -24, by norm_num, by norm_num, by norm_num⟩
    · exact ⟨1900389, -22, by norm_num, by norm_num, by norm_num⟩
    · exact ⟨-7933041, -26, by norm_num, by norm_num, by norm_num⟩
    · exact ⟨-10172493, -24, by norm_num, by norm_num, by norm_num⟩
  · rw [evalScalar_eq]
    decide +kernel
  · rw [evalScalar_eq]
    have h : (match @snsStage2 F32 (evalScalar sqrtElem) (panicTarget.map .fin) (List.replicate 16 (.fin 0)) with
        | .panic => true | _ => false) = true := by decide +kernel
    revert h
    generalize @snsStage2 F32 (evalScalar sqrtElem) (panicTarget.map .fin) (List.replicate 16 (.fin 0)) = r
    cases r <;> simp

set_option maxRecDepth 100000 in
/-- a target with an entry of set B that is not zero -/
example : (∃ c, @snsCands F32 (F32.scalar sqrtElem) ((3 :: 1 :: -2 :: List.replicate 10 (1 / 2) ++ [-5 / 4, 1 / 4, 0] : List ℚ).map .fin) = .ok c ∧
    c = ⟨[4, 1, -3, 1, 1, 0, 0, 0, 0, 0, 0, 0, 0, -1, 0, 0], [4, 1, -3, 1, 1, 0, 0, 0, 0, 0],
      [3, 1, -2, 1, 0, 0, 0, 0, 0, 0, 0, 0, 0, -1, 0, 0], [2, 1, -2, 0, 0, 0, 0, 0, 0, 0, 0, 0, 0, -1, 0, 0]⟩) := by
  rw [evalScalar_eq]
  refine ⟨_, ?_, rfl⟩
  decide +kernel

end Lc3
