import Verif.Lemmas.FinImdct
import Verif.Props.FilterStable
/-! Sizes in the decoder in binary32: the long term post filter. -/

namespace Lc3
open Scalar Tables Spec

section
variable {α : Type} [Scalar α]

/-- one filtered sample replaces one entry -/
theorem ltpfSample_gen {ring : Nat} {cn cd x y y' : List α} {blk pitch : Nat} {scale : Nat → α → α} {n : Nat}
    (e : ltpfSample ring cn cd x blk pitch scale n y = .ok y') :
    ∃ v f, x[blk + n]? = some v ∧ blk + n < y.length ∧
      computeFilter ring cn cd x (y.set (blk + n) v) (blk + n) pitch = .ok f ∧ y' = y.set (blk + n) (v - scale n f) := by
  unfold ltpfSample at e
  obtain ⟨v, hv, e⟩ := bind_ok_inv e
  obtain ⟨y1, h1, e⟩ := bind_ok_inv e
  obtain ⟨f, hf, e⟩ := bind_ok_inv e
  obtain ⟨w, hw, e⟩ := bind_ok_inv e
  unfold setIdx at h1 e
  split at h1
  · rename_i hlt
    simp only [Res.ok.injEq] at h1
    subst h1
    split at e
    · simp only [Res.ok.injEq] at e
      have hw' := idx_ok_iff.1 hw
      rw [List.getElem?_set_self hlt] at hw'
      cases hw'
      exact ⟨v, f, idx_ok_iff.1 hv, hlt, hf, by rw [← e, List.set_set]⟩
    · cases e
  · cases h1

theorem ltpfSampleFromMem_gen {ring norm : Nat} {cn cd scr y y' : List α} {blk pitch lNum n : Nat}
    (e : ltpfSampleFromMem ring norm cn cd scr blk pitch lNum n y = .ok y') :
    ∃ v a f, scr[n + lNum]? = some v ∧ blk + n < y.length ∧ firAdd scr 0 cn ((lNum + n : Nat) : Int) zero = .ok a ∧
      firSub (y.set (blk + n) v) ring cd (((blk + n : Nat) : Int) - pitch + ((cd.length : Int) - 1) / 2) a = .ok f ∧
      y' = y.set (blk + n) (v - fadeIn norm n f) := by
  unfold ltpfSampleFromMem at e
  obtain ⟨v, hv, e⟩ := bind_ok_inv e
  obtain ⟨y1, h1, e⟩ := bind_ok_inv e
  obtain ⟨a, ha, e⟩ := bind_ok_inv e
  obtain ⟨f, hf, e⟩ := bind_ok_inv e
  obtain ⟨w, hw, e⟩ := bind_ok_inv e
  unfold setIdx at h1 e
  split at h1
  · rename_i hlt
    simp only [Res.ok.injEq] at h1
    subst h1
    split at e
    · simp only [Res.ok.injEq] at e
      have hw' := idx_ok_iff.1 hw
      rw [List.getElem?_set_self hlt] at hw'
      cases hw'
      exact ⟨v, a, f, idx_ok_iff.1 hv, hlt, ha, hf, by rw [← e, List.set_set]⟩
    · cases e
  · cases h1

theorem ltpfScratch_gen {ring norm lNum blk : Nat} {y scr : List α} (e : ltpfScratch ring norm lNum blk y = .ok scr) {k : Nat} {v : α}
    (h : scr[k]? = some v) : y[scratchPos ring lNum blk k]? = some v := by
  unfold ltpfScratch at e
  unfold scratchPos
  split at e
  · rename_i hb
    rw [if_pos hb]
    obtain ⟨st, h1, e⟩ := bind_ok_inv e
    have hst := usub_ok_inv h1
    split at e
    · cases e
    rename_i hl
    rw [not_or] at hl
    simp only [Res.ok.injEq] at e
    subst e
    have hlen : ((y.drop st).take lNum).length = lNum := by simp; omega
    by_cases hk : k < lNum
    · rw [if_pos hk]
      rw [List.getElem?_append_left (by omega), List.getElem?_take_of_lt hk, List.getElem?_drop] at h
      rw [← hst]; exact h
    · rw [if_neg hk]
      rw [List.getElem?_append_right (by omega), hlen, List.getElem?_take] at h
      split at h
      · exact h
      · cases h
  · rename_i hb
    rw [if_neg hb]
    split at e
    · cases e
    simp only [Res.ok.injEq] at e
    subst e
    rw [List.getElem?_drop, List.getElem?_take] at h
    split at h
    · exact h
    · cases h

theorem ltpfScratch_len {ring norm lNum blk : Nat} {y scr : List α} (e : ltpfScratch ring norm lNum blk y = .ok scr) {i : Nat} {v : α}
    (h : scr[lNum + i]? = some v) : i < norm := by
  have hl : lNum + i < scr.length := (List.getElem?_eq_some_iff.1 h).1
  unfold ltpfScratch at e
  split at e
  · obtain ⟨st, -, e⟩ := bind_ok_inv e
    split at e
    · cases e
    simp only [Res.ok.injEq] at e
    subst e
    simp only [List.length_append, List.length_take, List.length_drop] at hl
    omega
  · split at e
    · cases e
    simp only [Res.ok.injEq] at e
    subst e
    simp only [List.length_drop, List.length_take] at hl
    omega

/-- rule for a loop -/
theorem forRange_one {σ : Type} {f : Nat → σ → Res σ} (P : Nat → σ → Prop) : ∀ (count a : Nat) (s s' : σ), P a s →
    (∀ n s s', a ≤ n → n < a + count → P n s → f n s = .ok s' → P (n + 1) s') → forRange f a count s = .ok s' → P (a + count) s'
  | 0, a, s, s', h, _, h1 => by
    simp only [forRange, Res.ok.injEq] at h1
    subst h1
    exact h
  | n + 1, a, s, s', h, hs, h1 => by
    rw [forRange] at h1
    obtain ⟨s1, k1, h1⟩ := bind_ok_inv h1
    have := forRange_one P n (a + 1) s1 s' (hs a s s1 (by omega) (by omega) h k1)
      (fun m s s' q1 q2 => hs m s s' (by omega) (by omega)) h1
    rwa [show a + 1 + n = a + (n + 1) by omega] at this

end

namespace F32

variable {el : Elem}

/-! ### Coefficients -/

/-- sum of the magnitudes -/
noncomputable def cSum (l : List F32) : ℝ := (l.map fun c => |val c|).sum

theorem cSum_nonneg (l : List F32) : 0 ≤ cSum l := by
  unfold cSum
  apply List.sum_nonneg
  intro x hx
  obtain ⟨c, -, rfl⟩ := List.mem_map.1 hx
  exact abs_nonneg _

theorem cSum_cons (c : F32) (l : List F32) : cSum (c :: l) = |val c| + cSum l := by simp [cSum]

theorem cSum_replicate (n : ℕ) : cSum (List.replicate n (fin 0)) = 0 := by
  unfold cSum
  rw [List.map_replicate, List.sum_replicate, show |val (fin 0)| = 0 by show |((0 : ℚ) : ℝ)| = 0; norm_num]
  simp

/-- finite coefficients with small sums -/
structure CoefOk (cn cd : List F32) : Prop where
  nFin : ∀ c ∈ cn, IsFin c
  dFin : ∀ c ∈ cd, IsFin c
  nSum : cSum cn ≤ 361 / 1000
  dSum : cSum cd ≤ 403 / 1000
  nLen : cn.length ≤ 13
  dLen : cd.length ≤ 13

theorem coef_bd {a : F32} {k : ℝ} (ha : Bd k a) (hk : k ≤ 1) {c : ℚ} (hc : |(c : ℝ)| ≤ 2) :
    IsFin (F32.mul a (rnd c)) ∧ |val (F32.mul a (rnd c))| ≤ k * (1 + 1 / 2 ^ 20) * |(c : ℝ)| + 1 / 2 ^ 100 := by
  obtain ⟨f1, e1⟩ := rnd_val (hc.trans (by norm_num))
  obtain ⟨γ, hγ⟩ : ∃ γ : ℝ, γ = |(c : ℝ)| := ⟨_, rfl⟩
  have h0 := ha.nonneg
  have hγ0 : 0 ≤ γ := by rw [hγ]; exact abs_nonneg _
  rw [← hγ] at hc e1 ⊢
  have h1 : |val (rnd c)| ≤ γ * (1 + 1 / 2 ^ 24) + 1 / 2 ^ 150 := by
    have := abs_sub_abs_le_abs_sub (val (rnd c)) c
    rw [← hγ] at this
    linarith
  have h2 : |val a * val (rnd c)| ≤ k * (γ * (1 + 1 / 2 ^ 24) + 1 / 2 ^ 150) := by
    rw [abs_mul]
    exact mul_le_mul ha.2 h1 (abs_nonneg _) h0
  have hlim : k * (γ * (1 + 1 / 2 ^ 24) + 1 / 2 ^ 150) ≤ 1 * (2 * (1 + 1 / 2 ^ 24) + 1 / 2 ^ 150) := by gcongr
  obtain ⟨f2, e2⟩ := mul_val ha.1 f1 (h2.trans (hlim.trans (by norm_num)))
  refine ⟨f2, ?_⟩
  have h3 := abs_sub_abs_le_abs_sub (val (F32.mul a (rnd c))) (val a * val (rnd c))
  have h4 : |val (F32.mul a (rnd c))| ≤ k * (γ * (1 + 1 / 2 ^ 24) + 1 / 2 ^ 150) * (1 + 1 / 2 ^ 24) + 1 / 2 ^ 150 := by
    linarith
  refine h4.trans ?_
  have hkγ : 0 ≤ k * γ := by positivity
  have h5 : k * (γ * (1 + 1 / 2 ^ 24) + 1 / 2 ^ 150) * (1 + 1 / 2 ^ 24) + 1 / 2 ^ 150
      = (k * γ) * ((1 + 1 / 2 ^ 24) * (1 + 1 / 2 ^ 24)) + (k * (1 / 2 ^ 150 * (1 + 1 / 2 ^ 24)) + 1 / 2 ^ 150) := by ring
  have h6 : k * (1 + 1 / 2 ^ 20) * γ + 1 / 2 ^ 100 = (k * γ) * (1 + 1 / 2 ^ 20) + 1 / 2 ^ 100 := by ring
  rw [h5, h6]
  have h7 : (k * γ) * ((1 + 1 / 2 ^ 24) * (1 + 1 / 2 ^ 24)) ≤ (k * γ) * (1 + 1 / 2 ^ 20) := by
    apply mul_le_mul_of_nonneg_left _ hkγ
    norm_num
  have h8 : k * (1 / 2 ^ 150 * (1 + 1 / 2 ^ 24)) ≤ 1 * (1 / 2 ^ 150 * (1 + 1 / 2 ^ 24)) := by gcongr
  have h9 : (1 : ℝ) * (1 / 2 ^ 150 * (1 + 1 / 2 ^ 24)) + 1 / 2 ^ 150 ≤ 1 / 2 ^ 100 := by norm_num
  linarith

theorem ratAbsSum_nonneg : ∀ l : List ℚ, 0 ≤ ratAbsSum l
  | [] => le_rfl
  | c :: l => add_nonneg (abs_nonneg c) (ratAbsSum_nonneg l)

theorem coefs_bd {a : F32} {k : ℝ} (ha : Bd k a) (hk : k ≤ 1) : ∀ l : List ℚ, ratAbsSum l ≤ 2 →
    (∀ c ∈ l.map (fun c => F32.mul a (rnd c)), IsFin c) ∧
      cSum (l.map fun c => F32.mul a (rnd c)) ≤ k * (1 + 1 / 2 ^ 20) * ((ratAbsSum l : ℚ) : ℝ) + l.length * (1 / 2 ^ 100)
  | [], _ => by simp [cSum, ratAbsSum]
  | c :: l, h => by
    have e : ratAbsSum (c :: l) = |c| + ratAbsSum l := rfl
    rw [e] at h
    have h0 := ratAbsSum_nonneg l
    have hc : |(c : ℝ)| ≤ 2 := by
      have : |c| ≤ 2 := by linarith
      have := (Rat.cast_le (K := ℝ)).2 this
      push_cast at this
      exact this
    obtain ⟨i1, i2⟩ := coefs_bd ha hk l (by linarith [abs_nonneg c])
    obtain ⟨c1, c2⟩ := coef_bd ha hk hc
    constructor
    · intro x hx
      rw [List.map_cons] at hx
      rcases List.mem_cons.1 hx with rfl | hx
      · exact c1
      · exact i1 x hx
    · rw [List.map_cons, cSum_cons, e, List.length_cons]
      push_cast
      linarith

theorem coefOk_setting (f : SamplingFrequency) (d : FrameDuration) (info : LtpfInfo) (nbits : ℕ) :
    CoefOk (@settingOf F32 (scalar el) f d info nbits).cNum (@settingOf F32 (scalar el) f d info nbits).cDen := by
  letI := scalar el
  obtain ⟨q1, q2⟩ := @settingOf_lengths F32 (scalar el) f d info nbits
  have hL : lDenOf (Lc3Config.new f d).fs ≤ 12 := by cases f <;> cases d <;> decide
  obtain ⟨t1, t2⟩ := tables_sums f
  obtain ⟨g1, g2⟩ := gainOf_range d (Lc3Config.new f d).fsInd nbits
  have hgi := gainOf_lt d (Lc3Config.new f d).fsInd nbits
  have hn : (@settingOf F32 (scalar el) f d info nbits).cNum.length ≤ 13 := by omega
  have hd : (@settingOf F32 (scalar el) f d info nbits).cDen.length ≤ 13 := by omega
  revert hn hd
  clear q1 q2
  unfold settingOf
  cases info.isActive
  · simp only [Bool.false_eq_true, if_false]
    intro hn hd
    have hz : ∀ n, ∀ c ∈ List.replicate n (@Scalar.zero F32 (scalar el)), IsFin c := by
      intro n c hc
      rw [List.eq_of_mem_replicate hc, zero_eq]
      exact ⟨0, rfl⟩
    have hs : ∀ n, cSum (List.replicate n (@Scalar.zero F32 (scalar el))) = 0 := by
      intro n; rw [zero_eq, cSum_replicate]
    exact ⟨hz _, hz _, by rw [hs]; norm_num, by rw [hs]; norm_num, hn, hd⟩
  · simp only [if_true]
    intro hn hd
    have hfr : lagOut f info.pitchIndex % 4 < 4 := Nat.mod_lt _ (by omega)
    have k1 := t1 _ hgi
    have k2 := t2 _ hfr
    generalize gainOf d (Lc3Config.new f d).fsInd nbits = g at *
    have G2 : |(g.1 : ℝ)| ≤ 4 / 10 := by
      rw [abs_of_nonneg (by exact_mod_cast g1)]
      have := (Rat.cast_le (K := ℝ)).2 g2
      push_cast at this
      exact this
    have bg := bd_rnd G2 (by norm_num) (by norm_num)
    have b85 : Bd (85 / 100 * (1 + 1 / 2 ^ 23)) (rnd (85 / 100)) :=
      bd_rnd (by push_cast; rw [abs_of_nonneg (by norm_num)]) (by norm_num) (by norm_num)
    have bn := b85.mul bg (by norm_num) (by norm_num)
    generalize ((Spec.tables f).1.getD g.2 []).take ((Spec.tables f).2.2 - 2) = ln at *
    generalize ((Spec.tables f).2.1.getD (lagOut f info.pitchIndex % 4) []).take (Spec.tables f).2.2 = ld at *
    obtain ⟨n1, n2⟩ := coefs_bd bn (by norm_num) ln (k1.trans (by norm_num))
    obtain ⟨d1, d2⟩ := coefs_bd bg (by norm_num) ld (k2.trans (by norm_num))
    have K1 := (Rat.cast_le (K := ℝ)).2 k1
    have K2 := (Rat.cast_le (K := ℝ)).2 k2
    push_cast at K1 K2
    rw [List.length_map] at hn hd
    have L1 : (ln.length : ℝ) ≤ 13 := by exact_mod_cast hn
    have L2 : (ld.length : ℝ) ≤ 13 := by exact_mod_cast hd
    refine ⟨n1, d1, n2.trans ?_, d2.trans ?_, by rw [List.length_map]; exact hn, by rw [List.length_map]; exact hd⟩
    · norm_num at K1 ⊢
      linarith
    · norm_num at K2 ⊢
      linarith

/-! ### Sums of products -/

theorem mac_bd {A B : ℝ} {a c v : F32} (ha : Bd A a) (hc : IsFin c) (hc1 : |val c| ≤ 1) (hv : Bd B v) (hB : B ≤ 2 ^ 108)
    (hA : A + |val c| * B ≤ 2 ^ 112) : Bd (A + |val c| * B + 2 ^ 90) (F32.add a (F32.mul c v)) ∧
      Bd (A + |val c| * B + 2 ^ 90) (F32.sub a (F32.mul c v)) := by
  have hB0 := hv.nonneg
  have hA0 := ha.nonneg
  have h1 : |val c * val v| ≤ |val c| * B := by
    rw [abs_mul]
    exact mul_le_mul_of_nonneg_left hv.2 (abs_nonneg _)
  have h2 : |val c| * B ≤ 2 ^ 108 := by
    have : |val c| * B ≤ 1 * 2 ^ 108 := mul_le_mul hc1 hB hB0 zero_le_one
    linarith
  obtain ⟨f1, e1⟩ := mul_val hc hv.1 (h1.trans (h2.trans (by norm_num)))
  have hp : Bd (|val c| * B + 2 ^ 85) (F32.mul c v) := by
    refine ⟨f1, ?_⟩
    have := abs_sub_abs_le_abs_sub (val (F32.mul c v)) (val c * val v)
    have i : (2 : ℝ) ^ 108 / 2 ^ 24 + 1 / 2 ^ 150 ≤ 2 ^ 85 := by norm_num
    have j : |val c * val v| / 2 ^ 24 ≤ 2 ^ 108 / 2 ^ 24 := by gcongr; exact h1.trans h2
    linarith
  generalize F32.mul c v = p at *
  obtain ⟨T, hT⟩ : ∃ T, T = |val c| * B := ⟨_, rfl⟩
  rw [← hT] at h1 h2 hA hp ⊢
  have hT0 : 0 ≤ T := by rw [hT]; positivity
  have key : ∀ p', Bd (T + 2 ^ 85) p' → Bd (A + T + 2 ^ 90) (F32.add a p') := by
    intro p' hp'
    have h3 : |val a + val p'| ≤ A + (T + 2 ^ 85) := (abs_add_le _ _).trans (add_le_add ha.2 hp'.2)
    have h4 : A + (T + 2 ^ 85) ≤ 2 ^ 113 := by
      have : (2 : ℝ) ^ 112 + 2 ^ 85 ≤ 2 ^ 113 := by norm_num
      linarith
    obtain ⟨f2, e2⟩ := add_val ha.1 hp'.1 (h3.trans (h4.trans (by norm_num)))
    refine ⟨f2, ?_⟩
    have := abs_sub_abs_le_abs_sub (val (F32.add a p')) (val a + val p')
    have j : |val a + val p'| / 2 ^ 24 ≤ 2 ^ 113 / 2 ^ 24 := by gcongr; exact h3.trans h4
    have i : (2 : ℝ) ^ 113 / 2 ^ 24 + 1 / 2 ^ 150 + 2 ^ 85 ≤ 2 ^ 90 := by norm_num
    linarith
  exact ⟨key p hp, key _ hp.neg⟩

theorem firAdd_bd {B : ℝ} (hB0 : 0 ≤ B) (hB : B ≤ 2 ^ 108) {mem : List F32} {ring : ℕ} : ∀ (cs : List F32) (i : ℤ) (A : ℝ) (a r : F32),
    (∀ c ∈ cs, IsFin c) → cSum cs ≤ 1 → cs.length ≤ 13 →
    (∀ j : ℕ, j < cs.length → ∀ v, ringRead mem ring (i - j) = .ok v → Bd B v) → Bd A a → A ≤ 2 ^ 109 - cSum cs * B - cs.length * 2 ^ 90 →
    @firAdd F32 (scalar el) mem ring cs i a = .ok r → Bd (A + cSum cs * B + cs.length * 2 ^ 90) r
  | [], i, A, a, r, _, _, _, _, ha, _, e => by
    letI := scalar el
    simp only [firAdd, Res.ok.injEq] at e
    subst e
    simpa [cSum] using ha
  | c :: cs, i, A, a, r, hf, hs, hl, hr, ha, hA, e => by
    letI := scalar el
    rw [firAdd] at e
    obtain ⟨v, hv, e⟩ := bind_ok_inv e
    have h0 := hr 0 (by simp) v (by simpa using hv)
    rw [cSum_cons] at hs hA ⊢
    rw [List.length_cons] at hl hA ⊢
    push_cast at hA ⊢
    have hp := cSum_nonneg cs
    have hl13 : (cs.length : ℝ) ≤ 12 := by exact_mod_cast (by omega : cs.length ≤ 12)
    have hl0 : (0 : ℝ) ≤ cs.length := Nat.cast_nonneg _
    have hcB : 0 ≤ cSum cs * B := by positivity
    have m1 := (mac_bd (A := A) ha (hf c (by simp)) (by linarith) h0 hB (by
      have : (0 : ℝ) ≤ cs.length * 2 ^ 90 := by positivity
      have : (2 : ℝ) ^ 109 ≤ 2 ^ 112 := by norm_num
      linarith [abs_nonneg (val c)])).1
    have ih := firAdd_bd hB0 hB cs (i - 1) _ _ r (fun q hq => hf q (by simp [hq])) (by linarith [abs_nonneg (val c)]) (by omega)
      (fun j hj => by
        have := hr (j + 1) (by simp; omega)
        rwa [show i - 1 - (j : Int) = i - ((j + 1 : Nat) : Int) by push_cast; ring]) m1 (by linarith) e
    refine ih.mono (le_of_eq ?_)
    ring

theorem firSub_bd {B : ℝ} (hB0 : 0 ≤ B) (hB : B ≤ 2 ^ 108) {mem : List F32} {ring : ℕ} : ∀ (cs : List F32) (i : ℤ) (A : ℝ) (a r : F32),
    (∀ c ∈ cs, IsFin c) → cSum cs ≤ 1 → cs.length ≤ 13 →
    (∀ j : ℕ, j < cs.length → ∀ v, ringRead mem ring (i - j) = .ok v → Bd B v) → Bd A a → A ≤ 2 ^ 109 - cSum cs * B - cs.length * 2 ^ 90 →
    @firSub F32 (scalar el) mem ring cs i a = .ok r → Bd (A + cSum cs * B + cs.length * 2 ^ 90) r
  | [], i, A, a, r, _, _, _, _, ha, _, e => by
    letI := scalar el
    simp only [firSub, Res.ok.injEq] at e
    subst e
    simpa [cSum] using ha
  | c :: cs, i, A, a, r, hf, hs, hl, hr, ha, hA, e => by
    letI := scalar el
    rw [firSub] at e
    obtain ⟨v, hv, e⟩ := bind_ok_inv e
    have h0 := hr 0 (by simp) v (by simpa using hv)
    rw [cSum_cons] at hs hA ⊢
    rw [List.length_cons] at hl hA ⊢
    push_cast at hA ⊢
    have hp := cSum_nonneg cs
    have hl13 : (cs.length : ℝ) ≤ 12 := by exact_mod_cast (by omega : cs.length ≤ 12)
    have hl0 : (0 : ℝ) ≤ cs.length := Nat.cast_nonneg _
    have hcB : 0 ≤ cSum cs * B := by positivity
    have m1 := (mac_bd (A := A) ha (hf c (by simp)) (by linarith) h0 hB (by
      have : (0 : ℝ) ≤ cs.length * 2 ^ 90 := by positivity
      have : (2 : ℝ) ^ 109 ≤ 2 ^ 112 := by norm_num
      linarith [abs_nonneg (val c)])).2
    have ih := firSub_bd hB0 hB cs (i - 1) _ _ r (fun q hq => hf q (by simp [hq])) (by linarith [abs_nonneg (val c)]) (by omega)
      (fun j hj => by
        have := hr (j + 1) (by simp; omega)
        rwa [show i - 1 - (j : Int) = i - ((j + 1 : Nat) : Int) by push_cast; ring]) m1 (by linarith) e
    refine ih.mono (le_of_eq ?_)
    ring

theorem AllBd.ring {B : ℝ} {l : List F32} (h : AllBd B l) {ring : ℕ} {i : ℤ} {v : F32}
    (e : @ringRead F32 l ring i = .ok v) : Bd B v := by
  unfold ringRead at e
  split at e
  · split at e
    · cases e
    · exact h.idx e
  · exact h.idx e

/-- numerator part over values of size `B`, denominator part over values of size `2 ^ 108` -/
theorem filter_bd {cn cd : List F32} (hc : CoefOk cn cd) {x y : List F32} {B F : ℝ} (hB0 : 0 ≤ B) (hB : B ≤ 2 ^ 108) {rx ry : ℕ} {i j : ℤ} {a r : F32}
    (hx : ∀ k : ℕ, k < cn.length → ∀ v, ringRead x rx (i - k) = .ok v → Bd B v) (hy : AllBd (2 ^ 108) y)
    (e1 : @firAdd F32 (scalar el) x rx cn i (@Scalar.zero F32 (scalar el)) = .ok a) (e2 : @firSub F32 (scalar el) y ry cd j a = .ok r)
    (hF : 361 / 1000 * B + 403 / 1000 * 2 ^ 108 + 2 ^ 95 ≤ F) : Bd F r := by
  have n0 := cSum_nonneg cn
  have d0 := cSum_nonneg cd
  have ln : (cn.length : ℝ) ≤ 13 := by exact_mod_cast hc.nLen
  have ld : (cd.length : ℝ) ≤ 13 := by exact_mod_cast hc.dLen
  have t1 : cSum cn * B ≤ 361 / 1000 * B := mul_le_mul_of_nonneg_right hc.nSum hB0
  have t2 : cSum cd * 2 ^ 108 ≤ 403 / 1000 * 2 ^ 108 := mul_le_mul_of_nonneg_right hc.dSum (by norm_num)
  have t3 : (cn.length : ℝ) * 2 ^ 90 ≤ 13 * 2 ^ 90 := by gcongr
  have t4 : (cd.length : ℝ) * 2 ^ 90 ≤ 13 * 2 ^ 90 := by gcongr
  have t5 : (361 / 1000 : ℝ) * B ≤ 361 / 1000 * 2 ^ 108 := by gcongr
  have hn := hc.nSum
  have hd := hc.dSum
  have k1 : (361 / 1000 : ℝ) * 2 ^ 108 + 13 * 2 ^ 90 ≤ 2 ^ 109 := by norm_num
  have k2 : (361 / 1000 : ℝ) * 2 ^ 108 + 13 * 2 ^ 90 + 403 / 1000 * 2 ^ 108 + 13 * 2 ^ 90 ≤ 2 ^ 109 := by norm_num
  have k3 : (13 : ℝ) * 2 ^ 90 + 13 * 2 ^ 90 ≤ 2 ^ 95 := by norm_num
  have h1 := firAdd_bd hB0 hB cn i 0 _ a hc.nFin (by linarith) hc.nLen hx (by rw [zero_eq]; exact bd_zero le_rfl) (by linarith) e1
  have h2 := firSub_bd (by norm_num) le_rfl cd j _ a r hc.dFin (by linarith) hc.dLen (fun k _ v hv => hy.ring hv) h1 (by linarith) e2
  exact h2.mono (by linarith)

/-! ### Fade factors -/

theorem ramp_val {n N : ℕ} (hN : 0 < N) (hN2 : N ≤ 480) (h : n ≤ N) :
    IsFin (F32.div (rnd ((n : ℕ) : ℚ)) (rnd ((N : ℕ) : ℚ))) ∧
      |val (F32.div (rnd ((n : ℕ) : ℚ)) (rnd ((N : ℕ) : ℚ))) - (n : ℝ) / N| ≤ 1 / 2 ^ 20 := by
  have e : ∀ k : ℕ, k ≤ 480 → rnd ((k : ℕ) : ℚ) = fin (k : ℚ) := by
    intro k hk
    have := rnd_int24 (s := (k : ℤ)) (by rw [abs_of_nonneg (by positivity)]; norm_num; omega)
    exact_mod_cast this
  rw [e n (by omega), e N hN2]
  have hv : ∀ k : ℕ, val (fin ((k : ℕ) : ℚ)) = (k : ℝ) := by
    intro k
    show (((k : ℕ) : ℚ) : ℝ) = k
    push_cast; rfl
  have hN' : (0 : ℝ) < N := by exact_mod_cast hN
  have h1 : (n : ℝ) / N ≤ 1 := by rw [div_le_one hN']; exact_mod_cast h
  have h0 : 0 ≤ (n : ℝ) / N := by positivity
  obtain ⟨f1, e1⟩ := div_val (a := fin (n : ℚ)) (b := fin (N : ℚ)) ⟨_, rfl⟩ ⟨_, rfl⟩ (by rw [hv]; exact hN'.ne')
    (by rw [hv, hv, abs_of_nonneg h0]; exact h1.trans (by norm_num))
  rw [hv, hv, abs_of_nonneg h0] at e1
  refine ⟨f1, e1.trans ?_⟩
  generalize (n : ℝ) / N = t at *
  norm_num
  linarith

theorem fadeIn_bd {N n : ℕ} (hN : 0 < N) (hN2 : N ≤ 480) (h : n ≤ N) {t F : ℝ} (ht : (n : ℝ) / N ≤ t) (ht0 : 0 ≤ t) (ht1 : t ≤ 1) {f : F32} (hf : Bd F f) (hF : 1 ≤ F)
    (hF2 : F ≤ 2 ^ 110) : Bd (F * (t + 1 / 2 ^ 19)) (@fadeIn F32 (scalar el) N n f) := by
  obtain ⟨f1, e1⟩ := ramp_val hN hN2 h
  have h0 : 0 ≤ (n : ℝ) / N := by positivity
  have hb : Bd (t + 1 / 2 ^ 20) (F32.div (rnd ((n : ℕ) : ℚ)) (rnd ((N : ℕ) : ℚ))) := by
    refine ⟨f1, ?_⟩
    have := abs_sub_abs_le_abs_sub (val (F32.div (rnd ((n : ℕ) : ℚ)) (rnd ((N : ℕ) : ℚ)))) ((n : ℝ) / N)
    rw [abs_of_nonneg h0] at this
    linarith
  have hx : F * (t + 1 / 2 ^ 20) ≤ 2 ^ 126 := by
    calc F * (t + 1 / 2 ^ 20) ≤ 2 ^ 110 * (1 + 1 / 2 ^ 20) := by gcongr
      _ ≤ 2 ^ 126 := by norm_num
  have hx1 : (1 : ℝ) / 2 ^ 120 ≤ F * (t + 1 / 2 ^ 20) := by
    calc (1 : ℝ) / 2 ^ 120 ≤ 1 * (0 + 1 / 2 ^ 20) := by norm_num
      _ ≤ F * (t + 1 / 2 ^ 20) := by gcongr
  refine (hf.mul hb hx1 hx).mono ?_
  rw [mul_assoc]
  apply mul_le_mul_of_nonneg_left _ (by linarith)
  norm_num
  linarith

theorem fadeOut_bd {N n : ℕ} (hN : 0 < N) (hN2 : N ≤ 480) (h : n ≤ N) {F : ℝ} {f : F32} (hf : Bd F f) (hF : 1 ≤ F)
    (hF2 : F ≤ 2 ^ 110) : Bd (F * (1 + 1 / 2 ^ 18)) (@fadeOut F32 (scalar el) N n f) := by
  obtain ⟨f1, e1⟩ := ramp_val hN hN2 h
  have hN' : (0 : ℝ) < N := by exact_mod_cast hN
  have h1 : (n : ℝ) / N ≤ 1 := by rw [div_le_one hN']; exact_mod_cast h
  have h0 : 0 ≤ (n : ℝ) / N := by positivity
  have hone : @Scalar.one F32 (scalar el) = fin 1 := by
    have h : @Scalar.one F32 (scalar el) = rnd ((1 : ℤ) : ℚ) := by
      show rnd 1 = rnd ((1 : ℤ) : ℚ)
      norm_num
    rw [h, rnd_int24 (by norm_num)]
    norm_num
  have hb : Bd (1 + 1 / 2 ^ 19) (F32.sub (@Scalar.one F32 (scalar el)) (F32.div (rnd ((n : ℕ) : ℚ)) (rnd ((N : ℕ) : ℚ)))) := by
    rw [hone]
    have hv1 : val (fin 1) = 1 := by show ((1 : ℚ) : ℝ) = 1; norm_num
    have hd : |val (fin 1) - val (F32.div (rnd ((n : ℕ) : ℚ)) (rnd ((N : ℕ) : ℚ)))| ≤ 1 + 1 / 2 ^ 20 := by
      rw [hv1, abs_le]
      rw [abs_le] at e1
      constructor <;> linarith [e1.1, e1.2]
    obtain ⟨f2, e2⟩ := sub_val (a := fin 1) ⟨1, rfl⟩ f1 (hd.trans (by norm_num))
    exact (bd_of_err f2 e2 hd (by norm_num)).mono (by norm_num)
  have hx : F * (1 + 1 / 2 ^ 19) ≤ 2 ^ 126 := by
    calc F * (1 + 1 / 2 ^ 19) ≤ 2 ^ 110 * (1 + 1 / 2 ^ 19) := by gcongr
      _ ≤ 2 ^ 126 := by norm_num
  have hx1 : (1 : ℝ) / 2 ^ 120 ≤ F * (1 + 1 / 2 ^ 19) := by
    calc (1 : ℝ) / 2 ^ 120 ≤ 1 * (1 + 1 / 2 ^ 19) := by norm_num
      _ ≤ F * (1 + 1 / 2 ^ 19) := by gcongr
  refine (hf.mul hb hx1 hx).mono ?_
  rw [mul_assoc]
  apply mul_le_mul_of_nonneg_left _ (by linarith)
  norm_num

/-! ### Loops -/

/-- the filter over a range of samples -/
theorem filt_bd {cn cd : List F32} (hc : CoefOk cn cd) {x y y' : List F32} {ring blk pitch a count : ℕ} {scale : ℕ → F32 → F32}
    (hx : AllBd (2 ^ 102) x) (hs : ∀ n f, a ≤ n → n < a + count → Bd (41 / 100 * 2 ^ 108) f → Bd (411 / 1000 * 2 ^ 108) (scale n f))
    (hy : AllBd (2 ^ 108) y) (e : forRange (@ltpfSample F32 (scalar el) ring cn cd x blk pitch scale) a count y = .ok y') :
    AllBd (2 ^ 108) y' ∧ ∀ n, a ≤ n → n < a + count → ∀ v, y'[blk + n]? = some v → Bd (43 / 100 * 2 ^ 108) v := by
  letI := scalar el
  refine forRange_one (fun m l => AllBd (2 ^ 108) l ∧ ∀ n, a ≤ n → n < m → ∀ v, l[blk + n]? = some v → Bd (43 / 100 * 2 ^ 108) v) count a y y'
    ⟨hy, fun n h1 h2 => by omega⟩ ?_ e
  rintro n l l' hn1 hn2 ⟨hl, hw⟩ k
  obtain ⟨v, f, hv, hlt, hf, rfl⟩ := ltpfSample_gen k
  have hvb : Bd (2 ^ 102) v := hx v (List.mem_of_getElem? hv)
  unfold computeFilter at hf
  obtain ⟨p, hp, hf⟩ := bind_ok_inv hf
  have hF : Bd (41 / 100 * 2 ^ 108) f := filter_bd hc (by norm_num) (by norm_num) (fun j _ w hw => hx.ring hw)
    (hl.set _ (hvb.mono (by norm_num))) hp hf (by norm_num)
  have hS := hs n f hn1 hn2 hF
  have hres : Bd (43 / 100 * 2 ^ 108) (v - scale n f) := (hvb.sub hS (by norm_num) (by norm_num)).mono (by norm_num)
  refine ⟨hl.set _ (hres.mono (by norm_num)), ?_⟩
  intro m h1 h2 q hq
  by_cases hm : m = n
  · subst hm
    rw [List.getElem?_set_self (by assumption)] at hq
    cases hq
    exact hres
  · rw [List.getElem?_set_ne (by omega)] at hq
    exact hw m h1 (by omega) q hq

theorem copy_bd {x y y' : List F32} {blk a count : ℕ} (hx : AllBd (2 ^ 102) x) (hy : AllBd (2 ^ 108) y)
    (e : forRange (fun n y => do
      let v ← idx x (blk + n)
      setIdx y (blk + n) v) a count y = .ok y') : AllBd (2 ^ 108) y' := by
  refine forRange_one (fun _ l => AllBd (2 ^ 108) l) count a y y' hy ?_ e
  intro n l l' _ _ hl k
  obtain ⟨v, hv, k⟩ := bind_ok_inv k
  unfold setIdx at k
  split at k
  · simp only [Res.ok.injEq] at k
    subst k
    exact hl.set _ ((hx.idx hv).mono (by norm_num))
  · cases k

/-- the second pass of a lag change -/
theorem fromMem_bd {cn cd : List F32} (hc : CoefOk cn cd) {ring norm lNum blk pitch : ℕ} (hlen : cn.length = lNum + 1) (hnorm : 3 * lNum ≤ norm)
    (hn0 : 0 < norm) (hn1 : norm ≤ 480) (hblk : blk = 0 ∨ lNum ≤ blk) {y scr y' : List F32} (hy : AllBd (2 ^ 108) y)
    (hfirst : ∀ n, n < norm → ∀ v, y[blk + n]? = some v → Bd (43 / 100 * 2 ^ 108) v)
    (hs : @ltpfScratch F32 ring norm lNum blk y = .ok scr)
    (e : forRange (@ltpfSampleFromMem F32 (scalar el) ring norm cn cd scr blk pitch lNum) 0 norm y = .ok y') : AllBd (2 ^ 108) y' := by
  letI := scalar el
  have hscr : AllBd (2 ^ 108) scr := by
    intro v hv
    obtain ⟨i, hi, rfl⟩ := List.mem_iff_getElem.1 hv
    exact hy _ (List.mem_of_getElem? (ltpfScratch_gen hs (List.getElem?_eq_getElem hi)))
  have hpos : ∀ i, scratchPos ring lNum blk (lNum + i) = blk + i := by
    intro i
    unfold scratchPos
    split
    · rw [if_neg (by omega)]; omega
    · omega
  have hin : ∀ i v, scr[lNum + i]? = some v → Bd (43 / 100 * 2 ^ 108) v := by
    intro i v h1
    have hi := ltpfScratch_len hs h1
    have g1 := ltpfScratch_gen hs h1
    rw [hpos] at g1
    exact hfirst i hi v g1
  refine forRange_one (fun _ l => AllBd (2 ^ 108) l) norm 0 y y' hy ?_ e
  intro n l l' _ hn hl k
  rw [Nat.zero_add] at hn
  obtain ⟨v, a, f, hv, hlt, ha, hf, rfl⟩ := ltpfSampleFromMem_gen k
  have hvb := hin n v (by rw [Nat.add_comm]; exact hv)
  have hlv := hl.set (blk + n) (hvb.mono (show (43 / 100 : ℝ) * 2 ^ 108 ≤ 2 ^ 108 by norm_num))
  have hN' : (0 : ℝ) < norm := by exact_mod_cast hn0
  refine hl.set _ ?_
  by_cases hcn : lNum ≤ n
  · have hF : Bd (56 / 100 * 2 ^ 108) f := filter_bd hc (B := 43 / 100 * 2 ^ 108) (by norm_num) (by norm_num) (fun j hj w hw => by
      unfold ringRead at hw
      have hpos' : ¬ (((lNum + n : Nat) : Int) - j < 0) := by omega
      rw [if_neg hpos'] at hw
      have e3 : (((lNum + n : Nat) : Int) - j).toNat = lNum + (n - j) := by omega
      rw [e3] at hw
      exact hin (n - j) w (idx_ok_iff.1 hw)) hlv ha hf (by norm_num)
    have hS := fadeIn_bd (el := el) hn0 hn1 hn.le (t := 1) (by rw [div_le_one hN']; exact_mod_cast hn.le) (by norm_num) le_rfl hF (by norm_num) (by norm_num)
    exact (hvb.sub hS (by norm_num) (by norm_num)).mono (by norm_num)
  · have hF : Bd (77 / 100 * 2 ^ 108) f := filter_bd hc (B := 2 ^ 108) (by norm_num) le_rfl (fun j _ w hw => hscr.ring hw) hlv ha hf (by norm_num)
    have hS := fadeIn_bd (el := el) hn0 hn1 hn.le (t := 1 / 3) (by
      rw [div_le_iff₀ hN']
      have : ((3 * n : ℕ) : ℝ) ≤ (norm : ℕ) := by exact_mod_cast (by omega : 3 * n ≤ norm)
      push_cast at this
      linarith) (by norm_num) (by norm_num) hF (by norm_num) (by norm_num)
    exact (hvb.sub hS (by norm_num) (by norm_num)).mono (by norm_num)

end F32
end Lc3
