import Verif.Lemmas.FinEncLtpf
import Verif.Spec.Rounding
import Verif.Props.EncLtpf
/-! Sizes in binary32: the normalised correlation of the encoder's pitch analysis. -/

namespace Lc3.F32
open Scalar Tables

variable {el : Elem}

/-- a rounded value that is not zero is at least the smallest subnormal number -/
theorem rndQ_pos {q : ℚ} (h : 0 ≤ q) (h0 : rndQ q ≠ 0) : 1 / 2 ^ 149 ≤ rndQ q := by
  have hn := rndQ_nonneg h
  unfold rndQ at *
  have hp : (0 : ℚ) < 2 ^ ulpExp q := zpow_pos (by norm_num) _
  have hm : (1 : ℤ) ≤ roundEven (q / 2 ^ ulpExp q) := by
    have a : 0 ≤ roundEven (q / 2 ^ ulpExp q) := roundEven_ge (n := 0) (by push_cast; positivity)
    rcases a.eq_or_lt with a | a
    · rw [← a] at h0
      simp at h0
    · omega
  have hm' : (1 : ℚ) ≤ (roundEven (q / 2 ^ ulpExp q) : ℚ) := by exact_mod_cast hm
  have he : (2 : ℚ) ^ (-149 : ℤ) ≤ 2 ^ ulpExp q := zpow_le_zpow_right₀ (by norm_num) (le_max_right _ _)
  have h149 : (2 : ℚ) ^ (-149 : ℤ) = 1 / 2 ^ 149 := by norm_num
  rw [h149] at he
  calc (1 / 2 ^ 149 : ℚ) ≤ 1 * 2 ^ ulpExp q := by rw [one_mul]; exact he
    _ ≤ _ := mul_le_mul_of_nonneg_right hm' hp.le

/-- finite, nonnegative and at most `B` -/
def NBd (B : ℝ) (a : F32) : Prop := Bd B a ∧ 0 ≤ val a

theorem val_fin (q : ℚ) : val (fin q) = q := rfl

theorem NBd.add_sq {A B : ℝ} {s a : F32} (hs : NBd A s) (ha : Bd B a) (h0 : 1 ≤ A + B * B * (1 + 1 / 2 ^ 23)) (hB0 : 1 / 2 ^ 120 ≤ B * B)
    (hB1 : B * B ≤ 2 ^ 126) (hA : A + B * B * (1 + 1 / 2 ^ 23) ≤ 2 ^ 126) :
    NBd ((A + B * B * (1 + 1 / 2 ^ 23)) * (1 + 1 / 2 ^ 23)) (F32.add s (F32.mul a a)) := by
  have m := ha.mul ha hB0 hB1
  refine ⟨hs.1.add m (le_trans (by norm_num) h0) hA, ?_⟩
  obtain ⟨⟨⟨q, rfl⟩, hq⟩, hs0⟩ := hs
  obtain ⟨⟨p, rfl⟩, hp⟩ := ha
  rw [val_fin] at hq hs0 hp
  have hpp : |p * p| ≤ 2 ^ 127 := by
    have h1 : |(p : ℝ) * p| ≤ B * B := by
      rw [abs_mul]
      exact mul_le_mul hp hp (abs_nonneg _) ((abs_nonneg _).trans hp)
    have h2 := h1.trans (hB1.trans (show (2 : ℝ) ^ 126 ≤ 2 ^ 127 by norm_num))
    exact_mod_cast h2
  have em : F32.mul (fin p) (fin p) = fin (rndQ (p * p)) := rnd_fin hpp
  rw [em] at m ⊢
  have hr : 0 ≤ rndQ (p * p) := rndQ_nonneg (mul_self_nonneg p)
  have hq0 : 0 ≤ q := by exact_mod_cast hs0
  have hm := m.2
  rw [val_fin] at hm
  have hsum : |q + rndQ (p * p)| ≤ 2 ^ 127 := by
    have h1 : |(q : ℝ) + (rndQ (p * p) : ℝ)| ≤ A + B * B * (1 + 1 / 2 ^ 23) := (abs_add_le _ _).trans (add_le_add hq hm)
    have h2 := h1.trans (hA.trans (show (2 : ℝ) ^ 126 ≤ 2 ^ 127 by norm_num))
    exact_mod_cast h2
  have es : F32.add (fin q) (fin (rndQ (p * p))) = fin (rndQ (q + rndQ (p * p))) := rnd_fin hsum
  rw [es, val_fin]
  exact_mod_cast rndQ_nonneg (by linarith)

theorem tab_x12k8_le : ∀ h ∈ TAB_LTPF_INTERP_X12K8, |h| ≤ 1 := by decide +kernel

theorem interpX_bd {xt : List F32} (hx : AllBd (2 ^ 18) xt) (n d : ℤ) : ∀ (cnt : ℕ) (k : ℤ) (acc r : F32) (A : ℝ), Bd A acc →
    A + cnt * 2 ^ 19 ≤ 2 ^ 30 → 0 ≤ A → @interpX F32 (scalar el) xt n d cnt k acc = .ok r → Bd (A + cnt * 2 ^ 19) r := by
  letI := scalar el
  intro cnt
  induction cnt with
  | zero =>
    intro k acc r A ha _ _ e
    simp only [interpX, Res.ok.injEq] at e
    subst e
    simpa using ha
  | succ cnt ih =>
    intro k acc r A ha hA hA0 e
    simp only [interpX] at e
    obtain ⟨acc', e1, e⟩ := bind_ok_inv e
    have hcn : (0 : ℝ) ≤ (cnt : ℝ) := Nat.cast_nonneg _
    have hA' := hA
    rw [Nat.cast_succ] at hA' ⊢
    have hAb : A ≤ 2 ^ 30 := by
      norm_num at hA' ⊢
      linarith
    by_cases hc : -8 < 4 * k - d ∧ 4 * k - d < 8
    · rw [if_pos hc] at e1
      obtain ⟨v, ev, e1⟩ := bind_ok_inv e1
      obtain ⟨c, ec, e1⟩ := bind_ok_inv e1
      simp only [Res.ok.injEq] at e1
      subst e1
      have hc1 : |(c : ℝ)| ≤ 1 := by exact_mod_cast tab_x12k8_le c (idx_mem ec)
      have b1 : Bd (101 / 100) (rnd c) := bd_rat (by norm_num; linarith) (hc1.trans (by norm_num))
      have b2 : Bd (2 ^ 18 * (102 / 100)) (F32.mul v (rnd c)) :=
        ((hx.idx ev).mul b1 (by norm_num) (by norm_num)).mono (by norm_num)
      have b3 : Bd (A + 2 ^ 19) (F32.add acc (F32.mul v (rnd c))) :=
        (ha.add b2 (by norm_num; linarith) (by norm_num at hAb ⊢; linarith)).mono (by norm_num at hAb ⊢; linarith)
      exact (ih (k + 1) _ r _ b3 (by linarith) (by positivity) e).mono (by linarith)
    · rw [if_neg hc] at e1
      simp only [Res.ok.injEq] at e1
      subst e1
      exact (ih (k + 1) acc r A ha (by norm_num at hA' ⊢; linarith) hA0 e).mono (by linarith)

theorem activationSums_bd {xt : List F32} (hx : AllBd (2 ^ 18) xt) (pitch : ℕ) (fr : ℤ) : ∀ (cnt n : ℕ) (num t0 t1 : F32) (N : ℝ)
    (r : F32 × F32 × F32), Bd N num → NBd N t0 → NBd N t1 → 0 ≤ N → N + cnt * 2 ^ 43 ≤ 2 ^ 55 →
    @activationSums F32 (scalar el) xt pitch fr n cnt (num, t0, t1) = .ok r →
    Bd (N + cnt * 2 ^ 43) r.1 ∧ NBd (N + cnt * 2 ^ 43) r.2.1 ∧ NBd (N + cnt * 2 ^ 43) r.2.2 := by
  letI := scalar el
  intro cnt
  induction cnt with
  | zero =>
    intro n num t0 t1 N r h1 h2 h3 _ _ e
    simp only [activationSums, Res.ok.injEq] at e
    subst e
    simpa using ⟨h1, h2, h3⟩
  | succ cnt ih =>
    intro n num t0 t1 N r h1 h2 h3 hN hb e
    simp only [activationSums] at e
    obtain ⟨a, ea, e⟩ := bind_ok_inv e
    obtain ⟨b, eb, e⟩ := bind_ok_inv e
    have hz : Bd 0 (@Scalar.zero F32 (scalar el)) := by rw [zero_eq]; exact bd_zero (le_refl _)
    have ba : Bd 2621440 a := (interpX_bd (el := el) hx _ _ _ _ _ _ 0 hz (by norm_num) (le_refl _) ea).mono (by norm_num)
    have bb : Bd 2621440 b := (interpX_bd (el := el) hx _ _ _ _ _ _ 0 hz (by norm_num) (le_refl _) eb).mono (by norm_num)
    have hcn : (0 : ℝ) ≤ (cnt : ℝ) := Nat.cast_nonneg _
    rw [Nat.cast_succ] at hb ⊢
    have hNb : N ≤ 2 ^ 55 := by
      norm_num at hb ⊢
      linarith
    have q1 : Bd (N + 2 ^ 43) (F32.add num (F32.mul a b)) :=
      (h1.add (ba.mul bb (by norm_num) (by norm_num)) (by norm_num; linarith) (by norm_num at hNb ⊢; linarith)).mono
        (by norm_num at hNb ⊢; linarith)
    have sqs : ∀ {t x : F32}, NBd N t → Bd 2621440 x → NBd (N + 2 ^ 43) (F32.add t (F32.mul x x)) := fun {t x} ht hx' => by
      obtain ⟨g1, g2⟩ := ht.add_sq hx' (by norm_num; linarith) (by norm_num) (by norm_num) (by norm_num at hNb ⊢; linarith)
      exact ⟨g1.mono (by norm_num at hNb ⊢; linarith), g2⟩
    obtain ⟨r1, r2, r3⟩ := ih (n + 1) _ _ _ (N + 2 ^ 43) r q1 (sqs h2 ba) (sqs h3 bb) (by positivity) (by linarith) e
    have eN : N + 2 ^ 43 + cnt * 2 ^ 43 = N + (cnt + 1) * 2 ^ 43 := by ring
    rw [eN] at r1 r2 r3
    exact ⟨r1, r2, r3⟩

/-- the normalised correlation is finite -/
theorem nc_bd (he : Accurate el) {num t0 t1 : F32} (h1 : Bd (2 ^ 50) num) (h2 : NBd (2 ^ 50) t0) (h3 : NBd (2 ^ 50) t1)
    (hlt : F32.lt (fin 0) (el.sqrt (F32.mul t0 t1)) = true) : IsFin (F32.div num (el.sqrt (F32.mul t0 t1))) := by
  obtain ⟨⟨⟨p, rfl⟩, hp⟩, hp0⟩ := h2
  obtain ⟨⟨⟨q, rfl⟩, hq⟩, hq0⟩ := h3
  rw [val_fin] at hp hp0 hq hq0
  have hpq : |p * q| ≤ 2 ^ 127 := by
    have h1 : |(p : ℝ) * q| ≤ 2 ^ 50 * 2 ^ 50 := by
      rw [abs_mul]
      exact mul_le_mul hp hq (abs_nonneg _) (by norm_num)
    have h2 := h1.trans (show (2 : ℝ) ^ 50 * 2 ^ 50 ≤ 2 ^ 127 by norm_num)
    exact_mod_cast h2
  have em : F32.mul (fin p) (fin q) = fin (rndQ (p * q)) := rnd_fin hpq
  rw [em] at hlt ⊢
  have hp0' : 0 ≤ p := by exact_mod_cast hp0
  have hq0' : 0 ≤ q := by exact_mod_cast hq0
  have hn : 0 ≤ rndQ (p * q) := rndQ_nonneg (mul_nonneg hp0' hq0')
  obtain ⟨r, er, hr⟩ := he.sqrt _ hn
  rw [er] at hlt ⊢
  have hr0 : 0 < r := by
    have : decide (0 < r) = true := hlt
    simpa using this
  by_cases hz : rndQ (p * q) = 0
  · rw [hz] at hr
    have hr0' : (0 : ℝ) < r := by exact_mod_cast hr0
    norm_num at hr
    rw [hr] at hr0
    exact absurd hr0 (lt_irrefl _)
  · have hmin := rndQ_pos (mul_nonneg hp0' hq0') hz
    have hs : (1 / 2 ^ 75 : ℝ) ≤ √((rndQ (p * q) : ℚ) : ℝ) := by
      refine Real.le_sqrt_of_sq_le ?_
      have : ((1 / 2 ^ 149 : ℚ) : ℝ) ≤ ((rndQ (p * q) : ℚ) : ℝ) := by exact_mod_cast hmin
      push_cast at this
      norm_num at this ⊢
      linarith
    have hrl : (1 / 2 ^ 76 : ℝ) ≤ |val (fin r)| := by
      rw [val_fin, abs_of_pos (by exact_mod_cast hr0)]
      have := (abs_le.1 hr).1
      norm_num at this hs ⊢
      linarith
    have hne : val (fin r) ≠ 0 := by
      intro h
      rw [h, abs_zero] at hrl
      norm_num at hrl
    obtain ⟨k1, _⟩ := div_val h1.1 ⟨r, rfl⟩ (b := fin r) hne (by
      rw [abs_div, div_le_iff₀ (lt_of_lt_of_le (show (0 : ℝ) < 1 / 2 ^ 76 by norm_num) hrl)]
      refine h1.2.trans ?_
      calc (2 : ℝ) ^ 50 ≤ 2 ^ 127 * (1 / 2 ^ 76) := by norm_num
        _ ≤ _ := mul_le_mul_of_nonneg_left hrl (by norm_num))
    exact k1

/-! ## one frame -/

/-- the sizes of what the pitch analysis keeps from frame to frame -/
structure EncLtpfFin (s : EncLtpf F32) : Prop where
  xs : ∀ v ∈ s.xs, Small v
  xt : AllBd (2 ^ 18) s.xt
  x6 : AllBd (2 ^ 19) s.x6
  hp : HpOk s.h1 s.h2
  pitch : IsFin s.memPitch
  nc : IsFin s.memNc
  ncOld : IsFin s.memMemNc

theorem shiftDown_mem {β : Type} {l r : List β} {a : ℕ} (h : shiftDown l a = .ok r) : ∀ v ∈ r, v ∈ l := by
  unfold shiftDown at h
  split at h
  · simp only [Res.ok.injEq] at h
    subst h
    intro v hv
    rcases List.mem_append.1 hv with hv | hv
    · exact List.mem_of_mem_drop hv
    · exact List.mem_of_mem_drop hv
  · cases h

theorem sliceR_mem {β : Type} {l r : List β} {a b : ℕ} (h : sliceR l a b = .ok r) : ∀ v ∈ r, v ∈ l := by
  unfold sliceR at h
  split at h
  · simp only [Res.ok.injEq] at h
    subst h
    intro v hv
    exact List.mem_of_mem_take (List.mem_of_mem_drop hv)
  · cases h

theorem pitchDetection_bd {cfg : Lc3Config} {tPrev t : ℕ} {pr : Bool} {xt x6 y6 : List F32} (hx : AllBd (2 ^ 18) xt) (h6 : AllBd (2 ^ 19) x6)
    (h : @pitchDetection F32 (scalar el) cfg tPrev xt x6 = .ok (t, pr, y6)) : AllBd (2 ^ 19) y6 := by
  letI := scalar el
  unfold pitchDetection at h
  obtain ⟨src, e1, h⟩ := bind_ok_inv h
  obtain ⟨_, e2, h⟩ := bind_ok_inv h
  obtain ⟨r, e3, h⟩ := bind_ok_inv h
  obtain ⟨t4, e4, h⟩ := bind_ok_inv h
  obtain ⟨kf, e5, h⟩ := bind_ok_inv h
  obtain ⟨k0, e6, h⟩ := bind_ok_inv h
  obtain ⟨part, e7, h⟩ := bind_ok_inv h
  obtain ⟨n0, e8, h⟩ := bind_ok_inv h
  obtain ⟨n1, e9, h⟩ := bind_ok_inv h
  obtain ⟨i1, e10, h⟩ := bind_ok_inv h
  obtain ⟨r1, e11, h⟩ := bind_ok_inv h
  obtain ⟨c2, e12, h⟩ := bind_ok_inv h
  have hs : AllBd (2 ^ 18) src := fun a ha => hx a (sliceR_mem e1 a ha)
  have hd := downsample2_bd (el := el) (len6p4Of cfg.nMs) hs
  have key := ((h6.take K_MAX).append hd).append (h6.drop (K_MAX + (@downsample2 F32 (scalar el) (len6p4Of cfg.nMs) src).length))
  split at h
  · simp only [Res.ok.injEq, Prod.mk.injEq] at h
    rw [← h.2.2]
    exact key
  · simp only [Res.ok.injEq, Prod.mk.injEq] at h
    rw [← h.2.2]
    exact key

theorem pitch_fin {p : ℕ} {fr : ℤ} (hp : p ≤ 228) (h0 : 0 ≤ fr) (h3 : fr ≤ 3) :
    IsFin (F32.add (@Scalar.ofInt F32 (scalar el) (p : ℤ)) (F32.div (@Scalar.ofInt F32 (scalar el) fr) (rnd 4))) := by
  have e4 : rnd 4 = fin 4 := by
    have := rnd_int24 (s := 4) (by norm_num)
    simpa using this
  have b1 : Bd 228 (@Scalar.ofInt F32 (scalar el) (p : ℤ)) := by
    refine (bd_int (v := (p : ℤ)) ?_).mono ?_
    · rw [abs_of_nonneg (by omega)]; norm_num; omega
    · rw [abs_of_nonneg (by positivity)]; exact_mod_cast hp
  have b2 : Bd 3 (@Scalar.ofInt F32 (scalar el) fr) := by
    refine (bd_int (v := fr) ?_).mono ?_
    · rw [abs_of_nonneg h0]; norm_num; omega
    · rw [abs_of_nonneg (by exact_mod_cast h0)]; exact_mod_cast h3
  rw [e4]
  have v4 : |val (fin 4)| = 4 := by
    show |((4 : ℚ) : ℝ)| = 4
    norm_num
  have b3 := b2.div (B := 4) (b := fin 4) ⟨4, rfl⟩ (by norm_num) v4.ge (by norm_num) (by norm_num)
  exact (b1.add b3 (by norm_num) (by norm_num)).1

theorem activationBit_fin (he : Accurate el) {cfg : Lc3Config} {s : EncLtpf F32} (hx : AllBd (2 ^ 18) s.xt) {p : ℕ} {fr : ℤ} {nn gain ac : Bool}
    {nc pi : F32} (hp : p ≤ 228) (h0 : 0 ≤ fr) (h3 : fr ≤ 3)
    (h : @activationBit F32 (scalar el) cfg s p fr nn gain = .ok (ac, nc, pi)) : IsFin nc ∧ IsFin pi := by
  letI := scalar el
  unfold activationBit at h
  obtain ⟨⟨num, t0, t1⟩, e1, h⟩ := bind_ok_inv h
  simp only [Res.ok.injEq, Prod.mk.injEq] at h
  obtain ⟨-, h4, h5⟩ := h
  have hz : Bd 0 (@Scalar.zero F32 (scalar el)) := by rw [zero_eq]; exact bd_zero (le_refl _)
  have hz' : NBd 0 (@Scalar.zero F32 (scalar el)) := ⟨hz, by rw [zero_eq, val_fin]; norm_num⟩
  have hl : ((len12p8Of cfg.nMs : ℕ) : ℝ) ≤ 128 := by
    have : len12p8Of cfg.nMs ≤ 128 := by cases cfg.nMs <;> decide
    exact_mod_cast this
  have hb : (0 : ℝ) + (len12p8Of cfg.nMs : ℕ) * 2 ^ 43 ≤ 2 ^ 50 := by
    have := mul_le_mul_of_nonneg_right hl (show (0 : ℝ) ≤ 2 ^ 43 by norm_num)
    rw [zero_add]
    exact this.trans (by norm_num)
  obtain ⟨q1, q2, q3⟩ := activationSums_bd (el := el) hx p fr _ 0 _ _ _ 0 _ hz hz' hz' (le_refl _) (hb.trans (by norm_num)) e1
  constructor
  · rw [← h4]
    split
    · rename_i hlt
      have hlt' : F32.lt (@Scalar.zero F32 (scalar el)) (el.sqrt (F32.mul t0 t1)) = true := hlt
      rw [zero_eq] at hlt'
      exact nc_bd he (q1.mono hb) ⟨q2.1.mono hb, q2.2⟩ ⟨q3.1.mono hb, q3.2⟩ hlt'
    · exact hz.1
  · rw [← h5]
    exact pitch_fin hp h0 h3

/-- one frame of the pitch analysis keeps the sizes -/
theorem encLtpf_run_fin (he : Accurate el) (f : SamplingFrequency) (d : FrameDuration) {s s' : EncLtpf F32} {r : EncLtpfResult}
    (hs : s.Inv (Lc3Config.new f d)) (hf : EncLtpfFin s) {x : List ℤ} (hx : ∀ v ∈ x, Small v) {nn : Bool} {nbits : ℕ}
    (h : @EncLtpf.run F32 (scalar el) (Lc3Config.new f d) s x nn nbits = .ok (s', r)) : EncLtpfFin s' := by
  letI := scalar el
  obtain ⟨hxs, hxt, hx6, hlo, hhi⟩ := hs
  have hlen : len12p8Of (Lc3Config.new f d).nMs ≤ xtExtLen (Lc3Config.new f d) ∧
      len6p4Of (Lc3Config.new f d).nMs ≤ x6ExtLen ∧
      delayLtpfOf (Lc3Config.new f d).nMs + NMEM_12P8D + len12p8Of (Lc3Config.new f d).nMs = xtExtLen (Lc3Config.new f d) ∧
      NMEM_12P8D + len12p8Of (Lc3Config.new f d).nMs ≤ xtExtLen (Lc3Config.new f d) ∧
      240 / upFactorOf (Lc3Config.new f d).fs + (Lc3Config.new f d).nf = xsExtLen (Lc3Config.new f d) ∧
      (Lc3Config.new f d).nMs = d := by cases f <;> cases d <;> decide
  obtain ⟨l1, l2, l3, l4, hcfg, ld⟩ := hlen
  unfold EncLtpf.run at h
  split at h
  · cases h
  rename_i hxl
  simp only [ne_eq, not_not] at hxl
  obtain ⟨s1, e1, h⟩ := bind_ok_inv h
  unfold ltpfShift at e1
  obtain ⟨st, e2, e1⟩ := bind_ok_inv e1
  obtain ⟨a, ha, e1⟩ := bind_ok_inv e1
  split at e1
  swap
  · cases e1
  obtain ⟨b, hb, e1⟩ := bind_ok_inv e1
  obtain ⟨c, hc, e1⟩ := bind_ok_inv e1
  simp only [Res.ok.injEq] at e1
  subst e1
  dsimp only at h
  obtain ⟨_, e3, h⟩ := bind_ok_inv h
  obtain ⟨y, hy, h⟩ := bind_ok_inv h
  have hbl : b.length = s.xt.length := by
    obtain ⟨r', h1, h2⟩ := shiftDown_ok (l := s.xt) (a := len12p8Of (Lc3Config.new f d).nMs) (by omega)
    rw [hb] at h1
    cases h1
    exact h2
  have hcl : c.length = s.x6.length := by
    obtain ⟨r', h1, h2⟩ := shiftDown_ok (l := s.x6) (a := len6p4Of (Lc3Config.new f d).nMs) (by omega)
    rw [hc] at h1
    cases h1
    exact h2
  have hyl : y.length = len12p8Of d := by
    have hal : a.length = s.xs.length := by
      have hk := usub_ok_inv e2
      obtain ⟨r', h1, h2⟩ := shiftDown_ok (l := s.xs) (a := st) (by rw [hk]; exact Nat.sub_le _ _)
      rw [ha] at h1
      cases h1
      exact h2
    have hax : (a.take (240 / upFactorOf (Lc3Config.new f d).fs) ++ x).length = xsExtLen (Lc3Config.new f d) := by
      rw [List.length_append, List.length_take]; omega
    obtain ⟨y', h1, h2⟩ := @resampleAll_ok F32 (scalar el) f d _ hax (len12p8Of d) 0 (by omega)
    have h1' : @resampleAll F32 (scalar el) (Lc3Config.new f d) (a.take (240 / upFactorOf (Lc3Config.new f d).fs) ++ x) 0 (len12p8Of d) = .ok y := by
      rw [ld] at hy
      exact hy
    rw [h1'] at h1
    cases h1
    exact h2
  have hxsF : ∀ v ∈ a.take (240 / upFactorOf (Lc3Config.new f d).fs) ++ x, Small v := by
    intro v hv
    rcases List.mem_append.1 hv with hv | hv
    · exact hf.xs v (shiftDown_mem ha v (List.mem_of_mem_take hv))
    · exact hx v hv
  have hyB := resampleAll_bd (el := el) f d hxsF _ _ _ hy
  obtain ⟨hzB, hzH⟩ := highPass50_bd (el := el) hyB hf.hp
  have hz := @highPass50_length F32 (scalar el) y s.h1 s.h2
  have hbB : AllBd (2 ^ 18) b := fun v hv => hf.xt v (shiftDown_mem hb v hv)
  have hcB : AllBd (2 ^ 19) c := fun v hv => hf.x6 v (shiftDown_mem hc v hv)
  generalize hzz : @highPass50 F32 (scalar el) y s.h1 s.h2 = z at hz hzB hzH h
  obtain ⟨z, z1, z2⟩ := z
  dsimp only at hz hzB hzH h
  have hxtB : AllBd (2 ^ 18) (b.take (delayLtpfOf (Lc3Config.new f d).nMs + NMEM_12P8D) ++ z ++
      b.drop (delayLtpfOf (Lc3Config.new f d).nMs + NMEM_12P8D + len12p8Of (Lc3Config.new f d).nMs)) :=
    ((hbB.take _).append hzB).append (hbB.drop _)
  have hxt' : (b.take (delayLtpfOf (Lc3Config.new f d).nMs + NMEM_12P8D) ++ z ++
      b.drop (delayLtpfOf (Lc3Config.new f d).nMs + NMEM_12P8D + len12p8Of (Lc3Config.new f d).nMs)).length = xtExtLen (Lc3Config.new f d) := by
    rw [List.length_append, List.length_append, List.length_take, List.length_drop, ld]
    rw [ld] at l3
    omega
  generalize b.take (delayLtpfOf (Lc3Config.new f d).nMs + NMEM_12P8D) ++ z ++
      b.drop (delayLtpfOf (Lc3Config.new f d).nMs + NMEM_12P8D + len12p8Of (Lc3Config.new f d).nMs) = xt' at hxt' hxtB h
  obtain ⟨⟨t, pr, y6⟩, hpd, h⟩ := bind_ok_inv h
  obtain ⟨⟨index, p, fr⟩, hpl, h⟩ := bind_ok_inv h
  obtain ⟨⟨ac, nc, pi⟩, hac, h⟩ := bind_ok_inv h
  have ht : 17 ≤ t ∧ t ≤ 114 := by
    obtain ⟨t', pr', y', hpd', t1, t2, -⟩ := @pitchDetection_ok F32 (scalar el) (Lc3Config.new f d) s.tPrev xt' c hlo hhi (by omega) (by omega)
    have : Res.ok (t, pr, y6) = Res.ok (t', pr', y') := hpd.symm.trans hpd'
    cases this
    exact ⟨t1, t2⟩
  have hpf : p ≤ 228 ∧ 0 ≤ fr ∧ fr ≤ 3 := by
    obtain ⟨p', fr', hpl', p1, p2, f1, f2, -, -⟩ := @pitchLagParameter_ok F32 (scalar el) (Lc3Config.new f d) xt' t ht.1 ht.2 (by omega)
    have : Res.ok (index, p, fr) = Res.ok (_, p', fr') := hpl.symm.trans hpl'
    cases this
    exact ⟨p2, f1, f2⟩
  have h6 := pitchDetection_bd (el := el) hxtB hcB hpd
  obtain ⟨n1, n2⟩ := activationBit_fin he (s := ⟨s.tPrev, s.memPitch, s.memActive, s.memNc, s.memMemNc,
    a.take (240 / upFactorOf (Lc3Config.new f d).fs) ++ x, xt', y6, z1, z2⟩)
    hxtB hpf.1 hpf.2.1 hpf.2.2 hac
  have hz0 : IsFin (@Scalar.zero F32 (scalar el)) := by rw [zero_eq]; exact ⟨0, rfl⟩
  simp only [Res.ok.injEq, Prod.mk.injEq] at h
  rw [← h.1]
  refine ⟨hxsF, hxtB, h6, hzH, ?_, ?_, hf.nc⟩
  · dsimp only
    split
    · exact n2
    · exact hz0
  · dsimp only
    split
    · exact n1
    · exact hz0

end Lc3.F32
