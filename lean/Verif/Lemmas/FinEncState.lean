import Verif.Lemmas.FinEncAct
import Verif.Model.Encoder
/-! Sizes in binary32: the attack detector, the bit offset of the quantiser, and a channel of the encoder. -/

namespace Lc3.F32
open Scalar Tables

variable {el : Elem}

/-! ## attack detector -/

theorem foldl_small : ∀ (l : List ℤ) (s B : ℤ), (∀ v ∈ l, Small v) → |s| ≤ B → |l.foldl (· + ·) s| ≤ B + l.length * 32768
  | [], s, B, _, h => by simpa using h
  | v :: l, s, B, hl, h => by
    have hv : |v| ≤ 32768 := hl v (List.mem_cons_self ..)
    have := foldl_small l (s + v) (B + 32768) (fun w hw => hl w (List.mem_cons_of_mem _ hw)) ((abs_add_le _ _).trans (add_le_add h hv))
    rw [List.foldl_cons, List.length_cons]
    push_cast
    linarith

theorem attackDownsample_bd {bl : ℕ} (hbl : bl ≤ 3) {x : List ℤ} (hx : ∀ v ∈ x, Small v) : ∀ (n i : ℕ) (r : List ℤ),
    attackDownsample bl x i n = .ok r → ∀ v ∈ r, |v| ≤ 98304
  | 0, i, r, e => by
    simp only [attackDownsample, Res.ok.injEq] at e
    subst e
    intro v hv
    cases hv
  | n + 1, i, r, e => by
    simp only [attackDownsample] at e
    split at e
    · obtain ⟨l, el, e⟩ := bind_ok_inv e
      simp only [Res.ok.injEq] at e
      subst e
      intro v hv
      rcases List.mem_cons.1 hv with rfl | hv
      · have h := foldl_small ((x.drop (bl * i)).take bl) 0 0
          (fun w hw => hx w (List.mem_of_mem_drop (List.mem_of_mem_take hw))) (by norm_num)
        have hl : ((x.drop (bl * i)).take bl).length ≤ 3 := (List.length_take_le _ _).trans hbl
        refine h.trans ?_
        have : (((x.drop (bl * i)).take bl).length : ℤ) ≤ 3 := by exact_mod_cast hl
        linarith
      · exact attackDownsample_bd hbl hx n (i + 1) l el v hv
    · cases e

theorem bd_block {v : ℤ} (h : |v| ≤ 98304) : Bd 98304 (@Scalar.ofInt F32 (scalar el) v) := by
  refine (bd_int (lt_of_le_of_lt h (by norm_num))).mono ?_
  exact_mod_cast h

theorem attack_tap {q : ℚ} {v : ℤ} (h0 : 0 ≤ q) (hq : q ≤ 1 / 2) (hv : |v| ≤ 98304) :
    Bd 50000 (F32.mul (rnd q) (@Scalar.ofInt F32 (scalar el) v)) := by
  have h0' : (0 : ℝ) ≤ q := by exact_mod_cast h0
  have hq' : (q : ℝ) ≤ 1 / 2 := by
    have : (q : ℝ) ≤ ((1 / 2 : ℚ) : ℝ) := by exact_mod_cast hq
    push_cast at this
    exact this
  have b : Bd (501 / 1000) (rnd q) := bd_rat (by rw [abs_of_nonneg h0']; norm_num; linarith) (by rw [abs_of_nonneg h0']; norm_num; linarith)
  exact (b.mul (bd_block (el := el) hv) (by norm_num) (by norm_num)).mono (by norm_num)

theorem attackFilter_bd : ∀ (l : List ℤ) (t1 t2 : ℤ), |t1| ≤ 98304 → |t2| ≤ 98304 → (∀ v ∈ l, |v| ≤ 98304) →
    AllBd (2 ^ 18) (@attackFilter F32 (scalar el) t1 t2 l)
  | [], _, _, _, _, _ => by
    simp only [attackFilter]
    exact .nil
  | x :: xs, t1, t2, h1, h2, hl => by
    letI := scalar el
    simp only [attackFilter]
    have hx := hl x (List.mem_cons_self ..)
    refine .cons ?_ (attackFilter_bd xs x t1 hx h1 fun v hv => hl v (List.mem_cons_of_mem _ hv))
    have b1 := attack_tap (el := el) (q := 3 / 8) (by norm_num) (by norm_num) hx
    have b2 := attack_tap (el := el) (q := 1 / 2) (by norm_num) (by norm_num) h1
    have b3 := attack_tap (el := el) (q := 1 / 8) (by norm_num) (by norm_num) h2
    exact ((b1.sub b2 (by norm_num) (by norm_num)).add b3 (by norm_num) (by norm_num)).mono (by norm_num)

theorem energy_bd : ∀ (l : List F32) (s : F32) (A : ℝ), AllBd (2 ^ 18) l → Bd A s → 0 ≤ A → A + l.length * 2 ^ 37 ≤ 2 ^ 50 →
    Bd (A + l.length * 2 ^ 37) (l.foldl (fun e h => F32.add e (F32.mul h h)) s)
  | [], s, A, _, hs, _, _ => by simpa using hs
  | h :: l, s, A, hl, hs, hA, hb => by
    rw [List.foldl_cons, List.length_cons, Nat.cast_succ] at *
    have hh := hl h (List.mem_cons_self ..)
    have hn : (0 : ℝ) ≤ (l.length : ℝ) := Nat.cast_nonneg _
    have hA2 : A ≤ 2 ^ 50 := by
      norm_num at hb ⊢
      linarith
    have m := hh.mul hh (by norm_num) (by norm_num)
    have b : Bd (A + 2 ^ 37) (F32.add s (F32.mul h h)) :=
      (hs.add m (by norm_num; linarith) (by norm_num at hA2 ⊢; linarith)).mono (by norm_num at hA2 ⊢; linarith)
    exact (energy_bd l _ _ (fun a ha => hl a (List.mem_cons_of_mem _ ha)) b (by positivity) (by linarith)).mono (by linarith)

theorem Bd.max {B : ℝ} {a b : F32} (ha : Bd B a) (hb : Bd B b) : Bd B (maxF a b) := by
  obtain ⟨⟨p, rfl⟩, h1⟩ := ha
  obtain ⟨⟨q, rfl⟩, h2⟩ := hb
  show Bd B (if F32.lt (fin p) (fin q) then fin q else fin p)
  split
  · exact ⟨⟨q, rfl⟩, h2⟩
  · exact ⟨⟨p, rfl⟩, h1⟩

theorem attackBlocks_bd {hp : List F32} (h : AllBd (2 ^ 18) hp) : ∀ (k n : ℕ) (e m : F32) (pos : ℤ), Bd (2 ^ 50) e → Bd (2 ^ 50) m →
    Bd (2 ^ 50) (@attackBlocks F32 (scalar el) hp n k (e, m, pos)).1 ∧ Bd (2 ^ 50) (@attackBlocks F32 (scalar el) hp n k (e, m, pos)).2.1
  | 0, _, _, _, _, h1, h2 => ⟨h1, h2⟩
  | k + 1, n, e, m, pos, h1, h2 => by
    letI := scalar el
    simp only [attackBlocks]
    refine attackBlocks_bd h k (n + 1) _ _ _ ?_ ?_
    · have hl : ((hp.drop (40 * n)).take 40).length ≤ 40 := List.length_take_le _ _
      have hl' : (((hp.drop (40 * n)).take 40).length : ℝ) ≤ 40 := by exact_mod_cast hl
      have hb : (0 : ℝ) + ((hp.drop (40 * n)).take 40).length * 2 ^ 37 ≤ 2 ^ 50 := by
        have := mul_le_mul_of_nonneg_right hl' (show (0 : ℝ) ≤ 2 ^ 37 by norm_num)
        rw [zero_add]
        exact this.trans (by norm_num)
      have hz : Bd 0 (@Scalar.zero F32 (scalar el)) := by rw [zero_eq]; exact bd_zero (le_refl _)
      exact (energy_bd _ _ 0 ((h.drop _).take _) hz (le_refl _) hb).mono hb
    · have b : Bd (26 / 100) (rnd (1 / 4)) := bd_rat (by norm_num) (by norm_num)
      exact Bd.max ((b.mul h2 (by norm_num) (by norm_num)).mono (by norm_num)) h1

/-- the sizes of what the attack detector keeps -/
structure AttackFin (s : AttackSt F32) : Prop where
  energy : Bd (2 ^ 50) s.energyLast
  maxEnergy : Bd (2 ^ 50) s.maxEnergyLast
  t1 : |s.tminus1| ≤ 98304
  t2 : |s.tminus2| ≤ 98304

theorem attackRun_fin (f : SamplingFrequency) (d : FrameDuration) {s s' : AttackSt F32} (hs : AttackFin s) {x : List ℤ}
    (hx : ∀ v ∈ x, Small v) {nbytes : ℕ} {det : Bool} (h : @attackRun F32 (scalar el) (Lc3Config.new f d) s x nbytes = .ok (s', det)) :
    AttackFin s' := by
  letI := scalar el
  have hz : Bd (2 ^ 50) (@Scalar.zero F32 (scalar el)) := by rw [zero_eq]; exact bd_zero (by norm_num)
  have hbl : (Lc3Config.new f d).nf / (attackDims (Lc3Config.new f d).nMs).1 ≤ 3 := by cases f <;> cases d <;> decide
  unfold attackRun at h
  split at h
  · cases h
  split at h
  · simp only [Res.ok.injEq, Prod.mk.injEq] at h
    rw [← h.1]
    exact ⟨hz, hz, hs.t1, hs.t2⟩
  · obtain ⟨ds, e1, h⟩ := bind_ok_inv h
    obtain ⟨i1, e2, h⟩ := bind_ok_inv h
    obtain ⟨i2, e3, h⟩ := bind_ok_inv h
    obtain ⟨t1, e4, h⟩ := bind_ok_inv h
    obtain ⟨t2, e5, h⟩ := bind_ok_inv h
    simp only [Res.ok.injEq, Prod.mk.injEq] at h
    have hd := attackDownsample_bd hbl hx _ _ _ e1
    have hf := attackFilter_bd (el := el) ds s.tminus1 s.tminus2 hs.t1 hs.t2 hd
    obtain ⟨b1, b2⟩ := attackBlocks_bd (el := el) hf (attackDims (Lc3Config.new f d).nMs).2.1 0 s.energyLast s.maxEnergyLast (-1) hs.energy hs.maxEnergy
    rw [← h.1]
    exact ⟨b1, b2, hd _ (idx_mem e4), hd _ (idx_mem e5)⟩

/-! ## the bit offset -/

theorem clamp_bd (x : F32) : Bd 40 (minF (fin 40) (maxF (fin (-40)) x)) := by
  have h40 : Bd 40 (fin 40) := ⟨⟨40, rfl⟩, by show |((40 : ℚ) : ℝ)| ≤ 40; norm_num⟩
  have hm40 : Bd 40 (fin (-40)) := ⟨⟨-40, rfl⟩, by show |((-40 : ℚ) : ℝ)| ≤ 40; norm_num⟩
  cases x with
  | nan =>
    show Bd 40 (if decide ((-40 : ℚ) < 40) then fin (-40) else fin 40)
    rw [if_pos (by norm_num)]
    exact hm40
  | inf s =>
    cases s
    · exact h40
    · show Bd 40 (if decide ((-40 : ℚ) < 40) then fin (-40) else fin 40)
      rw [if_pos (by norm_num)]
      exact hm40
  | fin q =>
    have e : maxF (fin (-40)) (fin q) = fin (Max.max (-40) q) := by
      show (if decide (-40 < q) then fin q else fin (-40)) = _
      by_cases h : -40 < q
      · rw [if_pos (by simpa using h), max_eq_right h.le]
      · rw [if_neg (by simpa using h), max_eq_left (not_lt.1 h)]
    rw [e]
    show Bd 40 (if decide (Max.max (-40) q < 40) then fin (Max.max (-40) q) else fin 40)
    by_cases h : Max.max (-40) q < 40
    · rw [if_pos (by simpa using h)]
      refine ⟨⟨_, rfl⟩, ?_⟩
      rw [val_fin, abs_le]
      have h1 : (-40 : ℚ) ≤ Max.max (-40) q := le_max_left _ _
      constructor
      · exact_mod_cast h1
      · exact_mod_cast h.le
    · rw [if_neg (by simpa using h)]
      exact h40

theorem nbitsOffset_bd {s : QuantSt F32} (h : Bd 41 s.nbitsOffsetOld) : Bd 41 (@nbitsOffset F32 (scalar el) s) := by
  letI := scalar el
  unfold nbitsOffset
  split
  · rw [zero_eq]; exact bd_zero (by norm_num)
  · have e40 : rnd 40 = fin 40 := by
      have := rnd_int24 (s := 40) (by norm_num)
      simpa using this
    have em40 : rnd (-40) = fin (-40) := by
      have := rnd_int24 (s := -40) (by norm_num)
      simpa using this
    have c := clamp_bd (F32.sub (F32.add s.nbitsOffsetOld (@Scalar.ofInt F32 (scalar el) s.nbitsSpecOld)) (@Scalar.ofInt F32 (scalar el) s.nbitsEstOld))
    rw [← e40, ← em40] at c
    have b1 : Bd (8001 / 10000) (rnd (4 / 5)) := bd_rat (by norm_num) (by norm_num)
    have b2 : Bd (2001 / 10000) (rnd (1 / 5)) := bd_rat (by norm_num) (by norm_num)
    exact ((b1.mul h (by norm_num) (by norm_num)).add (b2.mul c (by norm_num) (by norm_num)) (by norm_num) (by norm_num)).mono (by norm_num)

theorem quantRun_fin {ne fsInd : ℕ} {s s' : QuantSt F32} {xf : List F32} {nbits b1 b2 b3 : ℕ} {o : QuantOut F32} (hs : Bd 41 s.nbitsOffsetOld)
    (h : @quantRun F32 (scalar el) ne fsInd s xf nbits b1 b2 b3 = .ok (s', o)) : Bd 41 s'.nbitsOffsetOld := by
  letI := scalar el
  unfold quantRun at h
  split at h
  · cases h
  obtain ⟨sp, e1, h⟩ := bind_ok_inv h
  dsimp only at h
  split at h
  · cases h
  obtain ⟨⟨reset, gm, gi⟩, e2, h⟩ := bind_ok_inv h
  obtain ⟨q, e3, h⟩ := bind_ok_inv h
  obtain ⟨gi', e4, h⟩ := bind_ok_inv h
  obtain ⟨q', e5, h⟩ := bind_ok_inv h
  simp only [Res.ok.injEq, Prod.mk.injEq] at h
  rw [← h.1]
  exact nbitsOffset_bd (el := el) hs

/-! ## a channel -/

/-- the sizes of what a channel keeps -/
structure EncChFin (f : SamplingFrequency) (d : FrameDuration) (ch : EncChannel F32) : Prop where
  attack : AttackFin ch.attack
  inv : ch.ltpf.Inv (Lc3Config.new f d)
  ltpf : EncLtpfFin ch.ltpf
  quant : Bd 41 ch.quant.nbitsOffsetOld

theorem encLtpf_run_inv (f : SamplingFrequency) (d : FrameDuration) {s s' : EncLtpf F32} {r : EncLtpfResult}
    (hs : s.Inv (Lc3Config.new f d)) {x : List ℤ} {nn : Bool} {nbits : ℕ}
    (h : @EncLtpf.run F32 (scalar el) (Lc3Config.new f d) s x nn nbits = .ok (s', r)) : s'.Inv (Lc3Config.new f d) := by
  letI := scalar el
  have hx : x.length = (Lc3Config.new f d).nf := by
    by_contra hne
    unfold EncLtpf.run at h
    rw [if_pos hne] at h
    cases h
  obtain ⟨s1, r1, e, hi, -⟩ := @C41_run F32 (scalar el) f d s hs x hx nn nbits
  have : Res.ok (s', r) = Res.ok (s1, r1) := h.symm.trans e
  cases this
  exact hi

theorem encodeChannel_fin (he : Accurate el) {f : SamplingFrequency} {d : FrameDuration} {ch ch' : EncChannel F32} (hc : EncChFin f d ch)
    {x : List ℤ} (hx : ∀ v ∈ x, Small v) {buf buf' : List ℕ}
    (h : @encodeChannel F32 (scalar el) (Lc3Config.new f d) ch x buf = .ok (ch', buf')) : EncChFin f d ch' := by
  letI := scalar el
  unfold encodeChannel at h
  obtain ⟨a, e1, h⟩ := bind_ok_inv h
  obtain ⟨bits, e2, h⟩ := bind_ok_inv h
  simp only [Res.ok.injEq, Prod.mk.injEq] at h
  rw [← h.1]
  unfold encAnalyse at e1
  dsimp only at e1
  split at e1
  · cases e1
  obtain ⟨⟨freq, out, eb, nn⟩, g1, e1⟩ := bind_ok_inv e1
  dsimp only at e1
  split at e1
  · cases e1
  obtain ⟨⟨bwInd, nbitsBw⟩, g2, e1⟩ := bind_ok_inv e1
  obtain ⟨⟨attack, det⟩, g3, e1⟩ := bind_ok_inv e1
  obtain ⟨sns, g4, e1⟩ := bind_ok_inv e1
  obtain ⟨tns, g5, e1⟩ := bind_ok_inv e1
  obtain ⟨⟨ltpf, pf⟩, g6, e1⟩ := bind_ok_inv e1
  dsimp only at e1
  split at e1
  · cases e1
  obtain ⟨⟨quant, spec⟩, g7, e1⟩ := bind_ok_inv e1
  obtain ⟨res, g8, e1⟩ := bind_ok_inv e1
  obtain ⟨nf, g9, e1⟩ := bind_ok_inv e1
  simp only [Res.ok.injEq] at e1
  subst e1
  exact ⟨attackRun_fin f d hc.attack hx g3, encLtpf_run_inv f d hc.inv g6, encLtpf_run_fin he f d hc.inv hc.ltpf hx g6, quantRun_fin hc.quant g7⟩

theorem splitAt_mem {β : Type} {l a b : List β} {n : ℕ} (h : splitAt l n = .ok (a, b)) : (∀ v ∈ a, v ∈ l) ∧ (∀ v ∈ b, v ∈ l) := by
  unfold splitAt at h
  split at h
  · simp only [Res.ok.injEq, Prod.mk.injEq] at h
    obtain ⟨rfl, rfl⟩ := h
    exact ⟨fun v hv => List.mem_of_mem_take hv, fun v hv => List.mem_of_mem_drop hv⟩
  · cases h

theorem encLtpf_new_fin {cfg : Lc3Config} {sb sb' : List F32} {ib ib' : List ℤ} {s : EncLtpf F32} (hsb : AllBd (2 ^ 18) sb) (hib : ∀ v ∈ ib, Small v)
    (h : @EncLtpf.new F32 (scalar el) cfg sb ib = .ok (s, sb', ib')) :
    s.Inv cfg ∧ EncLtpfFin s ∧ AllBd (2 ^ 18) sb' ∧ ∀ v ∈ ib', Small v := by
  letI := scalar el
  have hinv : s.Inv cfg := by
    by_cases hb : xsExtLen cfg ≤ ib.length ∧ xtExtLen cfg + x6ExtLen ≤ sb.length
    · obtain ⟨s1, e, hi⟩ := (@C41_new F32 (scalar el) cfg sb ib).1 hb
      have : Res.ok (s, sb', ib') = Res.ok (s1, _, _) := h.symm.trans e
      cases this
      exact hi
    · have e := (@C41_new F32 (scalar el) cfg sb ib).2 hb
      have : Res.ok (s, sb', ib') = Res.panic := h.symm.trans e
      cases this
  refine ⟨hinv, ?_⟩
  unfold EncLtpf.new at h
  obtain ⟨⟨xs, i1⟩, e1, h⟩ := bind_ok_inv h
  obtain ⟨⟨xt, s1⟩, e2, h⟩ := bind_ok_inv h
  obtain ⟨⟨x6, s2⟩, e3, h⟩ := bind_ok_inv h
  simp only [Res.ok.injEq, Prod.mk.injEq] at h
  obtain ⟨rfl, rfl, rfl⟩ := h
  obtain ⟨a1, a2⟩ := splitAt_mem e1
  obtain ⟨b1, b2⟩ := splitAt_mem e2
  obtain ⟨c1, c2⟩ := splitAt_mem e3
  have hz0 : IsFin (@Scalar.zero F32 (scalar el)) := by rw [zero_eq]; exact ⟨0, rfl⟩
  have hz1 : HpOk (@Scalar.zero F32 (scalar el)) (@Scalar.zero F32 (scalar el)) := by rw [zero_eq]; exact hpOk_zero
  exact ⟨⟨fun v hv => hib v (a1 v hv), fun v hv => hsb v (b1 v hv), fun v hv => (hsb v (b2 v (c1 v hv))).mono (by norm_num), hz1, hz0, hz0, hz0⟩,
    fun v hv => hsb v (b2 v (c2 v hv)), fun v hv => hib v (a2 v hv)⟩

theorem encChannelNew_fin {f : SamplingFrequency} {d : FrameDuration} {ib ib' : List ℤ} {sb sb' : List F32} {cb cb' : List (Cx F32)}
    {ch : EncChannel F32} (hsb : AllBd (2 ^ 18) sb) (hib : ∀ v ∈ ib, Small v)
    (h : @encChannelNew F32 (scalar el) (Lc3Config.new f d) ib sb cb = .ok (ch, ib', sb', cb')) :
    EncChFin f d ch ∧ AllBd (2 ^ 18) sb' ∧ ∀ v ∈ ib', Small v := by
  letI := scalar el
  unfold encChannelNew mdctEncNew at h
  obtain ⟨⟨freq, i1, c1⟩, e1, h⟩ := bind_ok_inv h
  obtain ⟨⟨freq', i1'⟩, e11, e1⟩ := bind_ok_inv e1
  obtain ⟨c2, e12, e1⟩ := bind_ok_inv e1
  obtain ⟨w1, e13, e1⟩ := bind_ok_inv e1
  obtain ⟨w2, e14, e1⟩ := bind_ok_inv e1
  simp only [Res.ok.injEq, Prod.mk.injEq] at e1
  obtain ⟨rfl, rfl, rfl⟩ := e1
  obtain ⟨bw, e2, h⟩ := bind_ok_inv h
  obtain ⟨⟨ltpf, s1, i2⟩, e3, h⟩ := bind_ok_inv h
  obtain ⟨⟨out, s2⟩, e4, h⟩ := bind_ok_inv h
  obtain ⟨⟨eb, s3⟩, e5, h⟩ := bind_ok_inv h
  obtain ⟨⟨xq, i3⟩, e6, h⟩ := bind_ok_inv h
  simp only [Res.ok.injEq, Prod.mk.injEq] at h
  obtain ⟨rfl, rfl, rfl, -⟩ := h
  have hi1 : ∀ v ∈ i1', Small v := fun v hv => hib v ((splitAt_mem e11).2 v hv)
  obtain ⟨k1, k2, k3, k4⟩ := encLtpf_new_fin (el := el) hsb hi1 e3
  have hz : ∀ {B : ℝ}, 0 ≤ B → Bd B (@Scalar.zero F32 (scalar el)) := fun hB => by rw [zero_eq]; exact bd_zero hB
  exact ⟨⟨⟨hz (by norm_num), hz (by norm_num), by show |(0 : ℤ)| ≤ _; norm_num, by show |(0 : ℤ)| ≤ _; norm_num⟩, k1, k2, hz (by norm_num)⟩,
    fun v hv => k3 v ((splitAt_mem e4).2 v ((splitAt_mem e5).2 v hv)), fun v hv => k4 v ((splitAt_mem e6).2 v hv)⟩

theorem encChannelsNew_fin {f : SamplingFrequency} {d : FrameDuration} : ∀ (n : ℕ) {ib ib' : List ℤ} {sb sb' : List F32} {cb cb' : List (Cx F32)}
    {chs : List (EncChannel F32)}, AllBd (2 ^ 18) sb → (∀ v ∈ ib, Small v) →
    @encChannelsNew F32 (scalar el) (Lc3Config.new f d) n ib sb cb = .ok (chs, ib', sb', cb') → ∀ ch ∈ chs, EncChFin f d ch
  | 0, ib, ib', sb, sb', cb, cb', chs, _, _, h => by
    simp only [encChannelsNew, Res.ok.injEq, Prod.mk.injEq] at h
    rw [← h.1]
    intro ch hch
    cases hch
  | n + 1, ib, ib', sb, sb', cb, cb', chs, hsb, hib, h => by
    letI := scalar el
    simp only [encChannelsNew] at h
    obtain ⟨⟨ch, i1, s1, c1⟩, e1, h⟩ := bind_ok_inv h
    obtain ⟨⟨chs', i2, s2, c2⟩, e2, h⟩ := bind_ok_inv h
    simp only [Res.ok.injEq, Prod.mk.injEq] at h
    rw [← h.1]
    obtain ⟨k1, k2, k3⟩ := encChannelNew_fin (el := el) hsb hib e1
    intro c hc
    rcases List.mem_cons.1 hc with rfl | hc
    · exact k1
    · exact encChannelsNew_fin n k2 k3 e2 c hc

end Lc3.F32
