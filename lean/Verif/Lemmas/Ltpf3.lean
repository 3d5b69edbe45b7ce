import Verif.Lemmas.Ltpf2
/-! Frames and frame sequences of the post filter. -/

namespace Lc3
open Scalar Tables Spec
variable {α : Type} [Scalar α]

theorem ltpf_dims (f : SamplingFrequency) (d : FrameDuration) :
    FilterDims (ringSize (Lc3Config.new f d)) (Lc3Config.new f d).nf (ltpfNorm (Lc3Config.new f d))
      (lDenOf (Lc3Config.new f d).fs) := by
  cases f <;> cases d <;> exact ⟨by decide, by decide, by decide, by decide, by decide⟩

theorem ltpf_samples (f : SamplingFrequency) (d : FrameDuration) :
    samples2p5 (Lc3Config.new f d).fs = ltpfNorm (Lc3Config.new f d) := by
  cases f <;> cases d <;> decide

theorem pitchLagDec_ok {i : Nat} (h : i < 512) : ∃ p fr, pitchLagDec i = .ok (p, fr) ∧ 4 * p + fr = lagQuarters i ∧
    fr < 4 ∧ 128 ≤ lagQuarters i ∧ lagQuarters i ≤ 912 := by
  unfold pitchLagDec lagQuarters usub
  by_cases h1 : i ≥ 440
  · rw [if_pos h1, if_pos (by omega)]
    exact ⟨_, _, rfl, by rw [if_neg (by omega), if_neg (by omega)]; omega, by omega,
      by rw [if_neg (by omega), if_neg (by omega)]; omega, by rw [if_neg (by omega), if_neg (by omega)]; omega⟩
  · rw [if_neg h1]
    by_cases h2 : i ≥ 380
    · rw [if_pos h2, if_pos (by omega)]
      simp only [Res.bind_ok]
      rw [if_pos (by omega)]
      simp only [Res.bind_ok]
      rw [if_pos (by omega)]
      simp only [Res.bind_ok]
      exact ⟨_, _, rfl, by rw [if_neg (by omega), if_pos (by omega)]; omega, by omega,
        by rw [if_neg (by omega), if_pos (by omega)]; omega, by rw [if_neg (by omega), if_pos (by omega)]; omega⟩
    · rw [if_neg h2, if_pos (by omega : i < 380)]
      simp only
      rw [if_pos (by omega)]
      simp only [Res.bind_ok]
      exact ⟨_, _, rfl, by omega, by omega, by omega, by omega⟩

theorem ltpfParams_ok {f : SamplingFrequency} {d : FrameDuration} {info : LtpfInfo} (h : info.pitchIndex < 512)
    (nbits : Nat) :
    ltpfParams (Lc3Config.new f d) info =
      .ok ((settingOf f d info nbits : Setting α).pitch, (settingOf f d info nbits : Setting α).pitchFr) := by
  unfold ltpfParams settingOf
  cases ha : info.isActive
  · simp
  · simp only [Bool.not_true, Bool.false_eq_true, if_false, if_true]
    obtain ⟨p, fr, e, h1, h2, h3, h4⟩ := pitchLagDec_ok h
    rw [e]
    simp only [Res.bind_ok]
    have : pitchUp (Lc3Config.new f d).fs p fr = lagOut f info.pitchIndex := by
      unfold pitchUp lagOut
      rw [h1]
      have key : ∀ c q : Nat, (5 * c * q + 4) / 8 = (q * c * 5 + 4) / 8 := by
        intro c q; congr 2; ring
      rw [key]
      cases f <;> cases d <;> rfl
    rw [this]
    congr 2
    omega

theorem settingOf_lag {f : SamplingFrequency} {d : FrameDuration} {info : LtpfInfo} (h : info.pitchIndex < 512)
    {nbits : Nat} (ha : (settingOf f d info nbits : Setting α).active = true) :
    LagOk (ringSize (Lc3Config.new f d)) (lDenOf (Lc3Config.new f d).fs) (settingOf f d info nbits : Setting α).pitch := by
  obtain ⟨p, fr, e, h1, h2, h3, h4⟩ := pitchLagDec_ok h
  unfold settingOf at ha ⊢
  cases hi : info.isActive
  · simp [hi] at ha
  · simp only [if_true]
    have hlag : lagOut f info.pitchIndex = (lagQuarters info.pitchIndex * (fsCeil (Lc3Config.new f d).fs) * 5 + 4) / 8 := by
      unfold lagOut
      cases f <;> cases d <;> rfl
    rw [hlag]
    unfold LagOk
    generalize lagQuarters info.pitchIndex = q at *
    have key : ∀ (ring lDen c : Nat), lDen / 2 < (128 * c * 5 + 4) / 8 / 4 → (912 * c * 5 + 4) / 8 / 4 + lDen ≤ ring →
        lDen / 2 < (q * c * 5 + 4) / 8 / 4 ∧ (q * c * 5 + 4) / 8 / 4 + lDen ≤ ring := by
      intro ring lDen c k1 k2
      have a1 : 128 * c ≤ q * c := Nat.mul_le_mul_right _ h3
      have a2 : q * c ≤ 912 * c := Nat.mul_le_mul_right _ h4
      omega
    cases f <;> cases d <;> exact key _ _ _ (by decide) (by decide)

theorem gainOf_eq (f : SamplingFrequency) (d : FrameDuration) (nbits : Nat) :
    ltpfGainParams (Lc3Config.new f d) nbits = gainOf d (Lc3Config.new f d).fsInd nbits := by
  unfold ltpfGainParams gainOf ltpfTNbits
  have : (Lc3Config.new f d).nMs = d := by cases f <;> cases d <;> rfl
  simp only [this, Nat.mul_comm 80]
  cases d <;> rfl

theorem gainOf_lt (d : FrameDuration) (k nbits : Nat) : (gainOf d k nbits).2 < 4 := by
  unfold gainOf
  simp only
  repeat' split
  all_goals simp

/-- shapes of the coefficient tables -/
theorem ltpf_tables_shape (f : SamplingFrequency) : (Spec.tables f).1.length = 4 ∧ (Spec.tables f).2.1.length = 4 ∧
    (∀ r ∈ (Spec.tables f).1, (Spec.tables f).2.2 - 2 ≤ r.length) ∧ (∀ r ∈ (Spec.tables f).2.1, (Spec.tables f).2.2 ≤ r.length) := by
  cases f <;> exact ⟨by decide +kernel, by decide +kernel, by decide +kernel, by decide +kernel⟩

theorem ltpfTables_eq {f : SamplingFrequency} {d : FrameDuration} {gi fr : Nat} (hg : gi < 4) (hf : fr < 4) :
    ltpfTables (Lc3Config.new f d).fs gi fr = .ok ((Spec.tables f).1.getD gi [], (Spec.tables f).2.1.getD fr []) := by
  obtain ⟨h1, h2, -, -⟩ := ltpf_tables_shape f
  unfold ltpfTables
  have hfin : ∀ (tn td : List (List Rat)), tn.length = 4 → td.length = 4 →
      (do let n ← idx tn gi; let d ← idx td fr; Res.ok (n, d)) = .ok (tn.getD gi [], td.getD fr []) := by
    intro tn td e1 e2
    rw [idx_eq_ok (by omega : gi < tn.length), idx_eq_ok (by omega : fr < td.length)]
    simp only [Res.bind_ok]
    rw [List.getD_eq_getElem _ _ (by omega : gi < tn.length), List.getD_eq_getElem _ _ (by omega : fr < td.length)]
  cases f <;> cases d <;> exact hfin _ _ h1 h2

theorem zipInto_eq {β : Type} [Scalar β] {old new : List β} (h : old.length ≤ new.length) :
    zipInto old new = new.take old.length := by
  unfold zipInto
  rw [List.drop_eq_nil_of_le h, List.append_nil]

theorem taps_eq (f : SamplingFrequency) (d : FrameDuration) :
    (Spec.tables f).2.2 = lDenOf (Lc3Config.new f d).fs + 1 := by
  cases f <;> cases d <;> decide +kernel

theorem ltpfCoeffs_ok {f : SamplingFrequency} {d : FrameDuration} {s : Ltpf α} {info : LtpfInfo} {nbits : Nat}
    (hcn : s.cNum.length = lDenOf (Lc3Config.new f d).fs - 1) (hcd : s.cDen.length = lDenOf (Lc3Config.new f d).fs + 1) :
    ltpfCoeffs (Lc3Config.new f d) s info nbits (settingOf f d info nbits : Setting α).pitchFr =
      .ok ((settingOf f d info nbits : Setting α).cNum, (settingOf f d info nbits : Setting α).cDen) := by
  have ht := taps_eq f d
  obtain ⟨h1, h2, h3, h4⟩ := ltpf_tables_shape f
  have hd4 := (ltpf_dims f d).two
  unfold ltpfCoeffs settingOf
  cases ha : info.isActive
  · simp only [Bool.not_false, if_true, Bool.false_eq_true, if_false]
    rw [hcn, hcd, ht]; congr 3
  · simp only [Bool.not_true, Bool.false_eq_true, if_false, if_true]
    rw [gainOf_eq]
    have hg := gainOf_lt d (Lc3Config.new f d).fsInd nbits
    have hfr : lagOut f info.pitchIndex % 4 < 4 := Nat.mod_lt _ (by omega)
    rw [ltpfTables_eq hg hfr]
    simp only [Res.bind_ok]
    have r1 := h3 ((Spec.tables f).1.getD (gainOf d (Lc3Config.new f d).fsInd nbits).2 []) (by
      rw [List.getD_eq_getElem _ _ (by omega)]; exact List.getElem_mem _)
    have r2 := h4 ((Spec.tables f).2.1.getD (lagOut f info.pitchIndex % 4) []) (by
      rw [List.getD_eq_getElem _ _ (by omega)]; exact List.getElem_mem _)
    rw [zipInto_eq (by rw [List.length_map]; omega), zipInto_eq (by rw [List.length_map]; omega), hcn, hcd,
      ← List.map_take, ← List.map_take, ht]
    congr 3

theorem settingOf_lengths {f : SamplingFrequency} {d : FrameDuration} {info : LtpfInfo} {nbits : Nat} :
    (settingOf f d info nbits : Setting α).cNum.length = lDenOf (Lc3Config.new f d).fs - 1 ∧
    (settingOf f d info nbits : Setting α).cDen.length = lDenOf (Lc3Config.new f d).fs + 1 := by
  have ht := taps_eq f d
  obtain ⟨h1, h2, h3, h4⟩ := ltpf_tables_shape f
  have hd4 := (ltpf_dims f d).two
  unfold settingOf
  cases ha : info.isActive
  · simp only [Bool.false_eq_true, if_false, List.length_replicate]
    rw [ht]; omega
  · simp only [if_true, List.length_map, List.length_take]
    have hg := gainOf_lt d (Lc3Config.new f d).fsInd nbits
    have hfr : lagOut f info.pitchIndex % 4 < 4 := Nat.mod_lt _ (by omega)
    have r1 := h3 ((Spec.tables f).1.getD (gainOf d (Lc3Config.new f d).fsInd nbits).2 []) (by
      rw [List.getD_eq_getElem _ _ (by omega)]; exact List.getElem_mem _)
    have r2 := h4 ((Spec.tables f).2.1.getD (lagOut f info.pitchIndex % 4) []) (by
      rw [List.getD_eq_getElem _ _ (by omega)]; exact List.getElem_mem _)
    exact ⟨(Nat.min_eq_left r1).trans (by omega), (Nat.min_eq_left r2).trans ht⟩

theorem settingOf_active {f : SamplingFrequency} {d : FrameDuration} {info : LtpfInfo} {nbits : Nat} :
    (settingOf f d info nbits : Setting α).active = info.isActive := by
  unfold settingOf
  cases info.isActive <;> simp

/-- the state represents the input `x` and the output `y` up to time `T` -/
structure LtpfRel (f : SamplingFrequency) (d : FrameDuration) (s : Ltpf α) (T : Int) (x y : Int → α) : Prop where
  cn : s.cNum.length = lDenOf (Lc3Config.new f d).fs - 1
  cd : s.cDen.length = lDenOf (Lc3Config.new f d).fs + 1
  base : (ringSize (Lc3Config.new f d) : Int) ∣ T - s.blockStart
  blkDvd : (Lc3Config.new f d).nf ∣ s.blockStart
  blk : s.blockStart + (Lc3Config.new f d).nf ≤ ringSize (Lc3Config.new f d)
  rx : Ring s.xMem (ringSize (Lc3Config.new f d)) x (T - ringSize (Lc3Config.new f d)) T
  ry : Ring s.yMem (ringSize (Lc3Config.new f d)) y (T - ringSize (Lc3Config.new f d)) T
  lag : s.activePrev = true → LagOk (ringSize (Lc3Config.new f d)) (lDenOf (Lc3Config.new f d).fs) s.pIntMem

theorem ring_append {ring nf : Nat} {xMem fr : List α} {x : Int → α} {B : Int} (hB : (ring : Int) ∣ B) {blk : Nat}
    (hblk : blk + nf ≤ ring) (hfr : fr.length = nf) (rx : Ring xMem ring x (B + blk - ring) (B + blk)) :
    Ring (xMem.take blk ++ fr ++ xMem.drop (blk + nf)) ring (appendFrame x (B + blk) fr)
      (B + blk + nf - ring) (B + blk + nf) := by
  have hl := rx.1
  refine ⟨by simp; omega, ?_⟩
  intro t h1 h2
  obtain ⟨i, hi⟩ : ∃ i : Int, t = B + i := ⟨t - B, by ring⟩
  subst hi
  rw [ring_emod hB (by omega) (by omega)]
  unfold appendFrame
  have hlt : (xMem.take blk).length = blk := by simp; omega
  by_cases hc : B + i < B + blk
  · rw [if_pos hc]
    have hx := rx.2 (B + i) (by omega) hc
    rw [ring_emod hB (by omega) (by omega)] at hx
    by_cases hneg : i < 0
    · rw [if_pos hneg] at hx ⊢
      rw [List.getElem?_append_right (by simp; omega), List.getElem?_drop, ← hx]
      congr 1
      simp; omega
    · rw [if_neg hneg] at hx ⊢
      rw [List.append_assoc, List.getElem?_append_left (by omega), List.getElem?_take_of_lt (by omega), ← hx]
  · rw [if_neg hc, if_neg (by omega), List.append_assoc, List.getElem?_append_right (by omega),
      List.getElem?_append_left (by omega), List.getD_eq_getElem _ _ (by omega), List.getElem?_eq_getElem (by omega)]
    congr 2
    omega

theorem ltpfRun_ok {f : SamplingFrequency} {d : FrameDuration} {s : Ltpf α} {T : Int} {x y : Int → α}
    (h : LtpfRel f d s T x y) {info : LtpfInfo} (hp : info.pitchIndex < 512) (nbits : Nat) {fr : List α}
    (hfr : fr.length = (Lc3Config.new f d).nf) :
    ∃ s' out y', ltpfRun (Lc3Config.new f d) s info nbits fr = .ok (s', out) ∧
      LtpfRel f d s' (T + (Lc3Config.new f d).nf) (appendFrame x T fr) y' ∧
      s'.setting = settingOf f d info nbits ∧
      out = (List.range (Lc3Config.new f d).nf).map (fun n => y' (T + (n : Nat))) ∧
      (∀ t, t < T → y' t = y t) ∧
      (OverlapFree (ringSize (Lc3Config.new f d)) (ltpfNorm (Lc3Config.new f d)) (lDenOf (Lc3Config.new f d).fs)
          s.setting (settingOf f d info nbits) →
        y' = frameOut (ltpfNorm (Lc3Config.new f d)) (Lc3Config.new f d).nf s.setting (settingOf f d info nbits) T
          (appendFrame x T fr) y) := by
  have hd := ltpf_dims f d
  have hs := ltpf_samples f d
  obtain ⟨hcn, hcd⟩ := @settingOf_lengths α _ f d info nbits
  have hlag := @settingOf_lag α _ f d info hp nbits
  have hpar := @ltpfParams_ok α _ f d info hp nbits
  have hco := @ltpfCoeffs_ok α _ f d s info nbits h.cn h.cd
  have hact := @settingOf_active α _ f d info nbits
  have hring : ringSize (Lc3Config.new f d) = (Lc3Config.new f d).nf * numMemBlocks (Lc3Config.new f d).nMs := rfl
  have hnf : 0 < (Lc3Config.new f d).nf := by cases f <;> cases d <;> decide
  have hmb : numMemBlocks (Lc3Config.new f d).nMs = 2 ∨ numMemBlocks (Lc3Config.new f d).nMs = 3 := by
    cases f <;> cases d <;> decide
  obtain ⟨q, hq⟩ := h.blkDvd
  have hBlk := h.blk
  obtain ⟨B, hTB⟩ : ∃ B : Int, B = T - s.blockStart := ⟨_, rfl⟩
  have hBd : (ringSize (Lc3Config.new f d) : Int) ∣ B := hTB ▸ h.base
  have hT : T = B + s.blockStart := by omega
  have hrx := h.rx
  have hry := h.ry
  rw [hT] at hrx hry
  have rx' := ring_append hBd hBlk hfr hrx
  have hb0 : s.blockStart = 0 ∨ (Lc3Config.new f d).nf ≤ s.blockStart := by
    rcases Nat.eq_zero_or_pos q with rfl | hq0
    · left; simpa using hq
    · right; rw [hq]; exact Nat.le_mul_of_pos_right _ hq0
  obtain ⟨y', yMem', e, r, hbef, hspec⟩ := ltpfTransition_ok hd hs (new := settingOf f d info nbits) h.cn h.cd hcn hcd
    h.lag hlag hBd hBlk hb0 rx' hry
  have hyl := r.1
  have hxl : s.xMem.length = ringSize (Lc3Config.new f d) := h.rx.1
  unfold ltpfRun
  rw [hpar]
  simp only [Res.bind_ok]
  rw [hco]
  simp only [Res.bind_ok]
  rw [if_neg (by rw [not_or]; exact ⟨by simp [hfr], by omega⟩)]
  rw [hact] at e
  rw [e]
  simp only [Res.bind_ok]
  rw [if_neg (by omega)]
  refine ⟨_, _, y', rfl, ?_, ?_, ?_, ?_, ?_⟩
  · -- relation
    have hblk' : ∃ k : Nat, (if s.blockStart + (Lc3Config.new f d).nf > (numMemBlocks (Lc3Config.new f d).nMs - 1) *
        (Lc3Config.new f d).nf then 0 else s.blockStart + (Lc3Config.new f d).nf) = (Lc3Config.new f d).nf * k ∧
        (Lc3Config.new f d).nf * k + (Lc3Config.new f d).nf ≤ ringSize (Lc3Config.new f d) ∧
        ((ringSize (Lc3Config.new f d) : Nat) : Int) ∣
          T + (Lc3Config.new f d).nf - ((Lc3Config.new f d).nf * k : Nat) := by
      split
      · rename_i hgt
        refine ⟨0, by simp, by simp; omega, ?_⟩
        have : s.blockStart + (Lc3Config.new f d).nf = ringSize (Lc3Config.new f d) := by
          rw [hring] at hBlk ⊢
          rw [hq] at hgt hBlk ⊢
          have e1 : (Lc3Config.new f d).nf * q + (Lc3Config.new f d).nf = (Lc3Config.new f d).nf * (q + 1) := by ring
          rw [e1] at hgt hBlk ⊢
          rw [Nat.mul_comm (numMemBlocks _ - 1)] at hgt
          have l1 : numMemBlocks (Lc3Config.new f d).nMs - 1 < q + 1 := Nat.lt_of_mul_lt_mul_left hgt
          have l2 : q + 1 ≤ numMemBlocks (Lc3Config.new f d).nMs := Nat.le_of_mul_le_mul_left hBlk hnf
          congr 1; omega
        have e2 : T + ((Lc3Config.new f d).nf : Int) - (((Lc3Config.new f d).nf * 0 : Nat) : Int) =
            B + (ringSize (Lc3Config.new f d) : Nat) := by
          rw [hT, ← this]; push_cast; ring
        rw [e2]
        exact Int.dvd_add hBd (Int.dvd_refl _)
      · rename_i hle
        refine ⟨q + 1, by rw [hq]; ring, ?_, ?_⟩
        · have : s.blockStart + (Lc3Config.new f d).nf ≤ (numMemBlocks (Lc3Config.new f d).nMs - 1) * (Lc3Config.new f d).nf := by
            omega
          rw [hring]
          calc (Lc3Config.new f d).nf * (q + 1) + (Lc3Config.new f d).nf
              = s.blockStart + (Lc3Config.new f d).nf + (Lc3Config.new f d).nf := by rw [hq]; ring
            _ ≤ (numMemBlocks (Lc3Config.new f d).nMs - 1) * (Lc3Config.new f d).nf + (Lc3Config.new f d).nf := by omega
            _ = (numMemBlocks (Lc3Config.new f d).nMs - 1 + 1) * (Lc3Config.new f d).nf := by ring
            _ = (Lc3Config.new f d).nf * numMemBlocks (Lc3Config.new f d).nMs := by
              rw [Nat.mul_comm]; congr 1; omega
        · have e2 : T + ((Lc3Config.new f d).nf : Int) - (((Lc3Config.new f d).nf * (q + 1) : Nat) : Int) = B := by
            rw [hT, hq]; push_cast; ring
          rw [e2]; exact hBd
    obtain ⟨k, hk1, hk2, hk3⟩ := hblk'
    refine ⟨hcn, hcd, ?_, ?_, ?_, ?_, ?_, ?_⟩
    · show (ringSize (Lc3Config.new f d) : Int) ∣ T + (Lc3Config.new f d).nf - ((if _ then 0 else _ : Nat) : Int)
      rw [hk1]; exact hk3
    · show (Lc3Config.new f d).nf ∣ (if _ then 0 else _ : Nat)
      rw [hk1]; exact Nat.dvd_mul_right _ _
    · show (if _ then 0 else _ : Nat) + _ ≤ _
      rw [hk1]; exact hk2
    · rw [hT]; exact rx'
    · rw [hT]; exact r
    · intro ha; exact hlag (by rw [hact]; exact ha)
  · unfold Ltpf.setting
    rw [← hact]
  · apply List.ext_getElem?
    intro n
    by_cases hn : n < (Lc3Config.new f d).nf
    · rw [List.getElem?_drop, List.getElem?_take_of_lt (by omega), List.getElem?_map, List.getElem?_range hn]
      have := r.2 (B + ((s.blockStart + n : Nat) : Int)) (by push_cast; omega) (by push_cast; omega)
      rw [ring_emod hBd (by omega) (by omega), if_neg (by omega)] at this
      simp only [Int.toNat_natCast] at this
      rw [this]
      simp only [Option.map_some, hT]
      congr 2; push_cast; ring
    · rw [List.getElem?_eq_none (by simp; omega), List.getElem?_eq_none (by simp; omega)]
  · intro t ht; exact hbef t (by omega)
  · intro hov
    rw [hT]
    exact hspec hov

end Lc3
