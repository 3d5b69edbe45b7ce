import Verif.Lemmas.FrameBody
/-! The decoder on a finished frame. -/

namespace Lc3
open Tables

/-! ### residual bits -/

theorem decodeResidualNormal_spec {B : List Nat} {h : Nat} (xs : List Int) (t room : Nat)
    (hr : ∀ i, i < room → t + i < 8 * B.length ∧ h + (t + i) / 8 ≤ B.length + 2) :
    decodeResidualNormal B ⟨h, t⟩ xs room =
      .ok ((List.range (min room (xs.countP (· ≠ 0)))).map (fun i => tailBit B (t + i)),
        ⟨h, t + min room (xs.countP (· ≠ 0))⟩) := by
  induction xs generalizing t room with
  | nil => simp [decodeResidualNormal]
  | cons x xs ih =>
    unfold decodeResidualNormal
    by_cases hx : x ≠ 0
    · rw [if_pos hx]
      cases room with
      | zero => simp
      | succ room =>
        simp only
        have h0 := hr 0 (by omega)
        rw [readTailBool_eq (by simpa using h0.1) (by simpa using h0.2)]
        simp only [Res.bind_ok]
        rw [ih (t + 1) room (fun i hi => by
          have := hr (i + 1) (by omega)
          rw [show t + (i + 1) = t + 1 + i by omega] at this
          exact this)]
        simp only [Res.bind_ok]
        have hc : (x :: xs).countP (· ≠ 0) = xs.countP (· ≠ 0) + 1 := by
          rw [List.countP_cons_of_pos (by simpa using hx)]
        rw [hc, show min (room + 1) (xs.countP (· ≠ 0) + 1) = min room (xs.countP (· ≠ 0)) + 1 by omega,
          List.range_succ_eq_map, List.map_cons, List.map_map]
        congr 2
        · congr 1
          apply List.map_congr_left
          intro i _
          simp only [Function.comp, Nat.succ_eq_add_one]
          congr 1; omega
        · congr 1; omega
    · rw [if_neg hx]
      have hc : (x :: xs).countP (· ≠ 0) = xs.countP (· ≠ 0) := by
        rw [List.countP_cons_of_neg (by simpa using hx)]
      rw [hc]
      exact ih t room hr

/-- postponed bits of one line -/
def lineLsbs (x : Int) : List Bool :=
  [x.natAbs &&& 1 == 1] ++ (if x.natAbs >>> 1 = 0 ∧ x ≠ 0 then [decide (¬ x > 0)] else [])

theorem pairLsbs_eq (x0 x1 : Int) : pairLsbs x0 x1 = lineLsbs x0 ++ lineLsbs x1 := by
  unfold pairLsbs lineLsbs; simp

theorem readResBit_spec {B : List Nat} {h t n : Nat} {x : Int} (hn : (lineLsbs x).length ≤ n)
    (hr : ∀ i, i < n → t + i < 8 * B.length ∧ h + (t + i) / 8 ≤ B.length + 2)
    (ht : TailIs B t (lineLsbs x)) :
    readResBit B ⟨h, t⟩ (coarse true x) n =
      .ok ((true, x, n - (lineLsbs x).length), ⟨h, t + (lineLsbs x).length⟩) := by
  unfold lineLsbs at ht hn ⊢
  simp only [Nat.and_one_is_mod, Nat.shiftRight_one] at ht hn ⊢
  obtain ⟨t1, t2⟩ := ht.append
  have hb := t1.single
  cases n with
  | zero => simp at hn
  | succ n =>
    unfold readResBit
    have h0 := hr 0 (by omega)
    rw [readTailBool_eq (by simpa using h0.1) (by simpa using h0.2)]
    simp only [Res.bind_ok]
    rw [hb]
    rcases Nat.mod_two_eq_zero_or_one x.natAbs with hm | hm
    · -- even magnitude
      have hb0 : (x.natAbs % 2 == 1) = false := by rw [hm]; rfl
      rw [hb0]
      simp only [Bool.false_eq_true, if_false]
      have hc : coarse true x = x := by
        unfold coarse; simp only [if_true]; split <;> omega
      have hno : ¬ (x.natAbs / 2 = 0 ∧ x ≠ 0) := by omega
      rw [hc, if_neg hno]
      simp
    · have hb1 : (x.natAbs % 2 == 1) = true := by rw [hm]; rfl
      rw [hb1]
      simp only [if_true]
      by_cases hz : x.natAbs / 2 = 0
      · have hx : x = 1 ∨ x = -1 := by omega
        have hyes : x.natAbs / 2 = 0 ∧ x ≠ 0 := ⟨hz, by omega⟩
        rw [if_pos hyes] at t2 hn ⊢
        have hc : coarse true x = 0 := by
          unfold coarse; simp only [if_true]; split <;> omega
        rw [hc]
        simp only [List.length_append, List.length_singleton] at hn t2 ⊢
        cases n with
        | zero => omega
        | succ m =>
          have h1 := hr 1 (by omega)
          have hs := t2.single
          simp only [gt_iff_lt, lt_self_iff_false, if_false]
          rw [readTailBool_eq (by simpa using h1.1) (by simpa using h1.2)]
          simp only [Res.bind_ok]
          rw [hs]
          rcases hx with rfl | rfl <;> simp
      · have hno : ¬ (x.natAbs / 2 = 0 ∧ x ≠ 0) := by omega
        rw [if_neg hno] at t2 hn ⊢
        by_cases hneg : x < 0
        · have hc : coarse true x = -((x.natAbs / 2 * 2 : Nat) : Int) := by
            unfold coarse; simp [hneg]
          rw [hc, if_neg (by omega), if_pos (by omega)]
          have hv : -((x.natAbs / 2 * 2 : Nat) : Int) - 1 = x := by omega
          rw [hv]; simp
        · have hc : coarse true x = ((x.natAbs / 2 * 2 : Nat) : Int) := by
            unfold coarse; simp [hneg]
          rw [hc, if_pos (by omega)]
          have hv : ((x.natAbs / 2 * 2 : Nat) : Int) + 1 = x := by omega
          rw [hv]; simp

/-- lines of the coarse spectrum in LSB mode -/
def coarseLines : List Int → List Int
  | x0 :: x1 :: xs =>
    coarse (decide (levOf x0 x1 > 0)) x0 :: coarse (decide (levOf x0 x1 > 0)) x1 :: coarseLines xs
  | xs => xs

/-- With a level table that flags exactly the escaped pairs, the postponed bits restore the lines. -/
theorem decodeResidualLsb_spec {B saveLev : List Nat} {h : Nat} :
    ∀ (m : Nat) (xs : List Int) (k t n : Nat), xs.length = 2 * m →
      (∀ i, i < m → ∃ lev, saveLev[2 * (k + i)]? = some lev ∧
        (0 < lev ↔ 0 < levOf (xs.getD (2 * i) 0) (xs.getD (2 * i + 1) 0))) →
      (pairsLsbs true xs).length ≤ n →
      (∀ i, i < n → t + i < 8 * B.length ∧ h + (t + i) / 8 ≤ B.length + 2) →
      TailIs B t (pairsLsbs true xs) →
      decodeResidualLsb B saveLev (coarseLines xs) k n ⟨h, t⟩ =
        .ok (xs, ⟨h, t + (pairsLsbs true xs).length⟩) := by
  intro m
  induction m with
  | zero =>
    intro xs k t n hl hs hn hr ht
    have : xs = [] := List.length_eq_zero_iff.1 (by omega)
    subst this
    simp [decodeResidualLsb, coarseLines, pairsLsbs]
  | succ m ih =>
    intro xs k t n hl hs hn hr ht
    match xs, hl with
    | x0 :: x1 :: xs, hl =>
      obtain ⟨lev, e1, e2⟩ := hs 0 (by omega)
      simp only [Nat.mul_zero, List.getD_cons_zero, Nat.zero_add, List.getD_cons_succ, Nat.add_zero] at e1 e2
      have hs' : ∀ i, i < m → ∃ lev, saveLev[2 * (k + 1 + i)]? = some lev ∧
          (0 < lev ↔ 0 < levOf (xs.getD (2 * i) 0) (xs.getD (2 * i + 1) 0)) := by
        intro i hi
        obtain ⟨l, a1, a2⟩ := hs (i + 1) (by omega)
        refine ⟨l, by rw [← a1]; congr 1; omega, ?_⟩
        rw [a2, show 2 * (i + 1) = 2 * i + 1 + 1 by omega]
        simp only [List.getD_cons_succ]
      simp only [pairsLsbs, Bool.true_and] at hn ht ⊢
      simp only [coarseLines]
      unfold decodeResidualLsb
      rw [idx_ok_iff.2 e1]
      simp only [Res.bind_ok]
      by_cases hlev : levOf x0 x1 > 0
      · rw [if_pos (e2.2 hlev)]
        simp only [hlev, decide_true, if_true, pairLsbs_eq] at hn ht ⊢
        simp only [List.length_append] at hn ⊢
        obtain ⟨u1, u2⟩ := ht.append
        obtain ⟨u3, u4⟩ := u1.append
        rw [readResBit_spec (x := x0) (by omega) hr u3]
        simp only [Res.bind_ok, Bool.not_true, Bool.false_eq_true, if_false]
        have sh : ∀ c, (∀ i, i < n - c → t + c + i < 8 * B.length ∧ h + (t + c + i) / 8 ≤ B.length + 2) := by
          intro c i hi
          have := hr (c + i) (by omega)
          rw [← Nat.add_assoc] at this
          exact this
        rw [readResBit_spec (x := x1) (by omega) (sh _) u4]
        simp only [Res.bind_ok, Bool.not_true, Bool.false_eq_true, if_false]
        have := ih xs (k + 1) (t + (lineLsbs x0).length + (lineLsbs x1).length)
          (n - (lineLsbs x0).length - (lineLsbs x1).length) (by simp at hl; omega) hs' (by omega)
          (by
            intro i hi
            have := hr ((lineLsbs x0).length + (lineLsbs x1).length + i) (by omega)
            rw [← Nat.add_assoc, ← Nat.add_assoc] at this
            exact this)
          (by rw [List.length_append, ← Nat.add_assoc] at u2; exact u2)
        rw [this]
        simp only [Res.bind_ok]
        congr 3; omega
      · rw [if_neg (fun hh => hlev (e2.1 hh))]
        simp only [hlev, decide_false, Bool.false_eq_true, if_false, List.nil_append] at hn ht ⊢
        have := ih xs (k + 1) t n (by simp at hl; omega) hs' hn hr ht
        rw [this]
        simp only [Res.bind_ok]
        unfold coarse; simp

/-! ### the frame -/

theorem pairLines_pairsDec (lsb : Bool) : ∀ (m : Nat) (xs : List Int), xs.length = 2 * m →
    pairLines (pairsDec lsb xs) = if lsb then coarseLines xs else xs := by
  intro m
  induction m with
  | zero =>
    intro xs hl
    have : xs = [] := List.length_eq_zero_iff.1 (by omega)
    subst this
    cases lsb <;> simp [pairsDec, pairLines, coarseLines]
  | succ m ih =>
    intro xs hl
    match xs, hl with
    | x0 :: x1 :: xs, hl =>
      have := ih xs (by simp at hl; omega)
      simp only [pairsDec, pairLines, this]
      cases lsb <;> simp [coarse, coarseLines]

theorem pairsDec_length (lsb : Bool) : ∀ (m : Nat) (xs : List Int), xs.length = 2 * m →
    (pairsDec lsb xs).length = m := by
  intro m
  induction m with
  | zero =>
    intro xs hl
    have : xs = [] := List.length_eq_zero_iff.1 (by omega)
    subst this; rfl
  | succ m ih =>
    intro xs hl
    match xs, hl with
    | x0 :: x1 :: xs, hl => simp only [pairsDec, List.length_cons, ih xs (by simp at hl; omega)]

/-- number of residual bits the decoder expects -/
def decRoom (N : Nat) (σ : ASt) : Nat := 8 * N - (σ.tl.length + 8 * σ.abs.S + (25 - Nat.log2 σ.abs.R))

theorem calcNumResidualBits_spec {B : List Nat} {σ : ASt} (ho : σ.Ok) (hT : 8 ≤ σ.tl.length)
    (hfit : σ.tl.length + 8 * σ.abs.S + (25 - Nat.log2 σ.abs.R) ≤ 8 * B.length) :
    calcNumResidualBits (decRd σ) (decAc B σ) (B.length * 8) = .ok (decRoom B.length σ) := by
  obtain ⟨hl1, hl2⟩ := log2_le ho.1 ho.2
  unfold calcNumResidualBits decRd decAc decRoom
  simp only [usub]
  rw [if_pos hT, if_pos (by omega), Res.bind_ok, Res.bind_ok, if_pos (by omega), Res.bind_ok,
    if_pos (by omega)]
  congr 1; omega

theorem decRoom_reads {B : List Nat} {σ : ASt} (ho : σ.Ok) :
    ∀ i, i < decRoom B.length σ →
      σ.tl.length + i < 8 * B.length ∧ σ.abs.S + 3 + (σ.tl.length + i) / 8 ≤ B.length + 2 := by
  obtain ⟨hl1, hl2⟩ := log2_le ho.1 ho.2
  intro i hi
  unfold decRoom at hi
  constructor <;> omega

theorem filtersDec_orders (rcOrder rcI : List Nat) (n f : Nat) (h : f + n ≤ rcOrder.length) :
    (filtersDec rcOrder rcI f n).map (·.1) = (rcOrder.drop f).take n := by
  induction n generalizing f with
  | zero => simp [filtersDec]
  | succ n ih =>
    have hlt : f < rcOrder.length := by omega
    simp only [filtersDec, List.map_cons, ih (f + 1) (by omega)]
    rw [List.getD_eq_getElem _ _ hlt, List.drop_eq_getElem_cons hlt, List.take_succ_cons]

/-- state after the side information -/
def sideSt (ne : Nat) (p : FrameParams) : ASt := ⟨Abs.init, sideBits ne p⟩

/-- state after the noise shaping parameters -/
def tnsSt (ne : Nat) (p : FrameParams) : ASt :=
  (sideSt ne p).run (tnsEvs p.lpcWeighting p.rcOrder p.rcI 0 p.numTns)

theorem bodySt_eq (ne : Nat) (p : FrameParams) :
    bodySt ne p = (tnsSt ne p).run (pairsEv p.lsbMode p.rateFlag ne (p.xq.take p.lastnz) 0 0) := by
  unfold bodySt bodyEvs tnsSt sideSt
  rw [ASt.run_append, ASt.run_append, ASt.run_bits]
  rfl

/-- The parser and the entropy decoder up to the residual bits. -/
structure FrontPost (cfg : Lc3Config) (p : FrameParams) (q : PulseIdx) (B : List Nat) : Prop where
  side : readSideInfo B Reader.new cfg.fsInd cfg.ne =
    .ok (expectedSide p q, ⟨0, (sideBits cfg.ne p).length⟩)
  init : acDecInit B ⟨0, (sideBits cfg.ne p).length⟩ =
    .ok (decAc B (sideSt cfg.ne p), decRd (sideSt cfg.ne p))
  tns : decodeTnsData B (decRd (sideSt cfg.ne p)) (expectedSide p q) (decAc B (sideSt cfg.ne p))
      (B.length * 8) cfg.nMs =
    .ok ((expectedTnsIdx p, expectedOrders p), decAc B (tnsSt cfg.ne p), decRd (tnsSt cfg.ne p))
  spec : decodeSpectralData B (decRd (tnsSt cfg.ne p)) (expectedSide p q) (B.length * 8) cfg.fsInd cfg.ne
      (decAc B (tnsSt cfg.ne p)) =
    .ok ((pairLines (pairsDec p.lsbMode (p.xq.take p.lastnz)) ++ List.replicate (400 - p.lastnz) 0,
      (if p.lsbMode then (pairsDec p.lsbMode (p.xq.take p.lastnz)).map (·.2.2) else []) ++
        List.replicate (400 - (if p.lsbMode then p.lastnz / 2 else 0)) 0),
      decAc B (bodySt cfg.ne p), decRd (bodySt cfg.ne p))

theorem ne_le (f : SamplingFrequency) (d : FrameDuration) : (Lc3Config.new f d).ne ≤ 400 := by
  cases f <;> cases d <;> decide

theorem front_post {f : SamplingFrequency} {d : FrameDuration} {p : FrameParams} {q : PulseIdx}
    {B : List Nat} (h : BodyHyp (Lc3Config.new f d) B.length p q)
    (hg : Good B (bodySt (Lc3Config.new f d).ne p))
    (hT : (bodySt (Lc3Config.new f d).ne p).tl.length < 8 * B.length) :
    FrontPost (Lc3Config.new f d) p q B := by
  have hne := ne_le f d
  have hmin := sideBits_min h.side
  rw [bodySt_eq] at hg hT
  have hvp := pairs_valid h (Lc3Config.new f d).ne
  have hvt := tns_valid h
  have hos : (sideSt (Lc3Config.new f d).ne p).Ok := ASt.Ok.init _
  have hot : (tnsSt (Lc3Config.new f d).ne p).Ok := hos.run hvt
  have hgt : Good B (tnsSt (Lc3Config.new f d).ne p) := hg.back_run _ hot hvp
  have hgs : Good B (sideSt (Lc3Config.new f d).ne p) := hgt.back_run _ hos hvt
  have hlen : (sideBits (Lc3Config.new f d).ne p).length < 8 * B.length := by
    have h1 := ((tnsSt (Lc3Config.new f d).ne p).run_mono
      (pairsEv p.lsbMode p.rateFlag (Lc3Config.new f d).ne (p.xq.take p.lastnz) 0 0)).2
    have h2 := ((sideSt (Lc3Config.new f d).ne p).run_mono (tnsEvs p.lpcWeighting p.rcOrder p.rcI 0 p.numTns)).2
    have h3 : (sideSt (Lc3Config.new f d).ne p).tl.length = (sideBits (Lc3Config.new f d).ne p).length := rfl
    have h4 : ((sideSt (Lc3Config.new f d).ne p).run (tnsEvs p.lpcWeighting p.rcOrder p.rcI 0 p.numTns)).tl.length =
      (tnsSt (Lc3Config.new f d).ne p).tl.length := rfl
    omega
  obtain ⟨hn0, hn2⟩ := numTns_le h.side
  have hro := h.side.rcOrderLen
  refine ⟨?_, ?_, ?_, ?_⟩
  · apply readSideInfo_spec h.side hgs.bytes hlen
    intro i hi
    rw [Nat.zero_add]
    exact hgs.tail i hi
  · exact acDecInit_spec (by have := hgs.room; have e : (sideSt (Lc3Config.new f d).ne p).abs.S = 0 := rfl; omega) _
  · unfold decodeTnsData
    have hw : tnsLpcWeightingIdx (B.length * 8) (Lc3Config.new f d).nMs = p.lpcWeighting := by
      rw [h.data.weighting]
      unfold tnsLpcWeightingIdx
      cases hd : (Lc3Config.new f d).nMs <;> simp [Nat.mul_comm]
    simp only
    rw [hw]
    have htake : (expectedSide p q).rcOrderIn.take (expectedSide p q).numTnsFilters =
        ((p.rcOrder.drop 0).take p.numTns).map (fun o => if o = 0 then 0 else 1) := by
      unfold expectedSide
      simp only [List.drop_zero]
      rw [List.take_append_of_le_length (by simp; omega), List.take_of_length_le (by simp)]
    rw [htake, decodeTnsFilters_spec h.data.w_lt h.data.orders h.data.coefs p.numTns 0 (by omega)
      (by rw [h.data.coefsLen]; omega) _ hos hgt]
    simp only [Res.bind_ok]
    have hdrop : (expectedSide p q).rcOrderIn.drop (expectedSide p q).numTnsFilters =
        List.replicate (2 - p.numTns) 0 := by
      unfold expectedSide
      simp only
      rw [List.drop_left' (by simp; omega)]
    rw [hdrop, filtersDec_orders _ _ _ _ (by omega)]
    congr 2
    have hcase : p.numTns = 1 ∨ p.numTns = 2 := by omega
    unfold expectedTnsIdx expectedOrders expectedCoefs
    have hnt : (expectedSide p q).numTnsFilters = p.numTns := rfl
    rw [hnt]
    rcases hcase with e | e
    · rw [e]; simp [filtersDec, filterCoefs]
    · rw [e]; simp [filtersDec, filterCoefs]
  · unfold decodeSpectralData
    have hlz : (expectedSide p q).lastnz = p.lastnz := rfl
    have hls : (expectedSide p q).lsbMode = p.lsbMode := rfl
    have hlh := h.side.lastnzHi
    have hlen2 := take_len h.data.lines h.side.lastnzEven
    have hrf : rateFlagOf (B.length * 8) (Lc3Config.new f d).fsInd = p.rateFlag := by
      rw [h.data.rate]; unfold rateFlagOf
      have e : (Lc3Config.new f d).fsInd * 160 = 160 * (Lc3Config.new f d).fsInd := Nat.mul_comm _ _
      rw [e, Nat.mul_comm B.length 8]
    rw [hlz, hls, if_neg (by omega), hrf]
    have := decodePairs_spec (buf := B) (lsb := p.lsbMode) (ne := (Lc3Config.new f d).ne) h.data.rate_le (p.lastnz / 2)
      (p.xq.take p.lastnz) 0 0 (tnsSt (Lc3Config.new f d).ne p) hlen2 (by omega) h.data.range hot hg
    rw [Nat.mul_zero] at this
    rw [this]
    simp only [Res.bind_ok]
    rw [pairsDec_length _ _ _ hlen2, ← bodySt_eq]
    have he := h.side.lastnzEven
    rw [show 2 * (p.lastnz / 2) = p.lastnz by omega]

end Lc3
