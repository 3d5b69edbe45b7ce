import Verif.Lemmas.FrameLsb
import Verif.Model.ReadFrame
/-! `read_frame` on a finished frame. -/

namespace Lc3
open Tables

theorem seedSum_append_zeros (xs : List Int) (m k : Nat) :
    seedSum (xs ++ List.replicate m 0) k = seedSum xs k := by
  induction xs generalizing k with
  | nil =>
    simp only [List.nil_append]
    induction m generalizing k with
    | zero => rfl
    | succ m ih => simp [List.replicate_succ, seedSum, ih]
  | cons x xs ih => simp [seedSum, ih]

theorem seedSum_eq (xs : List Int) (k : Nat) :
    seedSum xs k = ((List.range xs.length).map fun i => (xs.getD i 0).natAbs * (k + i)).sum := by
  induction xs generalizing k with
  | nil => rfl
  | cons x xs ih =>
    rw [List.length_cons, List.range_succ_eq_map]
    simp only [seedSum, List.map_cons, List.map_map, List.sum_cons, List.getD_cons_zero, Nat.add_zero]
    rw [ih (k + 1)]
    congr 2
    apply List.map_congr_left
    intro i _
    simp only [Function.comp, Nat.succ_eq_add_one, List.getD_cons_succ]
    congr 1; omega

theorem seedSum_weighted (xs : List Int) : seedSum xs 0 = weightedSum xs := by
  rw [seedSum_eq]; unfold weightedSum; simp

/-- the bits after the spectral data are in the frame -/
theorem Good.dropTail {B : List Nat} {a : Abs} {tl ext : List Bool} (h : Good B ⟨a, tl ++ ext⟩) :
    Good B ⟨a, tl⟩ ∧ TailIs B tl.length ext := by
  obtain ⟨h1, h2, h3, h4, h5, h6, h7⟩ := h
  simp only [List.length_append] at h6 h7
  refine ⟨⟨h1, h2, h3, h4, h5, ?_, by simp only; omega⟩, ?_⟩
  · intro j hj
    have := h6 j (by simp only at hj; omega)
    rw [this, List.getElem_append_left]
  · intro i hi
    have := h6 (tl.length + i) (by omega)
    rw [this, List.getElem_append_right (by omega)]
    congr 1; omega

theorem take_expected {p : FrameParams} {ne : Nat} (h : p.lastnz ≤ ne) (hne : ne ≤ 400)
    (xs : List Int) (hx : xs.length = p.lastnz) :
    (xs ++ List.replicate (400 - p.lastnz) 0).take ne = xs ++ List.replicate (ne - p.lastnz) 0 := by
  rw [List.take_append, hx, List.take_of_length_le (by omega), List.take_replicate]
  congr 2; omega

theorem countP_zeros (xs : List Int) (m : Nat) :
    (xs ++ List.replicate m 0).countP (· ≠ 0) = (xs.filter (· ≠ 0)).length := by
  rw [List.countP_append, List.countP_eq_length_filter]
  have : (List.replicate m (0 : Int)).countP (· ≠ 0) = 0 := by
    rw [List.countP_eq_zero]; intro x hx; simp [List.eq_of_mem_replicate hx]
  rw [this]; rfl

theorem expectedZero_eq {p : FrameParams} (hl : p.lastnz ≤ p.xq.length) (h2 : 2 ≤ p.lastnz) {x0 x1 : Int}
    (h0 : idx (expectedX p) 0 = .ok x0) (h1 : idx (expectedX p) 1 = .ok x1) :
    (p.lastnz == 2 && x0 == 0 && x1 == 0 && p.ggInd == 0) = expectedZero p := by
  unfold expectedZero
  rw [idx_ok_iff] at h0 h1
  unfold expectedX at h0 h1
  rw [List.getElem?_append_left (by simp; omega)] at h0 h1
  rw [Bool.eq_iff_iff]
  simp only [Bool.and_eq_true, beq_iff_eq, decide_eq_true_eq]
  constructor
  · rintro ⟨⟨⟨e1, e2⟩, e3⟩, e4⟩
    refine ⟨e1, e4, ?_⟩
    intro x hx
    obtain ⟨i, hi, rfl⟩ := List.mem_iff_getElem.1 hx
    have hi2 : i < 2 := by simp at hi; omega
    have hcase : i = 0 ∨ i = 1 := by omega
    rcases hcase with rfl | rfl
    · rw [List.getElem?_eq_getElem hi, Option.some.injEq] at h0; rw [h0, e2]
    · rw [List.getElem?_eq_getElem hi, Option.some.injEq] at h1; rw [h1, e3]
  · rintro ⟨e1, e4, hx⟩
    have m0 := hx x0 (List.mem_of_getElem? h0)
    have m1 := hx x1 (List.mem_of_getElem? h1)
    exact ⟨⟨⟨e1, m0⟩, m1⟩, e4⟩

theorem bodySt_tl_min {f : SamplingFrequency} {d : FrameDuration} {p : FrameParams} {q : PulseIdx}
    (h : SideOk (Lc3Config.new f d) p q) : 40 ≤ (bodySt (Lc3Config.new f d).ne p).tl.length := by
  have hmin := sideBits_min h
  generalize (Lc3Config.new f d).ne = ne at *
  have := (ASt.run_mono (ASt.run ⟨Abs.init, []⟩ ((sideBits ne p).map .bit))
    (tnsEvs p.lpcWeighting p.rcOrder p.rcI 0 p.numTns ++
      pairsEv p.lsbMode p.rateFlag ne (p.xq.take p.lastnz) 0 0)).2
  unfold bodySt bodyEvs
  rw [ASt.run_append]
  refine le_trans ?_ this
  rw [ASt.run_bits]; simpa using hmin

theorem seed_ok {checks : Bool} {p : FrameParams} {ne : Nat} (hlz : p.lastnz ≤ ne) (hne : ne ≤ 400)
    (hl : p.lastnz ≤ p.xq.length)
    (hseed : checks = false ∨ weightedSum (p.xq.take p.lastnz) < 2 ^ 31) :
    noiseFillingSeed checks ((expectedX p).take ne) = .ok (expectedSeed p) := by
  unfold noiseFillingSeed expectedX
  rw [take_expected hlz hne _ (by simp; omega), seedSum_append_zeros, seedSum_weighted]
  simp only
  have hno : (checks && decide (2 ^ 31 ≤ weightedSum (p.xq.take p.lastnz))) = false := by
    rcases hseed with h | h
    · simp [h]
    · have : ¬ 2 ^ 31 ≤ weightedSum (p.xq.take p.lastnz) := by omega
      simp only [this, decide_false, Bool.and_false]
  rw [hno]
  rfl

/-- normal mode -/
theorem readFrame_normal {f : SamplingFrequency} {d : FrameDuration} {p : FrameParams} {q : PulseIdx}
    {B : List Nat} {ext : List Bool} (checks : Bool) (h : BodyHyp (Lc3Config.new f d) B.length p q)
    (hmode : p.lsbMode = false)
    (hg : Good B ⟨(bodySt (Lc3Config.new f d).ne p).abs, (bodySt (Lc3Config.new f d).ne p).tl ++ ext⟩)
    (hfit : (bodySt (Lc3Config.new f d).ne p).tl.length + 8 * (bodySt (Lc3Config.new f d).ne p).abs.S +
      (25 - Nat.log2 (bodySt (Lc3Config.new f d).ne p).abs.R) ≤ 8 * B.length)
    (hseed : checks = false ∨ weightedSum (p.xq.take p.lastnz) < 2 ^ 31) :
    ∃ bits, readFrame checks (Lc3Config.new f d) B = .ok (expectedSide p q,
        ⟨expectedOrders p, expectedTnsIdx p, bits, expectedSeed p, expectedZero p, 8 * B.length⟩,
        expectedX p) ∧
      bits.length = min (decRoom B.length (bodySt (Lc3Config.new f d).ne p)) (nonZeroLines p) ∧
      ∀ i, i < ext.length → i < bits.length → bits[i]? = ext[i]? := by
  obtain ⟨hg1, htail⟩ := hg.dropTail
  have hok := bodySt_ok h (Lc3Config.new f d).ne
  obtain ⟨hl1, hl2⟩ := log2_le hok.1 hok.2
  have hmin := bodySt_tl_min h.side
  have hfp := front_post h hg1 (by omega)
  have hlen := take_len h.data.lines h.side.lastnzEven
  have hlz := h.side.lastnzHi
  have hlo := h.side.lastnzLo
  have hev := h.side.lastnzEven
  have hne := ne_le f d
  have hx : pairLines (pairsDec p.lsbMode (p.xq.take p.lastnz)) ++ List.replicate (400 - p.lastnz) 0 =
      expectedX p := by
    rw [pairLines_pairsDec _ _ _ hlen, hmode]; rfl
  refine ⟨(List.range (min (decRoom B.length (bodySt (Lc3Config.new f d).ne p)) (nonZeroLines p))).map
    (fun i => tailBit B ((bodySt (Lc3Config.new f d).ne p).tl.length + i)), ?_, by simp, ?_⟩
  · unfold readFrame
    rw [hfp.side]
    simp only [Res.bind_ok]
    unfold arithDecode
    simp only
    rw [hfp.init]
    simp only [Res.bind_ok]
    rw [hfp.tns]
    simp only [Res.bind_ok]
    rw [hfp.spec, hx]
    simp only [Res.bind_ok]
    have hres : decodeResidualBits B (decRd (bodySt (Lc3Config.new f d).ne p)) (expectedSide p q)
        (decAc B (bodySt (Lc3Config.new f d).ne p)) (B.length * 8) (Lc3Config.new f d).ne (expectedX p)
        ((if p.lsbMode then (pairsDec p.lsbMode (p.xq.take p.lastnz)).map (·.2.2) else []) ++
        List.replicate (400 - (if p.lsbMode then p.lastnz / 2 else 0)) 0) =
        .ok (((List.range (min (decRoom B.length (bodySt (Lc3Config.new f d).ne p)) (nonZeroLines p))).map
          (fun i => tailBit B ((bodySt (Lc3Config.new f d).ne p).tl.length + i)), expectedX p),
          ⟨(bodySt (Lc3Config.new f d).ne p).abs.S + 3, (bodySt (Lc3Config.new f d).ne p).tl.length +
            min (decRoom B.length (bodySt (Lc3Config.new f d).ne p)) (nonZeroLines p)⟩) := by
      unfold decodeResidualBits
      rw [calcNumResidualBits_spec hok (by omega) hfit]
      have hm : (expectedSide p q).lsbMode = false := hmode
      simp only [Res.bind_ok, hm, Bool.not_false, if_true]
      have hcount : ((expectedX p).take (Lc3Config.new f d).ne).countP (· ≠ 0) = nonZeroLines p := by
        unfold expectedX
        rw [take_expected hlz hne _ (by simp; exact h.data.lines), countP_zeros]; rfl
      have := decodeResidualNormal_spec (B := B) (h := (bodySt (Lc3Config.new f d).ne p).abs.S + 3)
        ((expectedX p).take (Lc3Config.new f d).ne) (bodySt (Lc3Config.new f d).ne p).tl.length
        (decRoom B.length (bodySt (Lc3Config.new f d).ne p)) (decRoom_reads hok)
      rw [hcount] at this
      rw [show decRd (bodySt (Lc3Config.new f d).ne p) =
        ⟨(bodySt (Lc3Config.new f d).ne p).abs.S + 3, (bodySt (Lc3Config.new f d).ne p).tl.length⟩ from rfl, this]
      rfl
    rw [hres]
    simp only [Res.bind_ok]
    rw [seed_ok hlz hne h.data.lines hseed]
    simp only [Res.bind_ok]
    have hl0 : 1 < (expectedX p).length := by
      unfold expectedX; simp [h.data.lines]; omega
    have e0 := idx_eq_ok (l := expectedX p) (i := 0) (by omega)
    have e1 := idx_eq_ok (l := expectedX p) (i := 1) hl0
    have hz := expectedZero_eq h.data.lines hlo e0 e1
    rw [e0, e1]
    simp only [Res.bind_ok]
    have hz' : ((expectedSide p q).lastnz == 2 && (expectedX p)[0] == 0 && (expectedX p)[1] == 0 &&
      (expectedSide p q).globalGainIndex == 0) = expectedZero p := hz
    rw [hz', Nat.mul_comm B.length 8]
  · intro i hi hi2
    have hi3 : i < min (decRoom B.length (bodySt (Lc3Config.new f d).ne p)) (nonZeroLines p) := by
      simpa using hi2
    rw [List.getElem?_map, List.getElem?_range hi3, List.getElem?_eq_getElem hi]
    simp only [Option.map_some, Option.some.injEq]
    exact htail i hi

theorem levOf_pos {x0 x1 : Int} (h0 : x0.natAbs < 32768) (h1 : x1.natAbs < 32768) :
    0 < levOf x0 x1 ↔ 4 ≤ x0.natAbs ∨ 4 ≤ x1.natAbs := by
  constructor
  · intro h
    by_contra hc
    have : levOf x0 x1 = 0 := by
      unfold levOf escRun
      rw [if_neg (by omega)]
    omega
  · intro h
    by_contra hc
    have hz : levOf x0 x1 = 0 := by omega
    obtain ⟨_, a, b, _⟩ := escOf_eq false 0 h0 h1
    rw [hz, pow_zero, Nat.div_one] at a b
    omega

theorem pairsDec_lev (lsb : Bool) : ∀ (m : Nat) (xs : List Int), xs.length = 2 * m → ∀ i, i < m →
    ((pairsDec lsb xs).map (·.2.2))[i]? = some (levOf (xs.getD (2 * i) 0) (xs.getD (2 * i + 1) 0)) := by
  intro m
  induction m with
  | zero => intro xs _ i hi; omega
  | succ m ih =>
    intro xs hl i hi
    match xs, hl with
    | x0 :: x1 :: xs, hl =>
      cases i with
      | zero => simp [pairsDec]
      | succ i =>
        have := ih xs (by simp at hl; omega) i (by omega)
        rw [show 2 * (i + 1) = 2 * i + 1 + 1 by omega]
        simp only [pairsDec, List.map_cons, List.getElem?_cons_succ, this, List.getD_cons_succ]

theorem getD_range {xs : List Int} (h : ∀ x ∈ xs, x.natAbs < 32768) (i : Nat) :
    (xs.getD i 0).natAbs < 32768 := by
  by_cases hi : i < xs.length
  · rw [List.getD_eq_getElem _ _ hi]; exact h _ (List.getElem_mem hi)
  · rw [List.getD_eq_default _ _ (by omega)]; decide

/-- LSB mode. `save` tells how the level table is to be read by the residual decoder. -/
theorem readFrame_lsb {f : SamplingFrequency} {d : FrameDuration} {p : FrameParams} {q : PulseIdx}
    {B : List Nat} {ext : List Bool} (checks : Bool) (h : BodyHyp (Lc3Config.new f d) B.length p q)
    (hmode : p.lsbMode = true)
    (hg : Good B ⟨(bodySt (Lc3Config.new f d).ne p).abs, (bodySt (Lc3Config.new f d).ne p).tl ++ ext⟩)
    (hext : ext = pairsLsbs true (p.xq.take p.lastnz))
    (hfit : (bodySt (Lc3Config.new f d).ne p).tl.length + 8 * (bodySt (Lc3Config.new f d).ne p).abs.S +
      (25 - Nat.log2 (bodySt (Lc3Config.new f d).ne p).abs.R) + ext.length ≤ 8 * B.length)
    (hesc : ∀ k, 2 * k < p.lastnz → (Escaped p (2 * k) ↔ Escaped p k))
    (hseed : checks = false ∨ weightedSum (p.xq.take p.lastnz) < 2 ^ 31) :
    readFrame checks (Lc3Config.new f d) B = .ok (expectedSide p q,
        ⟨expectedOrders p, expectedTnsIdx p, [], expectedSeed p, expectedZero p, 8 * B.length⟩,
        expectedX p) := by
  obtain ⟨hg1, htail⟩ := hg.dropTail
  have hok := bodySt_ok h (Lc3Config.new f d).ne
  obtain ⟨hl1, hl2⟩ := log2_le hok.1 hok.2
  have hmin := bodySt_tl_min h.side
  have hfp := front_post h hg1 (by omega)
  have hlen := take_len h.data.lines h.side.lastnzEven
  have hlz := h.side.lastnzHi
  have hlo := h.side.lastnzLo
  have hev := h.side.lastnzEven
  have hne := ne_le f d
  have hlines := h.data.lines
  have hx : pairLines (pairsDec p.lsbMode (p.xq.take p.lastnz)) ++ List.replicate (400 - p.lastnz) 0 =
      coarseLines (p.xq.take p.lastnz) ++ List.replicate (400 - p.lastnz) 0 := by
    rw [pairLines_pairsDec _ _ _ hlen, hmode]; rfl
  have hclen : (coarseLines (p.xq.take p.lastnz)).length = p.lastnz := by
    have h1 := pairLines_pairsDec true _ _ hlen
    simp only [if_true] at h1
    rw [← h1]
    have h2 : ∀ l : List (Int × Int × Nat), (pairLines l).length = 2 * l.length := by
      intro l
      induction l with
      | nil => rfl
      | cons a l ih => obtain ⟨a, b, c⟩ := a; simp [pairLines, ih]; omega
    rw [h2, pairsDec_length _ _ _ hlen]; omega
  unfold readFrame
  rw [hfp.side]
  simp only [Res.bind_ok]
  unfold arithDecode
  simp only
  rw [hfp.init]
  simp only [Res.bind_ok]
  rw [hfp.tns]
  simp only [Res.bind_ok]
  rw [hfp.spec, hx]
  simp only [Res.bind_ok]
  have hres : decodeResidualBits B (decRd (bodySt (Lc3Config.new f d).ne p)) (expectedSide p q)
      (decAc B (bodySt (Lc3Config.new f d).ne p)) (B.length * 8) (Lc3Config.new f d).ne
      (coarseLines (p.xq.take p.lastnz) ++ List.replicate (400 - p.lastnz) 0)
      ((if p.lsbMode then (pairsDec p.lsbMode (p.xq.take p.lastnz)).map (·.2.2) else []) ++
      List.replicate (400 - (if p.lsbMode then p.lastnz / 2 else 0)) 0) =
      .ok (([], expectedX p),
        ⟨(bodySt (Lc3Config.new f d).ne p).abs.S + 3, (bodySt (Lc3Config.new f d).ne p).tl.length +
          (pairsLsbs true (p.xq.take p.lastnz)).length⟩) := by
    unfold decodeResidualBits
    rw [calcNumResidualBits_spec hok (by omega) (by omega)]
    have hm : (expectedSide p q).lsbMode = true := hmode
    have hz : (expectedSide p q).lastnz = p.lastnz := rfl
    simp only [Res.bind_ok, hm, hz, hmode, if_true, Bool.not_true, Bool.false_eq_true, if_false]
    rw [List.take_left' hclen, List.drop_left' hclen]
    have hlsb := decodeResidualLsb_spec (B := B) (h := (bodySt (Lc3Config.new f d).ne p).abs.S + 3)
      (saveLev := (pairsDec true (p.xq.take p.lastnz)).map (·.2.2) ++ List.replicate (400 - p.lastnz / 2) 0)
      (p.lastnz / 2) (p.xq.take p.lastnz) 0 (bodySt (Lc3Config.new f d).ne p).tl.length
      (decRoom B.length (bodySt (Lc3Config.new f d).ne p)) hlen
      (by
        intro i hi
        rw [Nat.zero_add]
        have hr := getD_range h.data.range
        rw [levOf_pos (hr _) (hr _)]
        have he := hesc i (by omega)
        unfold Escaped at he
        by_cases hin : 2 * i < p.lastnz / 2
        · refine ⟨levOf ((p.xq.take p.lastnz).getD (2 * (2 * i)) 0) ((p.xq.take p.lastnz).getD (2 * (2 * i) + 1) 0), ?_, ?_⟩
          · rw [List.getElem?_append_left (by rw [List.length_map, pairsDec_length _ _ _ hlen]; exact hin)]
            exact pairsDec_lev true _ _ hlen (2 * i) hin
          · rw [levOf_pos (hr _) (hr _)]; exact he
        · refine ⟨0, ?_, ?_⟩
          · rw [List.getElem?_append_right (by rw [List.length_map, pairsDec_length _ _ _ hlen]; omega),
              List.getElem?_replicate, List.length_map, pairsDec_length _ _ _ hlen, if_pos (by omega)]
          · rw [← he]
            have hout : ∀ j, p.lastnz ≤ j → (p.xq.take p.lastnz).getD j 0 = 0 := by
              intro j hj
              rw [List.getD_eq_default _ _ (by rw [hlen]; omega)]
            rw [hout (2 * (2 * i)) (by omega), hout (2 * (2 * i) + 1) (by omega)]
            simp)
      (by rw [← hext]; unfold decRoom; omega) (decRoom_reads hok) (hext ▸ htail)
    rw [show decRd (bodySt (Lc3Config.new f d).ne p) =
      ⟨(bodySt (Lc3Config.new f d).ne p).abs.S + 3, (bodySt (Lc3Config.new f d).ne p).tl.length⟩ from rfl, hlsb]
    rfl
  rw [hres]
  simp only [Res.bind_ok]
  rw [seed_ok hlz hne h.data.lines hseed]
  simp only [Res.bind_ok]
  have hl0 : 1 < (expectedX p).length := by
    unfold expectedX; simp [h.data.lines]; omega
  have e0 := idx_eq_ok (l := expectedX p) (i := 0) (by omega)
  have e1 := idx_eq_ok (l := expectedX p) (i := 1) hl0
  have hz := expectedZero_eq h.data.lines hlo e0 e1
  rw [e0, e1]
  simp only [Res.bind_ok]
  have hz' : ((expectedSide p q).lastnz == 2 && (expectedX p)[0] == 0 && (expectedX p)[1] == 0 &&
    (expectedSide p q).globalGainIndex == 0) = expectedZero p := hz
  rw [hz', Nat.mul_comm B.length 8]

end Lc3
