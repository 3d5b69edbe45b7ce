import Verif.Lemmas.FrameRead
import Mathlib.Data.List.GetD
/-! `read_frame` on any finished frame in LSB mode: the postponed bits may be applied to the wrong lines, but no line moves
far. -/

namespace Lc3
open Tables

/-- what one postponed bit can make of a line `x` -/
def Refines (x y : Int) : Prop :=
  y = x ∨ (0 < x ∧ y = x + 1) ∨ (x < 0 ∧ y = x - 1) ∨ (x = 0 ∧ (y = 1 ∨ y = -1))

theorem readResBit_any {B : List Nat} {h t n : Nat} {x : Int}
    (hr : ∀ i, i < n → t + i < 8 * B.length ∧ h + (t + i) / 8 ≤ B.length + 2) :
    ∃ c y m, m ≤ n ∧ readResBit B ⟨h, t⟩ x n = .ok ((c, y, n - m), ⟨h, t + m⟩) ∧ Refines x y := by
  unfold readResBit
  cases n with
  | zero => exact ⟨false, x, 0, by omega, rfl, .inl rfl⟩
  | succ n =>
    have h0 := hr 0 (by omega)
    simp only
    rw [readTailBool_eq (by simpa using h0.1) (by simpa using h0.2)]
    simp only [Res.bind_ok]
    split
    · split
      · exact ⟨true, x + 1, 1, by omega, rfl, .inr (.inl ⟨by omega, rfl⟩)⟩
      · split
        · exact ⟨true, x - 1, 1, by omega, rfl, .inr (.inr (.inl ⟨by omega, rfl⟩))⟩
        · cases n with
          | zero => exact ⟨false, x, 1, by omega, rfl, .inl rfl⟩
          | succ n =>
            have h1 := hr 1 (by omega)
            simp only
            rw [readTailBool_eq (by simpa using h1.1) (by simpa using h1.2)]
            simp only [Res.bind_ok]
            refine ⟨true, _, 2, by omega, rfl, .inr (.inr (.inr ⟨by omega, ?_⟩))⟩
            split
            · exact .inr rfl
            · exact .inl rfl
    · exact ⟨true, x, 1, by omega, rfl, .inl rfl⟩

/-- With any level table the postponed bits are read within the frame, change every line by at most one, and only lines of
pairs whose entry in the table is positive. -/
theorem decodeResidualLsb_any {B saveLev : List Nat} {h : Nat} :
    ∀ (m : Nat) (xs : List Int) (k t n : Nat), xs.length = 2 * m → 2 * (k + m) ≤ saveLev.length + 1 →
      (∀ i, i < n → t + i < 8 * B.length ∧ h + (t + i) / 8 ≤ B.length + 2) →
      ∃ ys r, decodeResidualLsb B saveLev xs k n ⟨h, t⟩ = .ok (ys, r) ∧ ys.length = xs.length ∧
        (∀ i, Refines (xs.getD i 0) (ys.getD i 0)) ∧
        ∀ i, saveLev.getD (2 * (k + i / 2)) 0 = 0 → ys.getD i 0 = xs.getD i 0 := by
  intro m
  induction m with
  | zero =>
    intro xs k t n hl _ _
    have : xs = [] := List.length_eq_zero_iff.1 (by omega)
    subst this
    exact ⟨[], _, rfl, rfl, fun _ => .inl rfl, fun _ _ => rfl⟩
  | succ m ih =>
    intro xs k t n hl hs hr
    match xs, hl with
    | x0 :: x1 :: xs, hl =>
      have hlx : xs.length = 2 * m := by simp at hl; omega
      unfold decodeResidualLsb
      rw [idx_eq_ok (i := 2 * k) (by omega)]
      simp only [Res.bind_ok]
      have hget : saveLev.getD (2 * k) 0 = saveLev[2 * k]'(by omega) := List.getD_eq_getElem _ _ (by omega)
      have shift : ∀ {i : Nat}, saveLev.getD (2 * (k + (i + 2) / 2)) 0 = 0 → saveLev.getD (2 * (k + 1 + i / 2)) 0 = 0 := by
        intro i hi
        rw [← hi]; congr 1; omega
      by_cases hlev : saveLev[2 * k]'(by omega) > 0
      · rw [if_pos hlev]
        have fin : ∀ (y0 y1 : Int) (r : Reader), Refines x0 y0 → Refines x1 y1 →
            ∃ ys r', (Res.ok (y0 :: y1 :: xs, r) : Res (List Int × Reader)) = .ok (ys, r') ∧
            ys.length = (x0 :: x1 :: xs).length ∧
            (∀ i, Refines ((x0 :: x1 :: xs).getD i 0) (ys.getD i 0)) ∧
            ∀ i, saveLev.getD (2 * (k + i / 2)) 0 = 0 → ys.getD i 0 = (x0 :: x1 :: xs).getD i 0 := by
          intro y0 y1 r h0 h1
          refine ⟨_, _, rfl, by simp, ?_, ?_⟩
          · intro i
            match i with
            | 0 => exact h0
            | 1 => exact h1
            | i + 2 => exact .inl rfl
          · intro i hi
            match i with
            | 0 => rw [show 2 * (k + 0 / 2) = 2 * k by omega] at hi; omega
            | 1 => rw [show 2 * (k + 1 / 2) = 2 * k by omega] at hi; omega
            | i + 2 => rfl
        obtain ⟨c0, y0, m0, l0, e0, r0⟩ := readResBit_any (B := B) (h := h) (t := t) (x := x0) hr
        rw [e0]
        simp only [Res.bind_ok]
        cases c0 with
        | false => exact fin y0 x1 _ r0 (.inl rfl)
        | true =>
          simp only [Bool.not_true, Bool.false_eq_true, if_false]
          have hr1 : ∀ i, i < n - m0 → t + m0 + i < 8 * B.length ∧ h + (t + m0 + i) / 8 ≤ B.length + 2 := by
            intro i hi
            have := hr (m0 + i) (by omega)
            rw [← Nat.add_assoc] at this
            exact this
          obtain ⟨c1, y1, m1, l1, e1, r1⟩ := readResBit_any (B := B) (h := h) (t := t + m0) (x := x1) hr1
          rw [e1]
          simp only [Res.bind_ok]
          cases c1 with
          | false => exact fin y0 y1 _ r0 r1
          | true =>
            simp only [Bool.not_true, Bool.false_eq_true, if_false]
            obtain ⟨ys, r, e, hy, hn, hz⟩ := ih xs (k + 1) (t + m0 + m1) (n - m0 - m1) hlx (by omega) (by
              intro i hi
              have := hr1 (m1 + i) (by omega)
              rw [← Nat.add_assoc] at this
              exact this)
            rw [e]
            simp only [Res.bind_ok]
            refine ⟨_, _, rfl, by simp [hy], ?_, ?_⟩
            · intro i
              match i with
              | 0 => exact r0
              | 1 => exact r1
              | i + 2 => exact hn i
            · intro i hi
              match i with
              | 0 => rw [show 2 * (k + 0 / 2) = 2 * k by omega] at hi; omega
              | 1 => rw [show 2 * (k + 1 / 2) = 2 * k by omega] at hi; omega
              | i + 2 => exact hz i (shift hi)
      · rw [if_neg hlev]
        obtain ⟨ys, r, e, hy, hn, hz⟩ := ih xs (k + 1) t n hlx (by omega) hr
        rw [e]
        simp only [Res.bind_ok]
        refine ⟨_, _, rfl, by simp [hy], ?_, ?_⟩
        · intro i
          match i with
          | 0 => exact .inl rfl
          | 1 => exact .inl rfl
          | i + 2 => exact hn i
        · intro i hi
          match i with
          | 0 => rfl
          | 1 => rfl
          | i + 2 => exact hz i (shift hi)

/-- A line without its lowest bit, refined by whatever bit: at most one off, except that `1` and `-1` may be exchanged. -/
theorem Refines.coarse_error {b : Bool} {z y : Int} (h : Refines (coarse b z) y) :
    (y - z).natAbs ≤ 1 ∨ (z.natAbs = 1 ∧ y = -z) := by
  unfold Refines coarse at h
  cases b
  · simp only [Bool.false_eq_true, if_false] at h
    omega
  · simp only [if_true] at h
    split at h <;> omega

theorem coarseLines_length : ∀ (m : Nat) (xs : List Int), xs.length = 2 * m → (coarseLines xs).length = 2 * m := by
  intro m
  induction m with
  | zero =>
    intro xs hl
    have : xs = [] := List.length_eq_zero_iff.1 (by omega)
    subst this; rfl
  | succ m ih =>
    intro xs hl
    match xs, hl with
    | x0 :: x1 :: xs, hl =>
      simp only [coarseLines, List.length_cons, ih xs (by simp at hl; omega)]
      omega

theorem coarseLines_getD : ∀ (m : Nat) (xs : List Int), xs.length = 2 * m → ∀ i,
    (coarseLines xs).getD i 0 =
      coarse (decide (0 < levOf (xs.getD (2 * (i / 2)) 0) (xs.getD (2 * (i / 2) + 1) 0))) (xs.getD i 0) := by
  intro m
  induction m with
  | zero =>
    intro xs hl i
    have : xs = [] := List.length_eq_zero_iff.1 (by omega)
    subst this
    simp only [coarseLines, List.getD_nil]
    unfold coarse
    split <;> simp
  | succ m ih =>
    intro xs hl i
    match xs, hl with
    | x0 :: x1 :: xs, hl =>
      match i with
      | 0 => rfl
      | 1 => rfl
      | i + 2 =>
        have := ih xs (by simp at hl; omega) i
        rw [show 2 * ((i + 2) / 2) = 2 * (i / 2) + 1 + 1 by omega]
        simp only [coarseLines, List.getD_cons_succ]
        exact this

/-- LSB mode, any frame. -/
theorem readFrame_lsb_any {f : SamplingFrequency} {d : FrameDuration} {p : FrameParams} {q : PulseIdx}
    {B : List Nat} {ext : List Bool} (checks : Bool) (h : BodyHyp (Lc3Config.new f d) B.length p q)
    (hmode : p.lsbMode = true)
    (hg : Good B ⟨(bodySt (Lc3Config.new f d).ne p).abs, (bodySt (Lc3Config.new f d).ne p).tl ++ ext⟩)
    (hfit : (bodySt (Lc3Config.new f d).ne p).tl.length + 8 * (bodySt (Lc3Config.new f d).ne p).abs.S +
      (25 - Nat.log2 (bodySt (Lc3Config.new f d).ne p).abs.R) ≤ 8 * B.length)
    (hseed : checks = false ∨ weightedSum (p.xq.take p.lastnz) + 400000 < 2 ^ 31) :
    ∃ ys, ys.length = p.lastnz ∧
      (∀ i, (ys.getD i 0 - (p.xq.take p.lastnz).getD i 0).natAbs ≤ 1 ∨
        (((p.xq.take p.lastnz).getD i 0).natAbs = 1 ∧ ys.getD i 0 = -(p.xq.take p.lastnz).getD i 0)) ∧
      (∀ i, ¬ Escaped p (i / 2) → ¬ Escaped p (2 * (i / 2)) → ys.getD i 0 = (p.xq.take p.lastnz).getD i 0) ∧
      readFrame checks (Lc3Config.new f d) B = .ok (expectedSide p q,
        ⟨expectedOrders p, expectedTnsIdx p, [], weightedSum ys % 65536,
          decide (p.lastnz = 2 ∧ p.ggInd = 0 ∧ ∀ x ∈ ys, x = 0), 8 * B.length⟩,
        ys ++ List.replicate (400 - p.lastnz) 0) := by
  obtain ⟨hg1, htail⟩ := hg.dropTail
  have hok := bodySt_ok h (Lc3Config.new f d).ne
  obtain ⟨hl1, hl2⟩ := log2_le hok.1 hok.2
  have hmin := bodySt_tl_min h.side
  have hfp := front_post h hg1 (by omega)
  have hlen := take_len h.data.lines h.side.lastnzEven
  have hlz := h.side.lastnzHi
  have hlo := h.side.lastnzLo
  have hev := h.side.lastnzEven
  have hne := ne_le f d
  have hlines := h.data.lines
  have hx : pairLines (pairsDec p.lsbMode (p.xq.take p.lastnz)) ++ List.replicate (400 - p.lastnz) 0 =
      coarseLines (p.xq.take p.lastnz) ++ List.replicate (400 - p.lastnz) 0 := by
    rw [pairLines_pairsDec _ _ _ hlen, hmode]; rfl
  have hclen : (coarseLines (p.xq.take p.lastnz)).length = p.lastnz := by
    rw [coarseLines_length _ _ hlen]; omega
  obtain ⟨ys, rd, e, hy, hn, hz⟩ := decodeResidualLsb_any (B := B) (h := (bodySt (Lc3Config.new f d).ne p).abs.S + 3)
    (saveLev := (pairsDec true (p.xq.take p.lastnz)).map (·.2.2) ++ List.replicate (400 - p.lastnz / 2) 0)
    (p.lastnz / 2) (coarseLines (p.xq.take p.lastnz)) 0 (bodySt (Lc3Config.new f d).ne p).tl.length
    (decRoom B.length (bodySt (Lc3Config.new f d).ne p)) (by omega)
    (by rw [List.length_append, List.length_map, pairsDec_length _ _ _ hlen, List.length_replicate]; omega)
    (decRoom_reads hok)
  have hylen : ys.length = p.lastnz := by omega
  have herr : ∀ i, (ys.getD i 0 - (p.xq.take p.lastnz).getD i 0).natAbs ≤ 1 ∨
        (((p.xq.take p.lastnz).getD i 0).natAbs = 1 ∧ ys.getD i 0 = -(p.xq.take p.lastnz).getD i 0) := by
    intro i
    have := hn i
    rw [coarseLines_getD _ _ hlen] at this
    exact this.coarse_error
  refine ⟨ys, hylen, herr, ?_, ?_⟩
  · intro i h1 h2
    have hr := getD_range h.data.range
    rw [hz i ?_, coarseLines_getD _ _ hlen]
    · unfold Escaped at h1
      rw [← levOf_pos (hr _) (hr _)] at h1
      simp only [h1, decide_false]
      rfl
    · rw [Nat.zero_add]
      unfold Escaped at h2
      rw [← levOf_pos (hr _) (hr _)] at h2
      by_cases hin : 2 * (i / 2) < p.lastnz / 2
      · have := pairsDec_lev true _ _ hlen (2 * (i / 2)) hin
        rw [List.getD_eq_getElem?_getD, List.getElem?_append_left (by rw [List.length_map, pairsDec_length _ _ _ hlen]; exact hin),
          this]
        simp only [Option.getD_some]
        omega
      · rw [List.getD_append_right _ _ _ _ (by rw [List.length_map, pairsDec_length _ _ _ hlen]; omega)]
        rw [List.getD_eq_getElem?_getD, List.getElem?_replicate]
        split <;> rfl
  · unfold readFrame
    rw [hfp.side]
    simp only [Res.bind_ok]
    unfold arithDecode
    simp only
    rw [hfp.init]
    simp only [Res.bind_ok]
    rw [hfp.tns]
    simp only [Res.bind_ok]
    rw [hfp.spec, hx]
    simp only [Res.bind_ok]
    have hres : decodeResidualBits B (decRd (bodySt (Lc3Config.new f d).ne p)) (expectedSide p q)
        (decAc B (bodySt (Lc3Config.new f d).ne p)) (B.length * 8) (Lc3Config.new f d).ne
        (coarseLines (p.xq.take p.lastnz) ++ List.replicate (400 - p.lastnz) 0)
        ((if p.lsbMode then (pairsDec p.lsbMode (p.xq.take p.lastnz)).map (·.2.2) else []) ++
        List.replicate (400 - (if p.lsbMode then p.lastnz / 2 else 0)) 0) =
        .ok (([], ys ++ List.replicate (400 - p.lastnz) 0), rd) := by
      unfold decodeResidualBits
      rw [calcNumResidualBits_spec hok (by omega) (by omega)]
      have hm : (expectedSide p q).lsbMode = true := hmode
      have hz : (expectedSide p q).lastnz = p.lastnz := rfl
      simp only [Res.bind_ok, hm, hz, hmode, if_true, Bool.not_true, Bool.false_eq_true, if_false]
      rw [List.take_left' hclen, List.drop_left' hclen]
      rw [show decRd (bodySt (Lc3Config.new f d).ne p) =
        ⟨(bodySt (Lc3Config.new f d).ne p).abs.S + 3, (bodySt (Lc3Config.new f d).ne p).tl.length⟩ from rfl, e]
      rfl
    rw [hres]
    simp only [Res.bind_ok]
    have hsum : weightedSum ys ≤ weightedSum (p.xq.take p.lastnz) + 400000 := by
      have hb : ∀ i, (ys.getD i 0).natAbs ≤ ((p.xq.take p.lastnz).getD i 0).natAbs + 1 := by
        intro i
        have := herr i
        omega
      have hll : (p.xq.take p.lastnz).length = ys.length := by rw [hlen, hylen]; omega
      unfold weightedSum
      rw [hll]
      have : ∀ l : List Nat, (∀ k ∈ l, k < 400) → (l.map fun k => (ys.getD k 0).natAbs * k).sum ≤
          (l.map fun k => ((p.xq.take p.lastnz).getD k 0).natAbs * k).sum + 400 * l.length := by
        intro l
        induction l with
        | nil => intro _; simp
        | cons a l ih =>
          intro hk
          have h1 := ih (fun k hk' => hk k (by simp [hk']))
          have h2 := hk a (by simp)
          have h3 := Nat.mul_le_mul_right a (hb a)
          rw [Nat.add_mul] at h3
          simp only [List.map_cons, List.sum_cons, List.length_cons]
          omega
      have h1 := this (List.range ys.length) (fun k hk => by rw [List.mem_range] at hk; omega)
      rw [List.length_range] at h1
      omega
    have hseed' : noiseFillingSeed checks ((ys ++ List.replicate (400 - p.lastnz) 0).take (Lc3Config.new f d).ne) =
        .ok (weightedSum ys % 65536) := by
      unfold noiseFillingSeed
      rw [take_expected hlz hne _ hylen, seedSum_append_zeros, seedSum_weighted]
      simp only
      have hno : (checks && decide (2 ^ 31 ≤ weightedSum ys)) = false := by
        rcases hseed with h | h
        · simp [h]
        · have : ¬ 2 ^ 31 ≤ weightedSum ys := by omega
          simp only [this, decide_false, Bool.and_false]
      rw [hno]
      rfl
    rw [hseed']
    simp only [Res.bind_ok]
    have hl0 : 1 < (ys ++ List.replicate (400 - p.lastnz) 0).length := by
      rw [List.length_append]; omega
    have e0 := idx_eq_ok (l := ys ++ List.replicate (400 - p.lastnz) 0) (i := 0) (by omega)
    have e1 := idx_eq_ok (l := ys ++ List.replicate (400 - p.lastnz) 0) (i := 1) hl0
    rw [List.getElem_append_left (by omega)] at e0 e1
    rw [e0, e1]
    simp only [Res.bind_ok]
    have hz' : ((expectedSide p q).lastnz == 2 && ys[0] == 0 && ys[1] == 0 &&
      (expectedSide p q).globalGainIndex == 0) = decide (p.lastnz = 2 ∧ p.ggInd = 0 ∧ ∀ x ∈ ys, x = 0) := by
      show (p.lastnz == 2 && ys[0] == 0 && ys[1] == 0 && p.ggInd == 0) = _
      rw [Bool.eq_iff_iff]
      simp only [Bool.and_eq_true, beq_iff_eq, decide_eq_true_eq]
      constructor
      · rintro ⟨⟨⟨a1, a2⟩, a3⟩, a4⟩
        refine ⟨a1, a4, ?_⟩
        intro x hx
        obtain ⟨i, hi, rfl⟩ := List.mem_iff_getElem.1 hx
        have hcase : i = 0 ∨ i = 1 := by omega
        rcases hcase with rfl | rfl
        · exact a2
        · exact a3
      · rintro ⟨a1, a4, hx⟩
        exact ⟨⟨⟨a1, hx _ (List.getElem_mem _)⟩, hx _ (List.getElem_mem _)⟩, a4⟩
    rw [hz', Nat.mul_comm B.length 8]

end Lc3
