import Verif.Props.BitCost
import Verif.Props.Silence
/-!
# C124: the encoder reserves no more bits than needed

C53 shows that the budget of the encoder is large enough. Here: what is reserved besides the spectrum exceeds what is needed by less than
`1 + 9 / 2048` bits for every filter of temporal noise shaping and by the two, three or four bits for the range coder.
-/

namespace Lc3
open Scalar Tables Spec

theorem CountOf.waste {bits freqs : List (List Nat)} (h : CountOf bits freqs) {i j : Nat} {row : List Nat} {b : Nat}
    (hi : idx bits i = .ok row) (hj : idx row j = .ok b) : (b : ℝ) < 2048 * idealBits ((freqs.getD i []).getD j 0) + 1 := by
  have h1 := idx_ok_iff.1 hi
  have h2 := idx_ok_iff.1 hj
  obtain ⟨hi', rfl⟩ := List.getElem?_eq_some_iff.1 h1
  obtain ⟨hj', rfl⟩ := List.getElem?_eq_some_iff.1 h2
  obtain ⟨-, h3⟩ := h.2 i hi'
  rw [List.getD_eq_getElem _ _ hi'] at h3
  have := h3 j hj'
  rw [List.getD_eq_getElem _ _ hj'] at this
  have hc := Int.ceil_lt_add_one (2048 * idealBits ((freqs.getD i []).getD j 0))
  rw [← this] at hc
  exact_mod_cast hc

theorem tnsCoefBits_waste : ∀ (cs : List Nat) (k b : Nat), tnsCoefBits k cs = .ok b →
    (b : ℝ) ≤ 2048 * (cs.mapIdx fun i c => idealBits ((AC_TNS_COEF_FREQ.getD (k + i) []).getD c 0)).sum + (cs.length : ℝ)
  | [], k, b, h => by
    simp only [tnsCoefBits, Res.ok.injEq] at h
    subst h
    simp
  | c :: cs, k, b, h => by
    simp only [tnsCoefBits] at h
    obtain ⟨row, h1, h⟩ := Res.bind_eq_ok.1 h
    obtain ⟨v, h2, h⟩ := Res.bind_eq_ok.1 h
    obtain ⟨r, h3, h⟩ := Res.bind_eq_ok.1 h
    simp only [Res.ok.injEq] at h
    subst h
    have i1 := tnsCoefBits_waste cs (k + 1) r h3
    have hc := C51.2.2.waste h1 h2
    rw [List.mapIdx_cons, List.sum_cons]
    simp only [List.length_cons]
    have : (fun i c => idealBits ((AC_TNS_COEF_FREQ.getD (k + (i + 1)) []).getD c 0)) =
        (fun i c => idealBits ((AC_TNS_COEF_FREQ.getD (k + 1 + i) []).getD c 0)) := by
      funext i c
      rw [show k + (i + 1) = k + 1 + i by omega]
    rw [this, Nat.add_zero]
    push_cast
    linarith

theorem tnsFilterBits_waste {w : Nat} {ints : List Nat} (hl : ints.length = 8) {b : Nat} (h : tnsFilterBits ℝ w ints = .ok b) :
    (b : ℝ) < filterInfo w (ints.take (tnsOrder ints)) + 2 + 9 / 2048 := by
  unfold tnsFilterBits at h
  simp only at h
  obtain ⟨ob, h1, h⟩ := Res.bind_eq_ok.1 h
  obtain ⟨cb, h2, h⟩ := Res.bind_eq_ok.1 h
  simp only [Res.ok.injEq] at h
  have c1 := tnsCoefBits_waste _ _ _ h2
  obtain ⟨-, c2⟩ := tnsCoefBits_cost _ _ _ h2
  have ho8 : tnsOrder ints ≤ ints.length := tnsOrder_le ints
  rw [List.length_take, Nat.min_eq_left ho8] at c2 c1
  have hob : ob ≤ 65536 ∧ (ob : ℝ) ≤ 2048 * (if tnsOrder ints = 0 then 0 else idealBits ((AC_TNS_ORDER_FREQ.getD w []).getD (tnsOrder ints - 1) 0)) + 1 := by
    by_cases ho : tnsOrder ints = 0
    · rw [if_neg (by simpa using ho)] at h1
      simp only [Res.ok.injEq] at h1
      subst h1
      simp [ho]
    · rw [if_pos ho] at h1
      obtain ⟨row, g1, g2⟩ := Res.bind_eq_ok.1 h1
      rw [if_neg ho]
      refine ⟨?_, (C51.2.1.waste g1 g2).le⟩
      have hall : AC_TNS_ORDER_BITS.all (fun row => row.all fun v => decide (v ≤ 65536)) = true := by decide +kernel
      have := List.all_eq_true.1 hall _ (idx_mem g1)
      simpa using List.all_eq_true.1 this _ (idx_mem g2)
  have hb : b = bits2048 ℝ (2048 + ob + cb) := by
    rw [← h]
    unfold bits2048
    congr 2
    show (((2048 : ℚ) : ℝ) + (((ob : ℤ) : ℚ) : ℝ) + (((cb : ℤ) : ℚ) : ℝ)) / ((2048 : ℚ) : ℝ) = ((((2048 + ob + cb : ℕ) : ℤ) : ℚ) : ℝ) / ((2048 : ℚ) : ℝ)
    push_cast
    rfl
  have hlt : 2048 * b < 2048 + ob + cb + 2048 := by
    rw [hb, bits2048_real _ (by omega)]; omega
  have hlt' : 2048 * (b : ℝ) < 2048 + ob + cb + 2048 := by exact_mod_cast hlt
  have ho : (tnsOrder ints : ℝ) ≤ 8 := by
    have : tnsOrder ints ≤ 8 := by omega
    exact_mod_cast this
  unfold filterInfo
  by_cases ho : tnsOrder ints = 0
  · rw [ho, List.take_zero, if_pos rfl]
    simp only [ho, List.take_zero, List.mapIdx_nil, List.sum_nil, if_true] at c1 hob
    have h0 : ((0 : ℕ) : ℝ) = 0 := Nat.cast_zero
    linarith [hob.2]
  · have hne : ints.take (tnsOrder ints) ≠ [] := by
      intro hc
      have := congrArg List.length hc
      rw [List.length_take, Nat.min_eq_left ho8] at this
      exact ho this
    rw [if_neg hne, List.length_take, Nat.min_eq_left ho8]
    rw [if_neg ho] at hob
    simp only [Nat.zero_add] at c1
    linarith [hob.2]

/-- **C124** (temporal noise shaping) The bits counted for the filters exceed their flags and their information by less than `1 + 9 / 2048`
bits for every filter, and are never less. -/
theorem C124_tns {cfg : Lc3Config} {x : List ℝ} {bw nbits : Nat} {nn : Bool} {res : TnsResult ℝ}
    (h : tnsEncRun cfg x bw nbits nn = .ok res) :
    ((List.range res.numFilters).map fun f => 1 + filterInfo res.lpcWeighting ((res.rcI.drop (8 * f)).take (res.rcOrder.getD f 0))).sum ≤ res.nbitsTns ∧
    (res.nbitsTns : ℝ) <
      ((List.range res.numFilters).map fun f => 2 + 9 / 2048 + filterInfo res.lpcWeighting ((res.rcI.drop (8 * f)).take (res.rcOrder.getD f 0))).sum := by
  unfold tnsEncRun at h
  split at h
  · cases h
  obtain ⟨p, h1, h⟩ := bind_ok_inv h
  simp only at h
  obtain ⟨ints, e2, h⟩ := bind_ok_inv h
  obtain ⟨bits, e3, h⟩ := bind_ok_inv h
  obtain ⟨lines, -, h⟩ := bind_ok_inv h
  simp only [Res.ok.injEq] at h
  subst h
  simp only
  have hf := mapM_forall₂ e2
  have hf' := mapM_forall₂ e3
  obtain ⟨-, hn, hn2, -⟩ := tnsParams_shape h1
  have hn1 : 1 ≤ p.numFilters := by
    revert h1
    unfold tnsParams
    split <;> intro e1 <;> cases e1 <;> simp
  have h2 : ints.length = p.numFilters := by rw [← hf.length_eq, hn]
  have h3 : ∀ l ∈ ints, l.length = 8 := by
    intro l hl
    obtain ⟨i, hi, rfl⟩ := List.getElem_of_mem hl
    exact (tnsFilterInts_facts ((List.forall₂_iff_get.1 hf).2 i (by rw [hf.length_eq]; exact hi) hi)).1
  rw [← h2] at hn2 hn1 ⊢
  clear e2 e3 hf
  match ints, bits, hf', hn2, h3 with
  | [], [], _, _, _ => simp at hn1
  | [a], [b], .cons q1 .nil, _, h3 =>
    have la := h3 a (by simp)
    obtain ⟨r1, r2⟩ := tnsFilterBits_cost la q1
    have r3 := tnsFilterBits_waste la q1
    have ho8 : tnsOrder a ≤ a.length := tnsOrder_le a
    have hc : (([a].flatten ++ List.replicate (16 - 8 * [a].length) 8).drop (8 * 0)).take
        ((List.map tnsOrder [a] ++ List.replicate (2 - [a].length) 0).getD 0 0) = a.take (tnsOrder a) := by
      have g0 : List.getD (List.map tnsOrder [a] ++ List.replicate (2 - [a].length) 0) 0 0 = tnsOrder a := rfl
      rw [g0]
      simp only [Nat.mul_zero, List.drop_zero, List.flatten_cons, List.flatten_nil, List.append_nil]
      rw [List.take_append_of_le_length ho8]
    have hr : List.range [a].length = [0] := rfl
    rw [hr]
    simp only [List.map_cons, List.map_nil, List.sum_cons, List.sum_nil] at hc ⊢
    rw [hc]
    push_cast
    constructor <;> linarith
  | [a, c], [b, e], .cons q1 (.cons q2 .nil), _, h3 =>
    have la := h3 a (by simp)
    have lc := h3 c (by simp)
    obtain ⟨r1, r2⟩ := tnsFilterBits_cost la q1
    obtain ⟨r3, r4⟩ := tnsFilterBits_cost lc q2
    have r5 := tnsFilterBits_waste la q1
    have r6 := tnsFilterBits_waste lc q2
    have ho8 : tnsOrder a ≤ a.length := tnsOrder_le a
    have ho8' : tnsOrder c ≤ c.length := tnsOrder_le c
    have hc : (([a, c].flatten ++ List.replicate (16 - 8 * [a, c].length) 8).drop (8 * 0)).take
        ((List.map tnsOrder [a, c] ++ List.replicate (2 - [a, c].length) 0).getD 0 0) = a.take (tnsOrder a) := by
      have g0 : List.getD (List.map tnsOrder [a, c] ++ List.replicate (2 - [a, c].length) 0) 0 0 = tnsOrder a := rfl
      rw [g0]
      simp only [Nat.mul_zero, List.drop_zero, List.flatten_cons, List.flatten_nil, List.append_nil, List.append_assoc]
      rw [List.take_append_of_le_length ho8]
    have hc2 : (([a, c].flatten ++ List.replicate (16 - 8 * [a, c].length) 8).drop (8 * 1)).take
        ((List.map tnsOrder [a, c] ++ List.replicate (2 - [a, c].length) 0).getD 1 0) = c.take (tnsOrder c) := by
      have g1 : List.getD (List.map tnsOrder [a, c] ++ List.replicate (2 - [a, c].length) 0) 1 0 = tnsOrder c := rfl
      rw [g1]
      simp only [Nat.mul_one, List.flatten_cons, List.flatten_nil, List.append_nil, List.append_assoc]
      rw [List.drop_append_of_le_length (by omega), List.drop_of_length_le (by omega), List.nil_append,
        List.take_append_of_le_length ho8']
    have hr : List.range [a, c].length = [0, 1] := rfl
    rw [hr]
    simp only [List.map_cons, List.map_nil, List.sum_cons, List.sum_nil] at hc hc2 ⊢
    rw [hc, hc2]
    push_cast
    constructor <;> linarith

/-- **C124** In exact arithmetic: for every frame the encoder analyses, the budget `B` of its quantiser, the information of the filters and the
side information fill the frame up to two (up to 160 bytes), three (up to 320 bytes) or four bits and less than `1 + 9 / 2048` bits for
every filter. -/
theorem C124 {f : SamplingFrequency} {d : FrameDuration} {ch : EncChannel ℝ} (hi : ch.Inv (Lc3Config.new f d))
    {x : List Int} {nbytes : Nat} {a : EncAnalysis ℝ} (h : encAnalyse (Lc3Config.new f d) ch x nbytes = .ok a) :
    ∃ (q : QuantOut ℝ) (tnsBits pitchBits : Nat), quantRun (Lc3Config.new f d).ne (Lc3Config.new f d).fsInd ch.quant a.lines (nbytes * 8) a.p.nbitsBandwidth
        tnsBits pitchBits = .ok (a.quant, q) ∧ a.p.xq = q.xq ∧ a.p.lastnz = q.lastnzTrunc ∧ a.p.nbitsBandwidth = clog2 ((Lc3Config.new f d).fsInd + 1) ∧
      ∃ waste : ℝ, (if nbytes ≤ 160 then 2 else if nbytes ≤ 320 then 3 else 4) ≤ waste ∧
        waste < (if nbytes ≤ 160 then 2 else if nbytes ≤ 320 then 3 else 4) + a.p.numTns * (1 + 9 / 2048) ∧
        (q.nbitsSpec : ℝ) + sideLength a.p.nbitsBandwidth (clog2 ((Lc3Config.new f d).ne / 2)) a.p.numTns a.p.pitchPresent +
          ((List.range a.p.numTns).map fun f => filterInfo a.p.lpcWeighting ((a.p.rcI.drop (8 * f)).take (a.p.rcOrder.getD f 0))).sum + waste =
          8 * nbytes := by
  obtain ⟨freq, out, eb, nn, bwInd, nbitsBw, attack, det, sns, tns, ltpf, pf, quant, spec, res, nf, e1, e2, e3, e4, e5, e6, e7,
    e8, e9, e10, ha⟩ := encAnalyse_inv h
  obtain ⟨hx, hb⟩ := mdctEncRun_eb e1
  obtain ⟨s', r, l1, -, l2⟩ := C41_run f d ch.ltpf hi.ltpf x hx nn (nbytes * 8)
  rw [e7] at l1
  simp only [Res.ok.injEq, Prod.mk.injEq] at l1
  obtain ⟨rfl, rfl⟩ := l1
  have l3 := l2.2.1
  obtain ⟨t1, t2⟩ := C124_tns e6
  obtain ⟨-, hbud, -⟩ := quantRun_inv e8
  subst ha
  simp only
  have hsum : ∀ (c : ℝ) (g : ℕ → ℝ) (n : ℕ), ((List.range n).map fun f => c + g f).sum = n * c + ((List.range n).map g).sum := by
    intro c g n
    induction n with
    | zero => simp
    | succ n ih => rw [List.range_succ, List.map_append, List.sum_append, List.map_append, List.sum_append, ih]; simp; ring
  rw [hsum] at t1 t2
  refine ⟨spec, tns.nbitsTns, pf.nbitsLtpf, e8, rfl, rfl, ?_, _, ?_, ?_, (add_sub_cancel _ _)⟩
  · have hfs : (Lc3Config.new f d).fsInd ≤ 4 := by cases f <;> cases d <;> decide
    have hnb := snsEncRun_nb e5
    obtain ⟨ind, nb, g1, -, g2, -⟩ := C34 (α := ℝ) (Lc3Config.new f d).nMs hfs hi.bw (hb.trans hnb)
    rw [e3] at g1
    simp only [Res.ok.injEq, Prod.mk.injEq] at g1
    obtain ⟨-, rfl⟩ := g1
    have h8 : 0 < (Lc3Config.new f d).fsInd := by
      rcases Nat.eq_zero_or_pos (Lc3Config.new f d).fsInd with h0 | h0
      · have := hi.bw
        rw [h0, bwNew_zero] at this
        cases this
      · exact h0
    generalize (Lc3Config.new f d).fsInd = k at g2 h8 hfs
    interval_cases k <;> simp [NBITS_BW_TABLE] at g2 <;> rw [← g2] <;> decide
  all_goals
    generalize ((List.range tns.numFilters).map fun f => filterInfo tns.lpcWeighting ((tns.rcI.drop (8 * f)).take (tns.rcOrder.getD f 0))).sum = I at *
    have hk : ((nbitsBw + tns.nbitsTns + pf.nbitsLtpf + nbitsFixed (Lc3Config.new f d).ne (nbytes * 8) + spec.nbitsSpec : ℕ) : ℝ) = ((nbytes * 8 : ℕ) : ℝ) := by
      exact_mod_cast hbud
    have f1 : (nbytes * 8 ≤ 1280) ↔ nbytes ≤ 160 := by omega
    have f2 : (nbytes * 8 ≤ 2560) ↔ nbytes ≤ 320 := by omega
    unfold nbitsFixed at hk
    rw [l3] at hk
    simp only [f1, f2] at hk
    unfold sideLength
    push_cast at hk ⊢
    rcases Bool.eq_false_or_eq_true pf.pitchPresent with hp | hp <;> rw [hp] at hk ⊢ <;> simp only [if_true, if_false, Bool.false_eq_true] at hk ⊢ <;> split_ifs at hk ⊢ <;> push_cast at hk ⊢ <;> linarith

/-- C124 applies to a silent frame of 100 bytes at 48 kHz -/
example : ∃ (ch : EncChannel ℝ) (a : EncAnalysis ℝ), ch.Inv (Lc3Config.new .hz48000 .tenMs) ∧
    encAnalyse (Lc3Config.new .hz48000 .tenMs) ch (List.replicate 480 0) 100 = .ok a := by
  obtain ⟨ch, hi, h0⟩ := newChannel_48 .tenMs
  obtain ⟨a, s, t, h, -⟩ := silence_coded true hi h0 (x := List.replicate 480 0) List.length_replicate (AllZero.replicate _)
    (buf := List.replicate 100 0) (by simp) (by simp)
  have := h.analysed
  rw [List.length_replicate] at this
  exact ⟨ch, a, hi, this⟩

end Lc3
