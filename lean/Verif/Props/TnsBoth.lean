import Verif.Props.TnsRun
import Verif.Props.TnsWitness
import Verif.Props.TnsGain
/-!
# C126: two filters of temporal noise shaping in one frame

The lattice of the second filter starts with the states the first one left behind. Its memory is as long as its order, hence after as many
lines as its order it is the filter of its own coefficients alone.
-/

namespace Lc3
open Scalar Spec

section
variable {α : Type} [Scalar α]

theorem encLattice_agree : ∀ (rs ss1 ss2 : List α) (t save : α) (j : Nat), ss1.length = ss2.length → ss1.take j = ss2.take j →
    (encLattice rs ss1 t save).2.2.take (j + 1) = (encLattice rs ss2 t save).2.2.take (j + 1)
  | [], ss1, ss2, t, save, j, _, _ => by simp [encLattice]
  | r :: rs, [], [], t, save, j, _, _ => rfl
  | r :: rs, a :: ss1, b :: ss2, t, save, 0, _, _ => by simp [encLattice]
  | r :: rs, a :: ss1, b :: ss2, t, save, j + 1, hl, h => by
    simp only [List.take_succ_cons, List.cons.injEq] at h
    obtain ⟨rfl, h⟩ := h
    simp only [encLattice, List.take_succ_cons, List.cons.injEq, true_and]
    exact encLattice_agree rs ss1 ss2 _ _ j (by simpa using hl) h

theorem encLattice_length : ∀ (rs ss : List α) (t save : α), rs.length = ss.length → (encLattice rs ss t save).2.2.length = rs.length
  | [], ss, t, save, _ => by simp [encLattice]
  | r :: rs, [], t, save, h => by simp at h
  | r :: rs, a :: ss, t, save, h => by
    simp only [encLattice, List.length_cons]
    rw [encLattice_length rs ss _ _ (by simpa using h)]

theorem encLatticeLine_length {rc st : List α} (h0 : rc ≠ []) (h8 : rc.length ≤ st.length) (x : α) :
    (encLatticeLine rc x st).2.length = st.length := by
  have h1 : 0 < rc.length := List.length_pos_iff.2 h0
  unfold encLatticeLine
  simp only [List.length_append, List.length_cons, List.length_drop]
  rw [encLattice_length _ _ _ _ (by rw [List.length_take, List.length_take]; omega), List.length_take]
  omega

/-- states that agree in the first `j` places agree in one place more after a line -/
theorem encLatticeLine_agree {rc s1 s2 : List α} (h0 : rc ≠ []) (h1 : rc.length ≤ s1.length) (hl : s1.length = s2.length) {j : Nat}
    (hj : s1.take j = s2.take j) (x : α) :
    (encLatticeLine rc x s1).2.take (min (j + 1) rc.length) = (encLatticeLine rc x s2).2.take (min (j + 1) rc.length) ∧
      (rc.length ≤ j → (encLatticeLine rc x s1).1 = (encLatticeLine rc x s2).1) := by
  have hp : 0 < rc.length := List.length_pos_iff.2 h0
  obtain ⟨k, hk⟩ : ∃ k, rc.length = k + 1 := ⟨rc.length - 1, by omega⟩
  have hk' : rc.length - 1 = k := by omega
  unfold encLatticeLine
  simp only [hk']
  have l1 : (encLattice (rc.take k) (s1.take k) x x).2.2.length = k := by
    rw [encLattice_length _ _ _ _ (by rw [List.length_take, List.length_take]; omega), List.length_take]; omega
  have l2 : (encLattice (rc.take k) (s2.take k) x x).2.2.length = k := by
    rw [encLattice_length _ _ _ _ (by rw [List.length_take, List.length_take]; omega), List.length_take]; omega
  by_cases hjk : j < k
  · refine ⟨?_, fun hc => by omega⟩
    rw [Nat.min_eq_left (by omega), List.take_append_of_le_length (le_of_le_of_eq (by omega : j + 1 ≤ k) l1.symm),
      List.take_append_of_le_length (le_of_le_of_eq (by omega : j + 1 ≤ k) l2.symm)]
    refine encLattice_agree _ _ _ _ _ j (by rw [List.length_take, List.length_take]; omega) ?_
    rw [List.take_take, List.take_take, Nat.min_eq_left (by omega), hj]
  · have he : s1.take k = s2.take k := by
      have := congrArg (List.take k) hj
      rwa [List.take_take, List.take_take, Nat.min_eq_left (by omega)] at this
    rw [he]
    refine ⟨?_, fun hc => ?_⟩
    · rw [Nat.min_eq_right (by omega), hk, List.take_append, List.take_append, l2, show k + 1 - k = 1 by omega, List.take_succ_cons,
        List.take_succ_cons, List.take_zero, List.take_zero]
    · have : at0 s1 k = at0 s2 k := by
        unfold at0
        have hg : ∀ s : List α, s.getD k zero = (s.take j).getD k zero := by
          intro s
          rw [List.getD_eq_getElem?_getD, List.getD_eq_getElem?_getD, List.getElem?_take_of_lt (by omega)]
        rw [hg s1, hg s2, hj]
      rw [this]

/-- the lattice forgets its first states after as many lines as its order -/
theorem encLatticeBand_forget {rc : List α} (h0 : rc ≠ []) : ∀ (xs s1 s2 : List α) (j : Nat), rc.length ≤ s1.length → s1.length = s2.length →
    s1.take j = s2.take j → ∀ i, rc.length ≤ j + i → (encLatticeBand rc xs s1).1[i]? = (encLatticeBand rc xs s2).1[i]?
  | [], s1, s2, j, _, _, _, i, _ => rfl
  | x :: xs, s1, s2, j, h1, hl, hj, i, hi => by
    obtain ⟨a1, a2⟩ := encLatticeLine_agree h0 h1 hl hj x
    simp only [encLatticeBand]
    match i with
    | 0 => simp only [List.getElem?_cons_zero]; rw [a2 (by omega)]
    | i + 1 =>
      simp only [List.getElem?_cons_succ]
      refine encLatticeBand_forget h0 xs _ _ (min (j + 1) rc.length) ?_ ?_ a1 i (by omega)
      · rw [encLatticeLine_length h0 h1]; exact h1
      · rw [encLatticeLine_length h0 h1, encLatticeLine_length h0 (by omega), hl]

theorem encLatticeBand_state_length {rc : List α} (h0 : rc ≠ []) : ∀ (xs st : List α), rc.length ≤ st.length →
    (encLatticeBand rc xs st).2.length = st.length
  | [], st, _ => rfl
  | x :: xs, st, h => by
    simp only [encLatticeBand]
    rw [encLatticeBand_state_length h0 xs _ (by rw [encLatticeLine_length h0 h]; exact h), encLatticeLine_length h0 h]

end

/-- **C126** In a frame with two filters the lines of the range of the second filter are, from as many lines as its order on, filtered with its own
coefficients alone, whatever the first filter is: the weighted sum of the line and the lines before it, of the same range. -/
theorem C126 {f : SamplingFrequency} {d : FrameDuration} {bw nbits : Nat} {nn : Bool} {x : List ℝ} {res : TnsResult ℝ}
    (h : tnsEncRun (Lc3Config.new f d) x bw nbits nn = .ok res) (h2 : res.numFilters = 2) {lo hi : Nat}
    (hlo : lo = (tnsEdges d bw).getD 3 0) (hhi : hi = (tnsEdges d bw).getD 6 0) {n : Nat} (hn1 : lo + res.rcOrder.getD 1 0 ≤ n) (hn2 : n < hi) :
    res.lines.getD n 0 =
      convolve (ladder (fun j => Real.sin (((res.rcI.getD (8 + j) 0 : ℝ) - 8) * (Real.pi / 17))) (res.rcOrder.getD 1 0)) (res.rcOrder.getD 1 0)
        (x.drop lo) (n - lo) := by
  by_cases h0 : res.rcOrder.getD 0 0 = 0
  · exact (C123_second h h2 h0 hlo hhi).2 n (by omega) hn2
  have hms : (Lc3Config.new f d).nMs = d := by cases f <;> cases d <;> rfl
  unfold tnsEncRun at h
  split at h
  · simp at h
  rw [Res.bind_eq_ok] at h
  obtain ⟨p, h1, h⟩ := h
  simp only at h
  rw [Res.bind_eq_ok] at h
  obtain ⟨intss, hi2, h⟩ := h
  rw [Res.bind_eq_ok] at h
  obtain ⟨bits, _, h⟩ := h
  rw [Res.bind_eq_ok] at h
  obtain ⟨lines, h4, h⟩ := h
  injection h with h
  subst h
  simp only at h2 h0 hn1 ⊢
  rw [hms] at h1 hi2
  obtain ⟨g1, g2, g3, g4⟩ := tnsParams_parts h1
  obtain ⟨⟨b0, b1⟩, hband, hord, hle⟩ := tnsParams_second h1 h2
  rw [← hlo, ← hhi] at hband
  rw [← hlo] at hord
  rw [← hlo, ← hhi] at hle
  have hf := mapM_forall₂ hi2
  have hil : intss.length = 2 := by rw [← hf.length_eq, g2, h2]; simp
  obtain ⟨i0, i1, rfl⟩ := List.length_eq_two.1 hil
  have hget := (List.forall₂_iff_get.1 hf).2
  have l0 : i0.length = 8 := (tnsFilterInts_facts (hget 0 (by rw [hf.length_eq]; simp) (by simp))).1
  have l1 : i1.length = 8 := (tnsFilterInts_facts (hget 1 (by rw [hf.length_eq]; simp) (by simp))).1
  have o0 : tnsOrder i0 ≠ 0 := by simpa using h0
  have eo : (List.map tnsOrder [i0, i1] ++ List.replicate (2 - p.numFilters) 0).getD 1 0 = tnsOrder i1 := by simp
  have ei : ∀ j < 8, ([i0, i1].flatten ++ List.replicate (16 - 8 * p.numFilters) 8).getD (8 + j) 0 = i1.getD j 0 := by
    intro j hj
    exact flatten_block [i0, i1] _ (by simp [l0, l1]) 1 (by simp) j hj
  rw [eo] at hn1 ⊢
  have hol := tnsOrder_le i1
  have hol0 := tnsOrder_le i0
  obtain ⟨rc, hrc⟩ : ∃ rc : List ℝ, rc = (i1.take (tnsOrder i1)).map tnsQuant := ⟨_, rfl⟩
  have hrl : rc.length = tnsOrder i1 := by rw [hrc, List.length_map, List.length_take]; omega
  obtain ⟨rc0, hrc0⟩ : ∃ rc : List ℝ, rc = (i0.take (tnsOrder i0)).map tnsQuant := ⟨_, rfl⟩
  have hrl0 : rc0.length = tnsOrder i0 := by rw [hrc0, List.length_map, List.length_take]; omega
  have hlad : ∀ m, ladder (at0 rc) (tnsOrder i1) m =
      ladder (fun j => Real.sin ((((([i0, i1].flatten ++ List.replicate (16 - 8 * p.numFilters) 8).getD (8 + j) 0 : ℕ) : ℝ) - 8) * (Real.pi / 17)))
        (tnsOrder i1) m := by
    refine ladder_congr _ fun j hj => ?_
    unfold at0
    have hj2 : j < i1.length := by omega
    rw [ei j (by omega), List.getD_eq_getElem _ _ (by omega), List.getD_eq_getElem _ _ hj2]
    simp only [hrc, List.getElem_map, List.getElem_take]
    show Real.sin (Real.pi / 17 * (((((i1[j] : ℕ) : ℤ) : ℚ) : ℝ) - ((8 : ℚ) : ℝ))) = _
    congr 1
    push_cast
    ring
  have hconv : ∀ n, convolve (ladder (fun j => Real.sin ((((([i0, i1].flatten ++ List.replicate (16 - 8 * p.numFilters) 8).getD (8 + j) 0 : ℕ) : ℝ) - 8) *
      (Real.pi / 17))) (tnsOrder i1)) (tnsOrder i1) (x.drop lo) n = convolve (ladder (at0 rc) (tnsOrder i1)) (tnsOrder i1) (x.drop lo) n := by
    intro n
    unfold convolve
    exact Finset.sum_congr rfl fun i _ => by rw [hlad]
  rw [hconv]
  simp only [List.map_cons, List.map_nil, ← hrc, ← hrc0] at h4
  rw [hband] at h4
  unfold tnsFilterLoop at h4
  rw [if_pos (by omega), Res.bind_eq_ok] at h4
  obtain ⟨l, hl, h4⟩ := h4
  have hlen0 : b0 ≤ b1 ∧ b1 ≤ x.length := by
    unfold sliceR at hl; split at hl
    · rename_i hc; exact hc
    · simp at hl
  rw [sliceR_ok hlen0.1 hlen0.2] at hl
  injection hl with hl
  have hll : l.length = b1 - b0 := by rw [← hl, List.length_drop, List.length_take]; omega
  simp only at h4
  have hrc0n : rc0 ≠ [] := by intro hc; rw [hc] at hrl0; exact o0 hrl0.symm
  obtain ⟨st, hst⟩ : ∃ st, st = (encLatticeBand rc0 l (List.replicate 8 zero)).2 := ⟨_, rfl⟩
  have hst8 : st.length = 8 := by
    rw [hst, encLatticeBand_state_length hrc0n _ _ (by rw [List.length_replicate]; omega), List.length_replicate]
  rw [← hst] at h4
  obtain ⟨y, hy⟩ : ∃ y, y = x.take b0 ++ (encLatticeBand rc0 l (List.replicate 8 zero)).1 ++ x.drop b1 := ⟨_, rfl⟩
  rw [← hy] at h4
  have hyl : y.length = x.length := by
    rw [hy, List.length_append, List.length_append, encLatticeBand_length, List.length_take, List.length_drop, hll]
    omega
  have hyx : ∀ m, b1 ≤ m → y[m]? = x[m]? := by
    intro m hm
    have hpre : (x.take b0 ++ (encLatticeBand rc0 l (List.replicate 8 zero)).1).length = b1 := by
      rw [List.length_append, encLatticeBand_length, List.length_take, hll]; omega
    rw [hy, List.getElem?_append_right (by omega), hpre, List.getElem?_drop, show b1 + (m - b1) = m by omega]
  unfold tnsFilterLoop at h4
  by_cases hz : rc.length ≠ 0
  · rw [if_pos hz, Res.bind_eq_ok] at h4
    obtain ⟨l', hl', h4⟩ := h4
    have hlen : hi ≤ y.length := by
      unfold sliceR at hl'; split at hl'
      · rename_i hc; exact hc.2
      · simp at hl'
    rw [sliceR_ok hle hlen] at hl'
    injection hl' with hl'
    simp only at h4
    unfold tnsFilterLoop at h4
    injection h4 with h4
    have hll' : l'.length = hi - lo := by rw [← hl', List.length_drop, List.length_take]; omega
    have hlo' : (y.take lo).length = lo := by rw [List.length_take]; omega
    have hrcn : rc ≠ [] := by intro hc; rw [hc] at hz; exact hz rfl
    have hfir := C120_filter (rc := rc) hrcn (by omega) l'
    have hforget := encLatticeBand_forget hrcn l' st (List.replicate 8 zero) 0 (by omega) (by rw [List.length_replicate, hst8]) rfl (n - lo)
      (by omega)
    rw [← h4, List.append_assoc, List.getD_eq_getElem?_getD, List.getElem?_append_right (by omega), hlo',
        List.getElem?_append_left (by rw [encLatticeBand_length]; omega), hforget, hfir, List.getElem?_map, List.getElem?_range (by omega), ← hrl]
    show convolve _ _ l' _ = _
    unfold convolve
    refine Finset.sum_congr rfl fun i _ => ?_
    congr 1
    split
    · rw [← hl', List.getD_eq_getElem?_getD, List.getD_eq_getElem?_getD, List.getElem?_drop, List.getElem?_drop,
        List.getElem?_take_of_lt (by omega), hyx _ (by omega)]
    · rfl
  · rw [if_neg hz] at h4
    unfold tnsFilterLoop at h4
    injection h4 with h4
    have ho : tnsOrder i1 = 0 := by omega
    rw [← h4, ho]
    unfold convolve
    rw [Finset.sum_range_one, ladder_zero, if_pos (by omega), Nat.sub_zero, one_mul, List.getD_eq_getElem?_getD, List.getD_eq_getElem?_getD,
      List.getElem?_drop, show lo + (n - lo) = n by omega, hyx _ (by omega)]

/-- the lattice of the decoder, started with any states: after as many lines as its order it is the recursive filter of its coefficients -/
theorem latticeBand_any {rc : List ℝ} {off o : ℕ} (h1 : 1 ≤ o) (h8 : o ≤ 8) (hl : off + o ≤ rc.length) (e : List ℝ) {st : List ℝ} (hst : st.length = 8) :
    ∃ y st', latticeBand rc off o e st = .ok (y, st') ∧ y.length = e.length ∧ st'.length = 8 ∧
      ∀ n, o ≤ n → n < e.length → convolve (ladder (fun j => rc.getD (off + j) 0) o) o y n = e.getD n 0 := by
  obtain ⟨k, rfl⟩ : ∃ k, o = k + 1 := ⟨o - 1, by omega⟩
  obtain ⟨rcE, hE⟩ : ∃ rcE, rcE = (rc.drop off).take (k + 1) := ⟨_, rfl⟩
  have hlen : rcE.length = k + 1 := by rw [hE, List.length_take, List.length_drop]; omega
  have hget : ∀ j < k + 1, rcE[j]? = rc[j + off]? := by
    intro j hj
    rw [hE, List.getElem?_take_of_lt hj, List.getElem?_drop, add_comm]
  have hn : rcE ≠ [] := by intro hc; rw [hc] at hlen; simp at hlen
  obtain ⟨y, y1, y2⟩ := encLatticeBand_onto hlen e st (by omega)
  obtain ⟨b1, b2, -⟩ := latticeBand_inv rcE rc off (by omega) (fun j hj => (hget j (by omega)).symm) y st (by omega)
  rw [y2, hlen] at b1
  refine ⟨y, _, b1, y1, by rw [b2, hst], fun n hn0 hn1 => ?_⟩
  have hf := C120_filter (rc := rcE) hn (by omega) y
  have hforget := encLatticeBand_forget hn y st (List.replicate 8 zero) 0 (by omega) (by rw [List.length_replicate, hst]) rfl n (by omega)
  rw [y2, hf, hlen, List.getElem?_map, List.getElem?_range (by omega)] at hforget
  rw [show e.getD n 0 = e[n]?.getD 0 from List.getD_eq_getElem?_getD, hforget]
  show _ = convolve (ladder (at0 rcE) (k + 1)) (k + 1) y n
  unfold convolve
  refine Finset.sum_congr rfl fun i _ => ?_
  congr 1
  refine ladder_congr _ (fun j hj => ?_) _
  unfold at0
  rw [List.getD_eq_getElem?_getD, List.getD_eq_getElem?_getD, hget j hj, add_comm, List.getElem?_eq_getElem (by omega)]
  rfl

/-- **C126** (decoder) The same for the decoder: with both filters on, the lines of the range of the second filter are, from as many lines as its order on,
those whose convolution with the filter of its received coefficients gives the received lines. -/
theorem C126_decoder {d : FrameDuration} {bw : ℕ} {orders ints : List ℕ} {lines r : List ℝ} (hb3 : 3 ≤ bw) (hb : bw ≤ 4)
    (h : tnsDecode d bw 2 orders ints lines = .ok r) (h16 : ints.length = 16) (ho0 : 0 < orders.getD 0 0) (h80 : orders.getD 0 0 ≤ 8)
    (ho1 : 0 < orders.getD 1 0) (h81 : orders.getD 1 0 ≤ 8) {n : ℕ} (hn1 : (tnsBand d bw 1).1 + orders.getD 1 0 ≤ n)
    (hn2 : n < (tnsBand d bw 1).2) :
    convolve (ladder (fun j => decCoef (ints.getD (8 + j) 0)) (orders.getD 1 0)) (orders.getD 1 0) (r.drop (tnsBand d bw 1).1)
      (n - (tnsBand d bw 1).1) = lines.getD n 0 := by
  unfold tnsDecode at h
  simp only at h
  split at h
  · simp at h
  rename_i g1
  split at h
  · simp at h
  rename_i g2
  have hbl : ∀ p ∈ tnsBandsDec d bw, p.2 ≤ lines.length := by
    intro p hp
    simp only [List.any_eq_true, decide_eq_true_eq, not_exists, not_and] at g1
    have := g1 p hp
    omega
  have hord : (tnsBand d bw 0).1 ≤ (tnsBand d bw 0).2 ∧ (tnsBand d bw 0).2 = (tnsBand d bw 1).1 ∧ (tnsBand d bw 1).1 ≤ (tnsBand d bw 1).2 := by
    cases d <;> interval_cases bw <;> decide
  rw [tnsBands_eq d hb, if_neg (by omega)] at h hbl
  obtain ⟨⟨a0, b0⟩, hB0⟩ : ∃ p, p = tnsBand d bw 0 := ⟨_, rfl⟩
  obtain ⟨⟨a1, b1⟩, hB1⟩ : ∃ p, p = tnsBand d bw 1 := ⟨_, rfl⟩
  rw [← hB0, ← hB1] at h hbl hord
  rw [← hB1] at hn1 hn2 ⊢
  have hl0 := hbl (a0, b0) (by simp)
  have hl1 := hbl (a1, b1) (by simp)
  simp only at hord hl0 hl1 hn1 hn2 ⊢
  match orders, g2 with
  | o0 :: o1 :: os, g2 =>
  simp only [List.getD_cons_zero, List.getD_cons_succ] at ho0 ho1 h80 h81 hn1 ⊢
  simp only [List.take_succ_cons, List.take_zero] at h
  have hrl : (rcQuant ints : List ℝ).length = 16 := by unfold rcQuant; simp [h16]
  rw [tnsLoop, if_pos ho0] at h
  obtain ⟨y0, st, e1, e2, e3, -⟩ := latticeBand_any (rc := rcQuant ints) (off := 0 * 8) ho0 h80 (by omega) ((lines.take b0).drop a0)
    (st := List.replicate 8 zero) List.length_replicate
  rw [e1, Res.bind_ok] at h
  simp only at h
  obtain ⟨z, hz⟩ : ∃ z, z = lines.take a0 ++ y0 ++ lines.drop b0 := ⟨_, rfl⟩
  rw [← hz] at h
  rw [List.length_drop, List.length_take] at e2
  have hpre : (lines.take a0 ++ y0).length = b0 := by rw [List.length_append, List.length_take, e2]; omega
  have hzl : z.length = lines.length := by rw [hz, List.length_append, hpre, List.length_drop]; omega
  have hzx : ∀ m, b0 ≤ m → z[m]? = lines[m]? := by
    intro m hm
    rw [hz, List.getElem?_append_right (by omega), hpre, List.getElem?_drop, show b0 + (m - b0) = m by omega]
  rw [tnsLoop, if_pos ho1] at h
  obtain ⟨y, st', f1, f2, -, f3⟩ := latticeBand_any (rc := rcQuant ints) (off := (0 + 1) * 8) ho1 h81 (by omega) ((z.take b1).drop a1) e3
  rw [f1, Res.bind_ok] at h
  simp only [tnsLoop, Res.ok.injEq] at h
  have hel : ((z.take b1).drop a1).length = b1 - a1 := by rw [List.length_drop, List.length_take]; omega
  rw [hel] at f2 f3
  have h3 := f3 (n - a1) (by omega) (by omega)
  have hv : ((z.take b1).drop a1).getD (n - a1) 0 = lines.getD n 0 := by
    rw [List.getD_eq_getElem?_getD, List.getD_eq_getElem?_getD, List.getElem?_drop, show a1 + (n - a1) = n by omega, List.getElem?_take_of_lt hn2,
      hzx n (by omega)]
  rw [← hv, ← h3]
  unfold convolve
  refine Finset.sum_congr rfl fun m hm => ?_
  have hy : (if m ≤ n - a1 then (r.drop a1).getD (n - a1 - m) 0 else 0) = if m ≤ n - a1 then y.getD (n - a1 - m) 0 else 0 := by
    split
    · rw [← h, List.getD_eq_getElem?_getD, List.getElem?_drop, List.append_assoc,
        List.getElem?_append_right (by rw [List.length_take]; omega), List.length_take, show min a1 z.length = a1 by omega,
        List.getElem?_append_left (by omega), List.getD_eq_getElem?_getD]
      congr 2
      omega
    · rfl
  rw [hy]
  congr 1
  refine ladder_congr _ (fun j hj => ?_) _
  rw [rcQuant_getD h16 (by omega)]

/-- 48 kHz, bandwidth index 4: a decaying pulse in every part of the two ranges -/
def bothWitness : List ℚ :=
  List.replicate 12 0 ++ tnsPulse ++ List.replicate 56 0 ++ tnsPulse ++ List.replicate 57 0 ++ tnsPulse ++ List.replicate 57 0 ++
    tnsPulse ++ List.replicate 60 0 ++ tnsPulse ++ List.replicate 61 0 ++ tnsPulse ++ List.replicate 61 0

set_option maxRecDepth 20000 in
/-- C126 is not vacuous: both filters are on, with order 1 -/
theorem bothWitness_run : ∃ res, tnsEncRun (Lc3Config.new .hz48000 .tenMs) (castL bothWitness) 4 800 false = .ok res ∧ res.numFilters = 2 ∧
    res.rcOrder = [1, 1] ∧ (tnsEdges .tenMs 4).getD 3 0 + res.rcOrder.getD 1 0 ≤ 201 ∧ 201 < (tnsEdges .tenMs 4).getD 6 0 := by
  have hl : (castL bothWitness).length = 400 := by rw [castL_length]; rfl
  have hi0 : tnsFilterInts (castL bothWitness) false 0 [(12, 74), (74, 137), (137, 200)] = .ok [4, 8, 8, 8, 8, 8, 8, 8] :=
    tnsFilterInts_pulse (by decide +kernel)
  have hi1 : tnsFilterInts (castL bothWitness) false 0 [(200, 266), (266, 333), (333, 400)] = .ok [4, 8, 8, 8, 8, 8, 8, 8] :=
    tnsFilterInts_pulse (by decide +kernel)
  obtain ⟨n, hn⟩ : ∃ n, tnsFilterBits ℝ 0 [4, 8, 8, 8, 8, 8, 8, 8] = .ok n := ⟨_, rfl⟩
  generalize castL bothWitness = x at hl hi0 hi1 ⊢
  have hloop : ∃ lines, tnsFilterLoop [(12, 200), (200, 400)] [[(tnsQuant 4 : ℝ)], [tnsQuant 4]] x (List.replicate 8 zero) = .ok lines := by
    unfold tnsFilterLoop
    rw [if_pos (by decide), sliceR_ok (by omega) (by omega), Res.bind_ok]
    simp only
    unfold tnsFilterLoop
    rw [if_pos (by decide), sliceR_ok (by omega) (by
      rw [List.length_append, List.length_append, encLatticeBand_length, List.length_take, List.length_drop, List.length_drop, List.length_take]
      omega), Res.bind_ok]
    exact ⟨_, rfl⟩
  obtain ⟨lines, hloop⟩ := hloop
  refine ⟨⟨n + (n + 0), 0, 2, [1, 1], [4, 8, 8, 8, 8, 8, 8, 8] ++ [4, 8, 8, 8, 8, 8, 8, 8], lines⟩, ?_, rfl, rfl, show (tnsEdges .tenMs 4).getD 3 0 + [1, 1].getD 1 0 ≤ 201 by decide, by decide⟩
  unfold tnsEncRun
  rw [if_neg (by rw [hl]; decide)]
  have hp : tnsParams (Lc3Config.new .hz48000 .tenMs).nMs 4 =
    .ok ⟨2, [(12, 200), (200, 400)], [[(12, 74), (74, 137), (137, 200)], [(200, 266), (266, 333), (333, 400)]]⟩ := rfl
  have hw : lpcWeightingOf (Lc3Config.new .hz48000 .tenMs).nMs 800 = 0 := rfl
  rw [hp, Res.bind_ok]
  simp only
  rw [hw, List.mapM_cons, hi0, Res.bind_ok, List.mapM_cons, hi1, Res.bind_ok, List.mapM_nil]
  show (do
    let bits ← [[4, 8, 8, 8, 8, 8, 8, 8], [4, 8, 8, 8, 8, 8, 8, 8]].mapM (tnsFilterBits ℝ 0)
    let lines ← tnsFilterLoop [(12, 200), (200, 400)] [[tnsQuant 4], [tnsQuant 4]] x (List.replicate 8 zero)
    Res.ok (⟨bits.sum, 0, 2, [1, 1], [4, 8, 8, 8, 8, 8, 8, 8] ++ [4, 8, 8, 8, 8, 8, 8, 8], lines⟩ : TnsResult ℝ)) = _
  rw [List.mapM_cons, hn, Res.bind_ok, List.mapM_cons, hn, Res.bind_ok, List.mapM_nil]
  show (do
    let lines ← tnsFilterLoop [(12, 200), (200, 400)] [[tnsQuant 4], [tnsQuant 4]] x (List.replicate 8 zero)
    Res.ok (⟨n + (n + 0), 0, 2, [1, 1], [4, 8, 8, 8, 8, 8, 8, 8] ++ [4, 8, 8, 8, 8, 8, 8, 8], lines⟩ : TnsResult ℝ)) = _
  rw [hloop]
  rfl

/-- the case of C126 above -/
example := bothWitness_run

/-- C126_decoder is not vacuous: 48 kHz, both filters of order 1 -/
example : ∃ r : List ℝ, tnsDecode .tenMs 4 2 [1, 1] (4 :: List.replicate 15 4) (List.replicate 400 1) = .ok r := by
  have hrl : (rcQuant (4 :: List.replicate 15 4) : List ℝ).length = 16 := by unfold rcQuant; simp
  unfold tnsDecode
  simp only
  have hx0 : (List.replicate 400 (1 : ℝ)).length = 400 := List.length_replicate
  generalize List.replicate 400 (1 : ℝ) = x at hx0 ⊢
  rw [hx0, if_neg (by decide), if_neg (by decide)]
  show ∃ r, tnsLoop _ 0 [(12, 200), (200, 400)] [1, 1] x _ = _
  rw [tnsLoop, if_pos (by omega)]
  obtain ⟨y0, st, e1, e2, e3, -⟩ := latticeBand_any (rc := rcQuant (4 :: List.replicate 15 4)) (off := 0 * 8) (o := 1) (by omega) (by omega) (by omega)
    ((x.take 200).drop 12) (st := List.replicate 8 zero) List.length_replicate
  rw [e1, Res.bind_ok]
  simp only
  rw [tnsLoop, if_pos (by omega)]
  obtain ⟨y, st', f1, -⟩ := latticeBand_any (rc := rcQuant (4 :: List.replicate 15 4)) (off := (0 + 1) * 8) (o := 1) (by omega) (by omega) (by omega)
    (((x.take 12 ++ y0 ++ x.drop 200).take 400).drop 200) e3
  rw [f1, Res.bind_ok]
  exact ⟨_, rfl⟩

end Lc3
