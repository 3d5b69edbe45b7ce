import Verif.Lemmas.EstCost
import Verif.Model.EncTns
import Verif.Props.FrameRoundTrip
/-! Cost of the filters of temporal noise shaping, and of a whole frame. -/

namespace Lc3
open Tables Spec

theorem coefEvs_spec : ∀ (cs : List Nat) (k : Nat),
    evsInfo (coefEvs k cs) = (cs.mapIdx fun i c => idealBits ((AC_TNS_COEF_FREQ.getD (k + i) []).getD c 0)).sum ∧
    evsSym (coefEvs k cs) = cs.length ∧ evsTail (coefEvs k cs) = 0
  | [], k => by simp [coefEvs, evsInfo, evsSym, evsTail]
  | c :: cs, k => by
    obtain ⟨i1, i2, i3⟩ := coefEvs_spec cs (k + 1)
    simp only [coefEvs]
    rw [evsInfo_cons, evsSym_cons, evsTail_cons, i1, i2, i3, List.mapIdx_cons, List.sum_cons]
    refine ⟨?_, by simp [coefEv, modelEv, evSym]; omega, rfl⟩
    congr 1
    congr 2
    funext i c
    rw [show k + 1 + i = k + (i + 1) by omega]

theorem filterEvs_spec {w o : Nat} {cs : List Nat} (hl : cs.length = o) :
    evsInfo (filterEvs w o cs) = filterInfo w cs ∧ evsSym (filterEvs w o cs) = filterCount cs ∧ evsTail (filterEvs w o cs) = 0 := by
  unfold filterEvs filterInfo filterCount
  by_cases h : o > 0
  · obtain ⟨i1, i2, i3⟩ := coefEvs_spec cs 0
    have hc : cs ≠ [] := by rintro rfl; simp at hl; omega
    rw [if_pos h, if_neg hc, if_neg hc, evsInfo_cons, evsSym_cons, evsTail_cons, i1, i2, i3, hl]
    refine ⟨?_, rfl, rfl⟩
    simp only [Nat.zero_add]
    rfl
  · have hc : cs = [] := List.length_eq_zero_iff.1 (by omega)
    rw [if_neg h, if_pos hc, if_pos hc]
    simp [evsInfo, evsSym, evsTail]

/-- information of the filters `f ..` -/
noncomputable def tnsInfoFrom (w : Nat) (rcOrder rcI : List Nat) (f : Nat) : Nat → ℝ
  | 0 => 0
  | n + 1 => filterInfo w (filterCoefs rcI f (rcOrder.getD f 0)) + tnsInfoFrom w rcOrder rcI (f + 1) n

def tnsCountFrom (rcOrder rcI : List Nat) (f : Nat) : Nat → Nat
  | 0 => 0
  | n + 1 => filterCount (filterCoefs rcI f (rcOrder.getD f 0)) + tnsCountFrom rcOrder rcI (f + 1) n

theorem tnsEvs_spec {w : Nat} {rcOrder rcI : List Nat} (ho : ∀ o ∈ rcOrder, o ≤ 8) : ∀ (n f : Nat), 8 * (f + n) ≤ rcI.length →
    evsInfo (tnsEvs w rcOrder rcI f n) = tnsInfoFrom w rcOrder rcI f n ∧
    evsSym (tnsEvs w rcOrder rcI f n) = tnsCountFrom rcOrder rcI f n ∧ evsTail (tnsEvs w rcOrder rcI f n) = 0
  | 0, f, _ => by simp [tnsEvs, tnsInfoFrom, tnsCountFrom, evsInfo, evsSym, evsTail]
  | n + 1, f, hl => by
    obtain ⟨i1, i2, i3⟩ := tnsEvs_spec (w := w) (rcI := rcI) ho n (f + 1) (by omega)
    have ho8 := getD_le_of_mem ho f
    obtain ⟨j1, j2, j3⟩ := filterEvs_spec (w := w) (o := rcOrder.getD f 0) (cs := filterCoefs rcI f (rcOrder.getD f 0))
      (by unfold filterCoefs; rw [List.length_take, List.length_drop]; omega)
    simp only [tnsEvs, tnsInfoFrom, tnsCountFrom]
    rw [evsInfo_append, evsSym_append, evsTail_append, i1, i2, i3, j1, j2, j3]
    exact ⟨rfl, rfl, rfl⟩

/-- information of all filters -/
theorem bodyEvs_spec {cfg : Lc3Config} {N : Nat} {p : FrameParams} {q : PulseIdx} (h : BodyHyp cfg N p q) (ne : Nat) :
    evsInfo (bodyEvs ne p) = tnsInfoFrom p.lpcWeighting p.rcOrder p.rcI 0 p.numTns + symbolInfo p.rateFlag ne (p.xq.take p.lastnz) ∧
    evsSym (bodyEvs ne p) = tnsCountFrom p.rcOrder p.rcI 0 p.numTns + symbolCount p.rateFlag ne (p.xq.take p.lastnz) ∧
    evsTail (bodyEvs ne p) = (sideBits ne p).length + plainBits p.lsbMode (p.xq.take p.lastnz) := by
  obtain ⟨-, hn⟩ := numTns_le h.side
  obtain ⟨t1, t2, t3⟩ := tnsEvs_spec (w := p.lpcWeighting) (rcI := p.rcI) h.data.orders p.numTns 0 (by rw [h.data.coefsLen]; omega)
  obtain ⟨p1, p2, p3⟩ := pairsEv_spec (lsb := p.lsbMode) (rf := p.rateFlag) (ne := ne) h.data.range
    (by rw [take_len h.data.lines h.side.lastnzEven]; omega)
  unfold bodyEvs
  rw [evsInfo_append, evsInfo_append, evsSym_append, evsSym_append, evsTail_append, evsTail_append, evsInfo_bits, evsSym_bits,
    evsTail_bits, t1, t2, t3, p1, p2, p3]
  exact ⟨by ring, by ring, by ring⟩

/-- if the information and the plain bits leave enough room, the body of the frame is written and fits -/
theorem body_fits {f : SamplingFrequency} {d : FrameDuration} {p : FrameParams} {q : PulseIdx} {buf : List Nat} (stale : EncSt)
    (h : BodyHyp (Lc3Config.new f d) buf.length p q) (hN2 : buf.length < 65536) {X m : Nat} (hm : 1 ≤ m)
    (hinfo : tnsInfoFrom p.lpcWeighting p.rcOrder p.rcI 0 p.numTns +
      symbolInfo p.rateFlag (Lc3Config.new f d).ne (p.xq.take p.lastnz) ≤ X)
    (hcount : tnsCountFrom p.rcOrder p.rcI 0 p.numTns + symbolCount p.rateFlag (Lc3Config.new f d).ne (p.xq.take p.lastnz) ≤ 44 * m)
    (hroom : (sideBits (Lc3Config.new f d).ne p).length + plainBits p.lsbMode (p.xq.take p.lastnz) + (X + 1 + m) ≤ 8 * buf.length) :
    ∃ lsbs s, encodeBody (Lc3Config.new f d).ne p stale buf = .ok (lsbs, s) ∧
      nbitsAriForecast s ≤ X + 1 + m + (if s.ac.cache < 0 then 8 else 0) ∧
      s.w.nbitsSideWritten (8 * buf.length) =
        .ok ((sideBits (Lc3Config.new f d).ne p).length + plainBits p.lsbMode (p.xq.take p.lastnz)) := by
  obtain ⟨w, e1, f1, e2⟩ := encodeBody_eq (stale := stale) h (by omega) hN2 (Lc3Config.new f d).ne
  obtain ⟨b1, b2, b3⟩ := bodyEvs_spec h (Lc3Config.new f d).ne
  have hv := body_valid h (Lc3Config.new f d).ne
  have hfc := forecast_le [] hv hm (by rw [b2]; exact hcount) (by rw [b1]; exact hinfo)
  have htl := run_tail (bodyEvs (Lc3Config.new f d).ne p) ⟨Abs.init, []⟩
  rw [b3] at htl
  simp only [List.length_nil, Nat.zero_add] at htl
  obtain ⟨s, hd, e3, e4, e5⟩ := runEv_spec (N := buf.length) (bodyEvs (Lc3Config.new f d).ne p) (σ := ⟨Abs.init, []⟩) f1 CInv.init hv
    (by rw [htl]; omega) (by rw [htl]; omega)
  have hp := PtrInv.of_inv e4 e5
  rw [e2, e3]
  have hside := hp.nbitsSideWritten
  have hfore := hp.forecast
  refine ⟨_, s, rfl, by rw [hfore]; omega, ?_⟩
  rw [hp.len, htl, Nat.mul_comm] at hside
  exact hside

end Lc3
