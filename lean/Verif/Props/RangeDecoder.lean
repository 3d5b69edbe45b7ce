import Verif.Spec.RangeDecoder
import Verif.Lemmas.SafeRead
import Verif.Props.RangeCoder
import Verif.Lemmas.EncLtpf
/-!
# C54: the range decoder
-/

namespace Lc3
open Spec Tables

theorem decRenorm_zero {buf : List Nat} {r : Reader} {st : AcDec} (n : Nat) (h : 65536 ≤ st.range) : acDecRenorm buf n r st = .ok (st, r) := by
  rw [acDecRenorm.eq_def]
  simp only
  rw [if_neg (by omega)]

theorem decRenorm_step {buf : List Nat} {r : Reader} {st : AcDec} (n : Nat) (h : st.range < 65536) (hl : st.low < st.range) {b : Nat}
    (hb : buf[r.head]? = some b) :
    acDecRenorm buf (n + 1) r st = acDecRenorm buf n ⟨r.head + 1, r.tail⟩ ⟨st.low * 256 + b, st.range * 256⟩ := by
  rw [acDecRenorm.eq_def]
  simp only
  rw [if_pos h]
  simp only [Reader.readHeadByte, hb, Res.bind_ok]
  have h1 : st.low <<< 8 = st.low * 256 := by rw [Nat.shiftLeft_eq]
  have h2 : st.range <<< 8 = st.range * 256 := by rw [Nat.shiftLeft_eq]
  have h3 : st.low * 256 &&& 16777215 = st.low * 256 := by
    rw [show (16777215 : Nat) = 2 ^ 24 - 1 from rfl, Nat.and_two_pow_sub_one_eq_mod]
    exact Nat.mod_eq_of_lt (by omega)
  rw [h1, h2, h3]

theorem decRenorm_err {buf : List Nat} {r : Reader} {st : AcDec} (n : Nat) (h : st.range < 65536) (hb : buf.length ≤ r.head) :
    acDecRenorm buf (n + 1) r st = .err := by
  rw [acDecRenorm.eq_def]
  simp only
  rw [if_pos h]
  simp only [Reader.readHeadByte, List.getElem?_eq_none hb, Res.bind_err]

theorem decRenorm_spec {buf : List Nat} {r : Reader} {st : AcDec} (h64 : 64 ≤ st.range) (hl : st.low < st.range)
    (hbuf : ∀ b ∈ buf, b < 256) (hh : r.head ≤ buf.length) :
    (buf.length < r.head + refill st.range → acDecRenorm buf 3 r st = .err) ∧
    (r.head + refill st.range ≤ buf.length → acDecRenorm buf 3 r st =
      .ok (⟨append st.low ((buf.drop r.head).take (refill st.range)), st.range * 256 ^ refill st.range⟩, ⟨r.head + refill st.range, r.tail⟩)) := by
  unfold refill append
  by_cases h16 : 2 ^ 16 ≤ st.range
  · rw [if_pos h16]
    refine ⟨fun h => by omega, fun _ => ?_⟩
    rw [decRenorm_zero 3 h16]
    simp
  rw [if_neg h16]
  have hlt : st.range < 65536 := by omega
  by_cases h8 : 2 ^ 8 ≤ st.range
  · rw [if_pos h8]
    refine ⟨fun h => decRenorm_err 2 hlt (by omega), fun h => ?_⟩
    have hg : buf[r.head]? = some buf[r.head] := List.getElem?_eq_getElem (by omega)
    rw [decRenorm_step 2 hlt hl hg, decRenorm_zero 2 (by simp only; omega), List.drop_eq_getElem_cons (by omega : r.head < buf.length)]
    simp only [List.take_succ_cons, List.take_zero, List.foldl_cons, List.foldl_nil, pow_one]
  rw [if_neg h8]
  by_cases h0 : buf.length ≤ r.head
  · exact ⟨fun _ => decRenorm_err 2 hlt h0, fun h => by omega⟩
  have hg : buf[r.head]? = some buf[r.head] := List.getElem?_eq_getElem (by omega)
  have hb := hbuf _ (List.getElem_mem (by omega : r.head < buf.length))
  refine ⟨fun h => ?_, fun h => ?_⟩
  · rw [decRenorm_step 2 hlt hl hg]
    exact decRenorm_err 1 (by simp only; omega) (by simp only; omega)
  · have hg1 : buf[r.head + 1]? = some buf[r.head + 1] := List.getElem?_eq_getElem (by omega)
    rw [decRenorm_step 2 hlt hl hg, decRenorm_step 1 (by simp only; omega) (by simp only; omega) hg1, decRenorm_zero 1 (by simp only; omega),
      List.drop_eq_getElem_cons (by omega : r.head < buf.length), List.drop_eq_getElem_cons (by omega : r.head + 1 < buf.length)]
    simp only [List.take_succ_cons, List.take_zero, List.foldl_cons, List.foldl_nil, Nat.mul_assoc]
    rfl

/-- every value below the sum of all shares lies in exactly one share -/
theorem share_exists {freq : List Nat} {step low : Nat} (h : low < step * freq.sum) : ∃! i, InShare freq step low i := by
  have hex : ∃ n, low < step * (freq.take n).sum := ⟨freq.length, by rwa [List.take_length]⟩
  classical
  obtain ⟨n, hn⟩ : ∃ n, n = Nat.find hex := ⟨_, rfl⟩
  have h1 := Nat.find_spec hex
  have h2 : ∀ m, m < n → ¬ low < step * (freq.take m).sum := fun m hm => Nat.find_min hex (hn ▸ hm)
  rw [← hn] at h1
  have hpos : 0 < n := by
    rcases Nat.eq_zero_or_pos n with h0 | h0
    · rw [h0] at h1; simp at h1
    · exact h0
  have hle : n ≤ freq.length := by
    by_contra hc
    exact h2 freq.length (by omega) (by rwa [List.take_length])
  refine ⟨n - 1, ⟨by omega, by have := h2 (n - 1) (by omega); omega, by rwa [Nat.sub_add_cancel hpos]⟩, ?_⟩
  rintro i ⟨i1, i2, i3⟩
  have : n ≤ i + 1 := by
    by_contra hc
    exact h2 (i + 1) (by omega) i3
  by_contra hne
  have hm := Nat.mul_le_mul_left step (take_sum_mono freq (show n ≤ i by omega))
  omega

/-- **C54** One step of the range decoder, for every proper model, every state with a range of 17 to 24 bits, every buffer and position:
if the code value is beyond all shares the step is an error; otherwise it lies in the share of exactly one symbol, and this symbol
is returned with the position in its share and the size of the share, both extended by the bytes that are needed to bring the range
back to 17 bits. If these bytes are not there, the step is an error. -/
theorem C54 {buf : List Nat} {r : Reader} {st : AcDec} {cum freq : List Nat} (hm : ProperModel cum freq)
    (h1 : 2 ^ 16 ≤ st.range) (h2 : st.range < 2 ^ 24) (hbuf : ∀ b ∈ buf, b < 256) (hh : r.head ≤ buf.length) :
    (1024 * (st.range / 1024) ≤ st.low → acDecode buf r st cum freq = .err) ∧
    (st.low < 1024 * (st.range / 1024) → ∃! i, InShare freq (st.range / 1024) st.low i) ∧
    ∀ i, InShare freq (st.range / 1024) st.low i →
      (buf.length < r.head + refill (st.range / 1024 * freq.getD i 0) → acDecode buf r st cum freq = .err) ∧
      (r.head + refill (st.range / 1024 * freq.getD i 0) ≤ buf.length → acDecode buf r st cum freq =
        .ok (i, ⟨append (st.low - st.range / 1024 * (freq.take i).sum)
            ((buf.drop r.head).take (refill (st.range / 1024 * freq.getD i 0))),
          st.range / 1024 * freq.getD i 0 * 256 ^ refill (st.range / 1024 * freq.getD i 0)⟩,
          ⟨r.head + refill (st.range / 1024 * freq.getD i 0), r.tail⟩)) := by
  have hstep : st.range >>> 10 = st.range / 1024 := Nat.shiftRight_eq_div_pow _ 10
  have hlim : (st.range / 1024) <<< 10 = 1024 * (st.range / 1024) := by rw [Nat.shiftLeft_eq]; omega
  refine ⟨fun h => ?_, fun h => share_exists (by rw [hm.total]; omega), fun i hi => ?_⟩
  · unfold acDecode
    simp only [hstep, hlim]
    rw [if_pos h]
  · obtain ⟨i1, i2, i3⟩ := hi
    have hsum := take_sum_succ freq i1
    have hlow : ¬ st.low ≥ 1024 * (st.range / 1024) := by
      have := Nat.mul_le_mul_left (st.range / 1024) (take_sum_le freq (i + 1))
      rw [hm.total] at this
      omega
    have hpos := hm.pos _ (List.getElem_mem i1)
    rw [List.getD_eq_getElem _ _ i1]
    have hlen := hm.len
    have hcum : idx cum i = .ok (freq.take i).sum := idx_ok_iff.2 (hm.prefixSums i i1)
    have hfreq : idx freq i = .ok freq[i] := idx_eq_ok i1
    have hr64 : 64 ≤ st.range / 1024 * freq[i] := by
      calc 64 ≤ st.range / 1024 := by omega
        _ = st.range / 1024 * 1 := by omega
        _ ≤ _ := Nat.mul_le_mul_left _ hpos
    have hlt : st.low - st.range / 1024 * (freq.take i).sum < st.range / 1024 * freq[i] := by
      rw [hsum, Nat.mul_add] at i3
      omega
    have hdec : acDecode buf r st cum freq = (acDecRenorm buf 3 r
        ⟨st.low - st.range / 1024 * (freq.take i).sum, st.range / 1024 * freq[i]⟩ >>= fun p => .ok (i, p.1, p.2)) := by
      unfold acDecode
      simp only [hstep, hlim]
      rw [if_neg hlow, usub_of_le (by omega), Res.bind_ok, acFindSym_spec hm i1 i2 i3 _ (by omega) (by omega), Res.bind_ok, hcum,
        Res.bind_ok, hfreq, Res.bind_ok, usub_of_le i2, Res.bind_ok]
    obtain ⟨g1, g2⟩ := decRenorm_spec (buf := buf) (r := r) (st := ⟨st.low - st.range / 1024 * (freq.take i).sum,
      st.range / 1024 * freq[i]⟩) hr64 hlt hbuf hh
    refine ⟨fun h => ?_, fun h => ?_⟩
    · rw [hdec, g1 h]; rfl
    · rw [hdec, g2 h]; rfl

/-- a range of 17 bits, a code value in the share of symbol 2, and one that belongs to no symbol -/
example : acDecode [1, 2, 3, 77] ⟨3, 0⟩ ⟨19200, 66000⟩ (AC_SPEC_CUMFREQ.getD 3 []) (AC_SPEC_FREQ.getD 3 []) =
      .ok (2, ⟨(19200 - 64 * 290) * 256 + 77, 64 * 46 * 256⟩, ⟨4, 0⟩) ∧
    acDecode [1, 2, 3, 77] ⟨3, 0⟩ ⟨65536, 66000⟩ (AC_SPEC_CUMFREQ.getD 3 []) (AC_SPEC_FREQ.getD 3 []) = .err := by decide +kernel

end Lc3
