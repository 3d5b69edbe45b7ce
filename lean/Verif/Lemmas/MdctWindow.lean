import Verif.Lemmas.MdctFrames
import Verif.Lemmas.SafeSpectrum
import Mathlib.Algebra.Order.Ring.Rat
import Mathlib.Tactic.Linarith
/-! The windows of all configurations, and the analysis does not fail. -/

namespace Lc3
open Scalar Tables

/-- test on the integer numerators: the weights differ from one by at most `10 ^ -13` -/
def weightsOk (num : List Int) (den n : Nat) : Bool :=
  (num.length == 2 * n) &&
  (((num.take n).zip (num.reverse.take n)).zip ((num.drop n).zip (num.take n).reverse)).all fun q =>
    decide (|q.1.1 * q.1.2 + q.2.1 * q.2.2 - (den : Int) * den| * 10 ^ 13 ≤ (den : Int) * den)

theorem weight_of_test {num : List Int} {den n : Nat} (hd : 0 < den) (h : weightsOk num den n = true) {i : Nat} (hi : i < n) :
    |Overlap.weight (num.map fun k => mkRat k den) n i - 1| ≤ 1 / 10 ^ 13 := by
  rw [weightsOk, Bool.and_eq_true, beq_iff_eq, List.all_eq_true] at h
  obtain ⟨hl, h⟩ := h
  have hg : ∀ p, p < 2 * n → (num.map fun k => mkRat k den).getD p 0 = (num.getD p 0 : Rat) / den := by
    intro p hp
    rw [getD_of_lt (by simpa [hl] using hp), getD_of_lt (by omega), List.getElem_map, Rat.mkRat_eq_div]
  have hlt : i < (((num.take n).zip (num.reverse.take n)).zip ((num.drop n).zip (num.take n).reverse)).length := by
    simp only [List.length_zip, List.length_take, List.length_reverse, List.length_drop, hl]; omega
  have := h _ (List.getElem_mem hlt)
  simp only [List.getElem_zip, List.getElem_take, List.getElem_drop, List.getElem_reverse, decide_eq_true_eq,
    List.length_take, hl] at this
  unfold Overlap.weight
  rw [hg i (by omega), hg (2 * n - 1 - i) (by omega), hg (n + i) (by omega), hg (n - 1 - i) (by omega)]
  rw [getD_of_lt (by omega), getD_of_lt (by omega), getD_of_lt (by omega), getD_of_lt (by omega)]
  have e : min n (2 * n) - 1 - i = n - 1 - i := by omega
  simp only [e] at this
  have hd' : (0 : Rat) < den := by exact_mod_cast hd
  generalize num[i] = a at *
  generalize num[2 * n - 1 - i] = b at *
  generalize num[n + i] = c at *
  generalize num[n - 1 - i] = d at *
  have hq : (|((a * b + c * d - den * den : Int) : Rat)|) * 10 ^ 13 ≤ den * den := by exact_mod_cast this
  have e2 : (a : Rat) / den * (b / den) + c / den * (d / den) - 1 = ((a * b + c * d - den * den : Int) : Rat) / (den * den) := by
    push_cast
    field_simp
  rw [e2, abs_div, abs_of_pos (by positivity : (0 : Rat) < den * den), div_le_div_iff₀ (by positivity) (by positivity)]
  linarith

/-- the end of the window is zero -/
theorem tail_of_test {num : List Int} {den n : Nat} (h : (num.drop n).all (· == 0) = true) {p : Nat} (hp : n ≤ p) :
    (num.map fun k => mkRat k den).getD p 0 = 0 := by
  rw [List.getD_eq_getElem?_getD, List.getElem?_map]
  rcases hc : num[p]? with _ | v
  · rfl
  · rw [Option.map_some, Option.getD_some]
    have hm : v ∈ num.drop n := by
      rw [List.mem_iff_getElem?]
      exact ⟨p - n, by rw [List.getElem?_drop, show n + (p - n) = p by omega, hc]⟩
    have := List.all_eq_true.mp h v hm
    rw [beq_iff_eq] at this
    rw [this, Rat.zero_mkRat]

/-- the numerators and the common denominator of the window of a configuration -/
def windowNum : SamplingFrequency → FrameDuration → List Int × Nat
  | .hz8000, .sevenPointFiveMs => (W_N60_7P5MS_num, W_N60_7P5MS_den)
  | .hz16000, .sevenPointFiveMs => (W_N120_7P5MS_num, W_N120_7P5MS_den)
  | .hz24000, .sevenPointFiveMs => (W_N180_7P5MS_num, W_N180_7P5MS_den)
  | .hz32000, .sevenPointFiveMs => (W_N240_7P5MS_num, W_N240_7P5MS_den)
  | .hz44100, .sevenPointFiveMs => (W_N360_7P5MS_num, W_N360_7P5MS_den)
  | .hz48000, .sevenPointFiveMs => (W_N360_7P5MS_num, W_N360_7P5MS_den)
  | .hz8000, .tenMs => (W_N80_10MS_num, W_N80_10MS_den)
  | .hz16000, .tenMs => (W_N160_10MS_num, W_N160_10MS_den)
  | .hz24000, .tenMs => (W_N240_10MS_num, W_N240_10MS_den)
  | .hz32000, .tenMs => (W_N320_10MS_num, W_N320_10MS_den)
  | .hz44100, .tenMs => (W_N480_10MS_num, W_N480_10MS_den)
  | .hz48000, .tenMs => (W_N480_10MS_num, W_N480_10MS_den)

theorem windowOf_num (f : SamplingFrequency) (d : FrameDuration) :
    windowOf (Lc3Config.new f d).nMs (Lc3Config.new f d).nf = .ok ((windowNum f d).1.map fun k => mkRat k (windowNum f d).2) := by
  cases f <;> cases d <;> rfl

set_option maxRecDepth 100000 in
theorem windowNum_test (f : SamplingFrequency) (d : FrameDuration) :
    weightsOk (windowNum f d).1 (windowNum f d).2 (Lc3Config.new f d).nf = true ∧
      ((windowNum f d).1.drop (2 * (Lc3Config.new f d).nf - (Lc3Config.new f d).z)).all (· == 0) = true ∧
      0 < (windowNum f d).2 := by
  cases f <;> cases d <;> decide +kernel

/-- every configuration meets the requirements of the proofs -/
theorem mdctOk_config (f : SamplingFrequency) (d : FrameDuration) :
    ∃ wn, MdctOk (Lc3Config.new f d) ((Lc3Config.new f d).nf / 2) wn ∧
      ∀ i, i < (Lc3Config.new f d).nf → |Overlap.weight wn (Lc3Config.new f d).nf i - 1| ≤ 1 / 10 ^ 13 := by
  have hne : (Lc3Config.new f d).ne ≤ (Lc3Config.new f d).nf := by cases f <;> cases d <;> decide
  have hz : 2 * (Lc3Config.new f d).z ≤ (Lc3Config.new f d).nf := by cases f <;> cases d <;> decide
  have hs := fftSizes_config f d
  obtain ⟨ht1, ht2, ht3⟩ := windowNum_test f d
  have hw := windowOf_num f d
  obtain ⟨w, hw1, hw2⟩ := windowOf_ok f d
  rw [hw] at hw1
  cases hw1
  generalize windowNum f d = nw at *
  generalize Lc3Config.new f d = cfg at *
  refine ⟨_, ⟨by omega, kfFactor_sizes _ hs.1, hz, hne, hw, by rw [hw2]; omega, fun p hp => tail_of_test ht2 hp⟩,
    fun i hi => weight_of_test ht3 ht1 hi⟩

theorem energyBands_ok {tab : List Nat} {nb ne : Nat} (ht : BandTab tab nb ne) {out : List ℝ} (hl : ne ≤ out.length) :
    ∀ (n b : Nat), b + n ≤ nb → ∃ l, energyBands tab out b n = .ok l ∧ l.length = n
  | 0, _, _ => ⟨[], rfl, rfl⟩
  | n + 1, b, hb => by
    have hlen := ht.len
    have h0 : b < tab.length := by omega
    have h1 : b + 1 < tab.length := by omega
    have hm := ht.mono b (by omega)
    rw [getD_of_lt h0, getD_of_lt h1] at hm
    have hle : tab[b + 1] ≤ ne := ht.le _ (List.getElem_mem _)
    obtain ⟨l, hl1, hl2⟩ := energyBands_ok ht hl n (b + 1) (by omega)
    rw [energyBands, idx_eq_ok h0, Res.bind_ok, idx_eq_ok h1, Res.bind_ok, usub, if_pos hm.le, Res.bind_ok,
      sliceR_ok hm.le (by omega), Res.bind_ok, hl1, Res.bind_ok]
    exact ⟨_, rfl, by rw [List.length_cons, hl2]⟩

/-- the encoder's transform does not fail; its buffer and lines -/
theorem mdctEncRun_ok {f : SamplingFrequency} {d : FrameDuration} {freq x : List Int}
    (hl : freq.length = 2 * (Lc3Config.new f d).nf) (hx : x.length = (Lc3Config.new f d).nf) :
    ∃ freq' eb nn, ∃ lines : List ℝ, ∃ wn, mdctEncRun (Lc3Config.new f d) freq x = .ok (freq', lines, eb, nn) ∧
      windowOf (Lc3Config.new f d).nMs (Lc3Config.new f d).nf = .ok wn ∧
      mdctUpdate (Lc3Config.new f d) freq x = .ok freq' ∧ mdctApply (Lc3Config.new f d).nf freq' wn = .ok lines ∧
      lines.length = (Lc3Config.new f d).nf := by
  obtain ⟨wn, H, -⟩ := mdctOk_config f d
  obtain ⟨tab, htab, hb⟩ := bandTable_ok f d
  have hnb : 4 ≤ (Lc3Config.new f d).nb := by cases f <;> cases d <;> decide
  generalize Lc3Config.new f d = cfg at *
  obtain ⟨hnf, ⟨fac, hfac, hok⟩, hz, hne, hwin, hwl, htail⟩ := H
  have hu : ∃ freq', mdctUpdate cfg freq x = .ok freq' := by
    unfold mdctUpdate usub
    rw [if_pos (by omega), Res.bind_ok, if_neg (by omega)]
    exact ⟨_, rfl⟩
  obtain ⟨freq', hu⟩ := hu
  obtain ⟨-, hl', -, -⟩ := mdctUpdate_ok hz hl hu
  obtain ⟨lines, ha, hal, -⟩ := mdct_roundtrip hfac hok (freq := freq') (wn := wn) (by omega) hwl
  rw [← hnf] at ha hal
  obtain ⟨eb, he, -⟩ := energyBands_ok hb (out := lines) (by omega) cfg.nb 0 (by omega)
  have hny : ∃ nn, isNearNyquist cfg eb = .ok nn := by
    unfold isNearNyquist
    split
    · unfold usub
      split
      · rw [if_pos (by omega)]; exact ⟨_, rfl⟩
      · rw [if_pos (by omega)]; exact ⟨_, rfl⟩
    · exact ⟨_, rfl⟩
  obtain ⟨nn, hnn⟩ := hny
  refine ⟨freq', eb, nn, lines, wn, ?_, hwin, hu, ha, hal⟩
  unfold mdctEncRun
  rw [if_neg (by simpa using hx), hu, Res.bind_ok, hwin, Res.bind_ok, ha, Res.bind_ok, htab, Res.bind_ok, he, Res.bind_ok,
    hnn, Res.bind_ok]

end Lc3
