import Verif.Spec.Spectrum
import Verif.Props.DecoderSafety
import Mathlib.Tactic.IntervalCases
/-!
# C13, C16, C18, C23, C24: the decoder's spectral stages
-/

namespace Lc3
open Spec Scalar Tables

variable {α : Type} [Scalar α]

/-! ### C13 -/

theorem noiseState_lt {seed : Nat} (h : seed < 65536) (n : Nat) : noiseState seed n < 65536 := by
  cases n with
  | zero => exact h
  | succ n => exact Nat.mod_lt _ (by norm_num)

theorem noiseNext_eq {s : Nat} (h : s < 65536) : noiseNext s = .ok ((13849 + 31821 * s) % 65536) := by
  unfold noiseNext
  rw [if_neg (by omega), show 0xFFFF = 2 ^ 16 - 1 from rfl, Nat.and_two_pow_sub_one_eq_mod, Nat.mul_comm]

theorem nf_consts (d : FrameDuration) : nfStart d = noiseStart d ∧ nfWidth d = noiseDist d ∧ noiseDist d ≤ noiseStart d := by
  cases d <;> decide

theorem bwStop_eq (d : FrameDuration) {bw : Nat} (h : bw ≤ 4) : idx (bwStopTable d) bw = .ok (bandLimit d bw) := by
  cases d <;> interval_cases bw <;> rfl

theorem emptyBelow_succ (d : FrameDuration) (bw : Nat) (ints : List Int) (k : Nat) :
    emptyBelow d bw ints (k + 1) = emptyBelow d bw ints k + (open Classical in if Empty d bw ints k then 1 else 0) := by
  unfold emptyBelow
  rw [List.range_succ, List.filter_append, List.length_append]
  congr 1
  by_cases h : Empty d bw ints k <;> simp [h]

/-- the test of the code -/
theorem empty_test {d : FrameDuration} {bw : Nat} {ints : List Int} {k : Nat} (h1 : noiseStart d ≤ k)
    (h2 : k < bandLimit d bw) (hl : bandLimit d bw ≤ ints.length) :
    ((ints.drop (k - noiseDist d)).take (min (bandLimit d bw - 1) (k + noiseDist d) + 1 - (k - noiseDist d))).all
      (· == 0) = true ↔ Empty d bw ints k := by
  have hd := (nf_consts d).2.2
  rw [List.all_eq_true]
  constructor
  · intro h
    refine ⟨h1, h2, ?_⟩
    intro j a b c
    have hj : j < ints.length := by omega
    rw [List.getD_eq_getElem _ _ hj]
    have hmem : ints[j] ∈ (ints.drop (k - noiseDist d)).take
        (min (bandLimit d bw - 1) (k + noiseDist d) + 1 - (k - noiseDist d)) := by
      rw [List.mem_iff_getElem]
      refine ⟨j - (k - noiseDist d), by simp; omega, ?_⟩
      simp only [List.getElem_take, List.getElem_drop]
      congr 1; omega
    have := h _ hmem
    simpa using this
  · rintro ⟨-, -, h⟩ v hv
    rw [List.mem_iff_getElem] at hv
    obtain ⟨i, hi, rfl⟩ := hv
    simp only [List.length_take, List.length_drop] at hi
    simp only [List.getElem_take, List.getElem_drop]
    have := h (k - noiseDist d + i) (by omega) (by omega) (by omega)
    rw [List.getD_eq_getElem _ _ (by omega)] at this
    simp [this]

theorem noiseFillLoop_eq {d : FrameDuration} {bw seed nf : Nat} {ints : List Int} (hs : seed < 65536)
    (hl : bandLimit d bw ≤ ints.length) : ∀ (lines : List α) (k : Nat),
    noiseFillLoop (bandLimit d bw) (nfStart d) (nfWidth d) (noiseLevel nf : α) ints k
      (noiseState seed (emptyBelow d bw ints k)) lines =
    .ok ((lines.zipIdx k).map fun p => filledLine d bw seed nf ints p.2 p.1)
  | [], k => by simp [noiseFillLoop]
  | x :: xs, k => by
    obtain ⟨c1, c2, c3⟩ := nf_consts d
    have ih := noiseFillLoop_eq (nf := nf) hs hl xs (k + 1)
    rw [c1, c2] at *
    rw [emptyBelow_succ] at ih
    rw [noiseFillLoop]
    by_cases hk : k < noiseStart d ∨ bandLimit d bw ≤ k
    · have hne : ¬ Empty d bw ints k := by rintro ⟨a, b, -⟩; omega
      simp only [if_neg hne, Nat.add_zero] at ih
      rw [if_pos hk, ih]
      simp [filledLine, hne]
    · rw [if_neg hk]
      rw [show usub k (noiseDist d) = .ok (k - noiseDist d) from by unfold usub; rw [if_pos (by omega)]]
      simp only [Res.bind_ok]
      rw [show usub (bandLimit d bw) 1 = .ok (bandLimit d bw - 1) from by unfold usub; rw [if_pos (by omega)]]
      simp only [Res.bind_ok]
      rw [if_neg (by omega)]
      have ht := empty_test (d := d) (bw := bw) (ints := ints) (k := k) (by omega) (by omega) hl
      by_cases he : Empty d bw ints k
      · rw [if_pos (ht.2 he), noiseNext_eq (noiseState_lt hs _)]
        rw [if_pos he] at ih
        simp only [Res.bind_ok]
        rw [show (13849 + 31821 * noiseState seed (emptyBelow d bw ints k)) % 65536 =
          noiseState seed (emptyBelow d bw ints k + 1) from rfl, ih]
        simp [filledLine, he]
      · rw [if_neg (by rw [ht]; exact he)]
        simp only [if_neg he, Nat.add_zero] at ih
        rw [ih]
        simp [filledLine, he]

/-- **C13** Noise filling of a frame that is not a zero frame replaces line `k` by `filledLine .. k`, that is: only
empty lines change, they get plus or minus one common level, and the signs are a function of the seed and of which
lines are empty. A zero frame is not changed. -/
theorem C13 (d : FrameDuration) {bw seed : Nat} (nf : Nat) {ints : List Int} (lines : List α) (hb : bw ≤ 4)
    (hs : seed < 65536) (hl : bandLimit d bw ≤ ints.length) :
    noiseFilling false seed bw d nf ints lines =
      .ok (lines.zipIdx.map fun p => filledLine d bw seed nf ints p.2 p.1) ∧
    noiseFilling true seed bw d nf ints lines = .ok lines := by
  constructor
  · unfold noiseFilling
    rw [if_pos (by simp), bwStop_eq d hb]
    simp only [Res.bind_ok]
    have h := noiseFillLoop_eq (α := α) (nf := nf) hs hl lines 0
    have h0 : emptyBelow d bw ints 0 = 0 := by simp [emptyBelow]
    rw [h0] at h
    exact h
  · rfl

/-- consequence: a line near a non-zero quantised line, below the start line or beyond the bandwidth limit stays -/
theorem C13_unchanged {d : FrameDuration} {bw seed nf : Nat} {ints : List Int} {k : Nat} (x : α)
    (h : ¬ Empty d bw ints k) : filledLine d bw seed nf ints k x = x := if_neg h

/-- consequence: the new value does not depend on the old one -/
theorem C13_level {d : FrameDuration} {bw seed nf : Nat} {ints : List Int} {k : Nat} (x : α)
    (h : Empty d bw ints k) :
    filledLine d bw seed nf ints k x = noiseLevel nf ∨ filledLine d bw seed nf ints k x = -noiseLevel nf := by
  unfold filledLine
  rw [if_pos h]
  split
  · exact .inl rfl
  · exact .inr rfl

/-- the hypotheses of `C13` hold for every accepted frame -/
example {f : SamplingFrequency} {d : FrameDuration} {buf : List Nat} {si : SideInfo} {ad : ArithmeticData}
    {x : List Int} (h : readFrame false (Lc3Config.new f d) buf = .ok (si, ad, x)) :
    si.bandwidth ≤ 4 ∧ ad.noiseFillingSeed < 65536 ∧ bandLimit d si.bandwidth ≤ x.length := by
  have hs := safe_readFrame f d buf (readFrame_long h)
  rw [h] at hs
  obtain ⟨h1, h2⟩ := hs
  have h3 := h1.bw4
  have h4 := h2.lines
  refine ⟨h3, h2.seed, ?_⟩
  simp only at h3 h4
  rw [h4]
  cases d <;> simp only [bandLimit] <;> omega

/-- 10 ms, bandwidth 0, one non-zero line at 30: lines 24 to 26 and 34 are empty, 27 and 33 are not -/
example : Empty .tenMs 0 (List.replicate 30 0 ++ 1 :: List.replicate 369 0) 26 ∧
    ¬ Empty .tenMs 0 (List.replicate 30 0 ++ 1 :: List.replicate 369 0) 27 := by
  constructor
  · refine ⟨by decide, by decide, ?_⟩
    intro j h1 h2 _
    simp only [noiseDist] at h1 h2
    obtain rfl | rfl | rfl | rfl | rfl | rfl | rfl : j = 23 ∨ j = 24 ∨ j = 25 ∨ j = 26 ∨ j = 27 ∨ j = 28 ∨ j = 29 := by
      omega
    all_goals decide
  · rintro ⟨-, -, h⟩
    exact absurd (h 30 (by decide) (by decide) (by decide)) (by decide)

/-! ### C16 -/

theorem tnsBands_eq (d : FrameDuration) {bw : Nat} (h : bw ≤ 4) :
    tnsBandsDec d bw = if bw < 3 then [tnsBand d bw 0] else [tnsBand d bw 0, tnsBand d bw 1] := by
  cases d <;> interval_cases bw <;> rfl

theorem tnsBands_get (d : FrameDuration) {bw i : Nat} (h : bw ≤ 4) {p : Nat × Nat}
    (hp : (tnsBandsDec d bw)[i]? = some p) : p = tnsBand d bw i := by
  rw [tnsBands_eq d h] at hp
  split at hp
  · rename_i h3
    obtain _ | i := i
    · simpa using hp.symm
    · simp at hp
  · obtain _ | _ | i := i
    · simpa using hp.symm
    · simpa using hp.symm
    · simp at hp

theorem latticeBand_length {rc : List α} {off order : Nat} : ∀ {xs st : List α} {r : List α × List α},
    latticeBand rc off order xs st = .ok r → r.1.length = xs.length
  | [], st, r, h => by
    simp only [latticeBand, Res.ok.injEq] at h
    subst h; rfl
  | x :: xs, st, r, h => by
    rw [latticeBand] at h
    obtain ⟨⟨t, st1⟩, -, h⟩ := bind_ok_inv h
    obtain ⟨⟨l, st2⟩, h2, h⟩ := bind_ok_inv h
    simp only [Res.ok.injEq] at h
    subst h
    simp [latticeBand_length h2]

theorem tnsLoop_outside {rc : List α} : ∀ {bands : List (Nat × Nat)} {orders : List Nat} {f : Nat} {lines st r : List α},
    tnsLoop rc f bands orders lines st = .ok r → (∀ p ∈ bands, p.1 ≤ p.2 ∧ p.2 ≤ lines.length) →
    r.length = lines.length ∧ ∀ k, (∀ i p, bands[i]? = some p → (orders.getD i 0 > 0) → k < p.1 ∨ p.2 ≤ k) →
      r[k]? = lines[k]?
  | [], orders, f, lines, st, r, h, _ => by
    simp only [tnsLoop, Res.ok.injEq] at h
    subst h; simp
  | (a, b) :: bands, [], f, lines, st, r, h, _ => by
    simp only [tnsLoop, Res.ok.injEq] at h
    subst h; simp
  | (a, b) :: bands, o :: orders, f, lines, st, r, h, hb => by
    rw [tnsLoop] at h
    have hb0 := hb (a, b) (by simp)
    simp only at hb0
    split at h
    · rename_i ho
      obtain ⟨⟨l, st1⟩, h1, h⟩ := bind_ok_inv h
      have hl := latticeBand_length h1
      simp only [List.length_drop, List.length_take] at hl
      have hlen : (lines.take a ++ l ++ lines.drop b).length = lines.length := by
        simp only [List.length_append, List.length_take, List.length_drop, hl]; omega
      obtain ⟨e1, e2⟩ := tnsLoop_outside h (by rw [hlen]; exact fun p hp => hb p (by simp [hp]))
      refine ⟨by rw [e1, hlen], ?_⟩
      intro k hk
      rw [e2 k (fun i p hp hoi => hk (i + 1) p (by simpa using hp) (by simpa using hoi))]
      rcases hk 0 (a, b) (by simp) (by simpa using ho) with h3 | h3
      · simp only at h3
        rw [List.getElem?_append_left (by simp; omega), List.getElem?_append_left (by simp; omega),
          List.getElem?_take_of_lt h3]
      · simp only at h3
        rw [List.getElem?_append_right (by simp; omega), List.getElem?_drop]
        congr 1
        simp only [List.length_append, List.length_take, hl]; omega
    · obtain ⟨e1, e2⟩ := tnsLoop_outside h (fun p hp => hb p (by simp [hp]))
      exact ⟨e1, fun k hk => e2 k (fun i p hp hoi => hk (i + 1) p (by simpa using hp) (by simpa using hoi))⟩

/-- **C16** Temporal noise shaping keeps the number of lines and changes no line outside the bands of the active filters
(those with a positive order). -/
theorem C16 {d : FrameDuration} {bw numFilters : Nat} {orders ints : List Nat} {lines r : List α} (hb : bw ≤ 4)
    (h : tnsDecode d bw numFilters orders ints lines = .ok r) :
    r.length = lines.length ∧ ∀ k, (∀ i, i < numFilters → 0 < orders.getD i 0 →
      k < (tnsBand d bw i).1 ∨ (tnsBand d bw i).2 ≤ k) → r[k]? = lines[k]? := by
  unfold tnsDecode at h
  simp only at h
  split at h
  · simp at h
  rename_i h1
  split at h
  · simp at h
  rename_i h2
  have hbands : ∀ p ∈ tnsBandsDec d bw, p.1 ≤ p.2 ∧ p.2 ≤ lines.length := by
    intro p hp
    refine ⟨tnsBands_le p hp, ?_⟩
    simp only [List.any_eq_true, decide_eq_true_eq, not_exists, not_and] at h1
    have := h1 p hp
    omega
  obtain ⟨e1, e2⟩ := tnsLoop_outside h hbands
  refine ⟨e1, fun k hk => e2 k ?_⟩
  intro i p hp hoi
  rw [tnsBands_get d hb hp]
  have hi : i < (orders.take numFilters).length := by
    by_contra hc
    rw [List.getD_eq_default _ _ (by omega)] at hoi
    omega
  rw [List.getD_eq_getElem _ _ hi, List.getElem_take] at hoi
  simp only [List.length_take] at hi
  refine hk i (by omega) ?_
  rw [List.getD_eq_getElem _ _ (by omega)]
  exact hoi

/-- **C16** With no active filter the spectrum is unchanged. -/
theorem C16_inactive {d : FrameDuration} {bw numFilters : Nat} {orders ints : List Nat} {lines r : List α} (hb : bw ≤ 4)
    (h : tnsDecode d bw numFilters orders ints lines = .ok r) (ho : ∀ i, i < numFilters → orders.getD i 0 = 0) :
    r = lines := by
  obtain ⟨h1, h2⟩ := C16 hb h
  exact List.ext_getElem? fun k => h2 k fun i hi hp => by rw [ho i hi] at hp; omega

/-- the hypothesis of `C16` is met: 48 kHz, first filter of order 1, second one off -/
example (lines : List α) (hl : lines.length = 400) : ∃ r, tnsDecode .tenMs 4 2 [1, 0] (List.replicate 16 3) lines = .ok r := by
  have hb : ∀ p ∈ tnsBandsDec .tenMs 4, p.2 ≤ lines.length := by
    rw [hl]; decide
  obtain ⟨r, h, -⟩ := (safe_tnsDecode (nt := 2) (orders := [1, 0]) (ints := List.replicate 16 3) hb (by simp) (by decide)
    (by simp)).exists_ok (noErr_tnsDecode _ _ _ _ _ _)
  exact ⟨r, h⟩

/-! ### C18 -/

theorem unitPulses_eq (l : List Int) : unitPulses l = pulseSum l := rfl

/-- **C18** For every frame the parser accepts, the pulse decoding returns a vector of the transmitted shape and the
gain exists in the table of the shape. -/
theorem C18 {f : SamplingFrequency} {d : FrameDuration} {checks : Bool} {buf : List Nat} {si : SideInfo}
    {ad : ArithmeticData} {x : List Int} (h : readFrame checks (Lc3Config.new f d) buf = .ok (si, ad, x)) :
    (∃ y, snsPulses si.snsVq = .ok y ∧ ShapeVector (2 * si.snsVq.submodeMsb + si.snsVq.submodeLsb) y) ∧
    ∃ g, snsGain si.snsVq = .ok g := by
  have h' : readFrame false (Lc3Config.new f d) buf = .ok (si, ad, x) := by
    cases checks with
    | false => exact h
    | true =>
      rcases readFrame_checks (Lc3Config.new f d) buf with e | e
      · rw [e] at h; simp at h
      · rw [← e]; exact h
  have hs := safe_readFrame f d buf (readFrame_long h')
  rw [h'] at hs
  obtain ⟨hb, -⟩ := hs
  simp only at hb
  constructor
  · have hl := hb.lsb
    have hm := hb.msb
    have ha := hb.idxA
    have hbb := hb.idxB
    unfold snsPulses
    obtain hl | hl : si.snsVq.submodeLsb = 0 ∨ si.snsVq.submodeLsb = 1 := by omega
    all_goals obtain hm | hm : si.snsVq.submodeMsb = 0 ∨ si.snsVq.submodeMsb = 1 := by omega
    all_goals simp only [hl, hm, Nat.reduceShiftLeft, Nat.reduceAdd, if_true, one_ne_zero, if_false, Nat.mul_zero,
      Nat.mul_one] at ha ⊢
    · obtain ⟨l, e1, e2, e3⟩ := mpvqDeenum_ok (dim := 10) (k := 10) (ls := si.snsVq.lsInda) (by omega) (by omega)
        (by rw [mpvqM_10_10]; exact ha)
      obtain ⟨l', e1', e2', e3'⟩ := mpvqDeenum_ok (dim := 6) (k := 1) (ls := si.snsVq.lsIndb) (by omega) (by omega)
        (by rw [mpvqM_6_1]; exact hbb)
      rw [e1, e1']
      refine ⟨l ++ l', rfl, by simp [e2, e2'], ?_⟩
      simp only [unitPulses_eq]
      rw [List.take_left' e2, List.drop_left' e2]
      exact ⟨e3, e3'⟩
    · obtain ⟨l, e1, e2, e3⟩ := mpvqDeenum_ok (dim := 16) (k := 8) (ls := si.snsVq.lsInda) (by omega) (by omega)
        (by rw [mpvqM_16_8]; exact ha)
      exact ⟨l, e1, e2, e3⟩
    · obtain ⟨l, e1, e2, e3⟩ := mpvqDeenum_ok (dim := 10) (k := 10) (ls := si.snsVq.lsInda) (by omega) (by omega)
        (by rw [mpvqM_10_10]; exact ha)
      rw [e1]
      refine ⟨l ++ List.replicate 6 0, rfl, by simp [e2], ?_⟩
      simp only [unitPulses_eq]
      rw [List.take_left' e2, List.drop_left' e2]
      exact ⟨e3, by simp⟩
    · obtain ⟨l, e1, e2, e3⟩ := mpvqDeenum_ok (dim := 16) (k := 6) (ls := si.snsVq.lsInda) (by omega) (by omega)
        (by rw [mpvqM_16_6]; exact ha)
      exact ⟨l, e1, e2, e3⟩
  · obtain ⟨g, h, -⟩ := (safe_snsGain hb).exists_ok (noErr_snsGain _)
    exact ⟨g, h⟩

/-! ### C23 -/

theorem BandTab.strict {tab : List Nat} {nb ne : Nat} (ht : BandTab tab nb ne) :
    ∀ b' b, b < b' → b' ≤ nb → tab.getD b 0 < tab.getD b' 0 := by
  intro b'
  induction b' with
  | zero => intro b h; omega
  | succ n ih =>
    intro b hb hn
    have h1 := ht.mono n (by omega)
    rcases Nat.lt_or_ge b n with h | h
    · exact (ih b h (by omega)).trans h1
    · have : b = n := by omega
      subst this; exact h1

/-- **C23** For every sampling frequency and duration: the coded lines are at most the frame length, both even, the window
offset below half the frame; there is a band table with one more entry than bands, it starts at 0, ends at the number of coded
lines and increases strictly, so that every coded line is in exactly one band. -/
theorem C23 (f : SamplingFrequency) (d : FrameDuration) :
    let cfg := Lc3Config.new f d
    cfg.ne ≤ cfg.nf ∧ cfg.nf % 2 = 0 ∧ cfg.ne % 2 = 0 ∧ 2 * cfg.z < cfg.nf ∧
    ∃ tab, bandTable d cfg.fsInd = .ok tab ∧ tab.length = cfg.nb + 1 ∧ tab.getD 0 0 = 0 ∧
      tab.getD cfg.nb 0 = cfg.ne ∧ (∀ b < cfg.nb, tab.getD b 0 < tab.getD (b + 1) 0) ∧
      ∀ k < cfg.ne, ∃ b, (b < cfg.nb ∧ InBand tab b k) ∧ ∀ b', b' < cfg.nb → InBand tab b' k → b' = b := by
  intro cfg
  obtain ⟨tab, e, ht⟩ := bandTable_ok f d
  have hd : (Lc3Config.new f d).nMs = d := rfl
  rw [hd] at e
  refine ⟨by cases f <;> cases d <;> decide, by cases f <;> cases d <;> decide, by cases f <;> cases d <;> decide,
    by cases f <;> cases d <;> decide, tab, e, ht.len, ht.first, ht.last, ht.mono, ?_⟩
  have hmono : ∀ b' b, b < b' → b' ≤ cfg.nb → tab.getD b 0 < tab.getD b' 0 := ht.strict
  intro k hk
  have hex : ∀ n, n ≤ cfg.nb → k < tab.getD n 0 → ∃ b < n, InBand tab b k := by
    intro n
    induction n with
    | zero => intro _ h; rw [ht.first] at h; omega
    | succ n ih =>
      intro hn h
      by_cases hc : k < tab.getD n 0
      · obtain ⟨b, h1, h2⟩ := ih (by omega) hc
        exact ⟨b, by omega, h2⟩
      · exact ⟨n, by omega, by omega, h⟩
  obtain ⟨b, h1, h2⟩ := hex cfg.nb le_rfl (by rw [ht.last]; exact hk)
  refine ⟨b, ⟨h1, h2⟩, ?_⟩
  intro b' h3 h4
  obtain ⟨a1, a2⟩ := h2
  obtain ⟨c1, c2⟩ := h4
  rcases Nat.lt_trichotomy b b' with h | h | h
  · rcases Nat.lt_or_ge (b + 1) b' with h5 | h5
    · have := hmono b' (b + 1) h5 (by omega); omega
    · have : b' = b + 1 := by omega
      subst this; omega
  · exact h.symm
  · rcases Nat.lt_or_ge (b' + 1) b with h5 | h5
    · have := hmono b (b' + 1) h5 (by omega); omega
    · have : b = b' + 1 := by omega
      subst this; omega

/-- 24 kHz, 7.5 ms -/
example : (Lc3Config.new .hz24000 .sevenPointFiveMs).ne = 180 ∧ (Lc3Config.new .hz24000 .sevenPointFiveMs).z = 42 := by
  decide

/-! ### C24 -/

theorem scaleRange_get {lines r : List α} {a b : Nat} {g : α} (h : scaleRange lines a b g = .ok r) (k : Nat) :
    r[k]? = (lines[k]?).map fun x => if a ≤ k ∧ k < b then x * g else x := by
  unfold scaleRange at h
  split at h
  · rename_i hab
    simp only [Res.ok.injEq] at h
    subst h
    by_cases h1 : k < a
    · rw [List.getElem?_append_left (by simp; omega), List.getElem?_append_left (by simp; omega),
        List.getElem?_take_of_lt h1]
      have : (fun x : α => if a ≤ k ∧ k < b then x * g else x) = id := by
        funext x; rw [if_neg (by omega)]; rfl
      rw [this]; simp
    · by_cases h2 : k < b
      · rw [List.getElem?_append_left (by simp; omega), List.getElem?_append_right (by simp; omega), List.getElem?_map,
          List.getElem?_drop, List.getElem?_take_of_lt (by simp; omega)]
        have e : a + (k - (List.take a lines).length) = k := by simp; omega
        rw [e]
        congr 1
        funext x; rw [if_pos (by omega)]
      · rw [List.getElem?_append_right (by simp; omega), List.getElem?_drop]
        have e : b + (k - (List.take a lines ++ List.map (fun x => x * g) (List.drop a (List.take b lines))).length) = k := by
          simp; omega
        rw [e]
        have : (fun x : α => if a ≤ k ∧ k < b then x * g else x) = id := by
          funext x; rw [if_neg (by omega)]; rfl
        rw [this]; simp
  · simp at h

theorem shapeLoop_get {tab : List Nat} {nb ne : Nat} (ht : BandTab tab nb ne)
    (hm : ∀ b' b, b < b' → b' ≤ nb → tab.getD b 0 < tab.getD b' 0) : ∀ {gs lines r : List α} {b : Nat},
    b + gs.length ≤ nb → shapeLoop tab b gs lines = .ok r →
    r.length = lines.length ∧ ∀ k, (∀ j, j < gs.length → InBand tab (b + j) k → r[k]? = (lines[k]?).map (· * gs.getD j zero)) ∧
      ((∀ j, j < gs.length → ¬ InBand tab (b + j) k) → r[k]? = lines[k]?)
  | [], lines, r, b, _, h => by
    simp only [shapeLoop, Res.ok.injEq] at h
    subst h; simp
  | g :: gs, lines, r, b, hb, h => by
    simp only [List.length_cons] at hb
    rw [shapeLoop] at h
    have hlen := ht.len
    rw [idx_eq_ok (show b < tab.length by omega), idx_eq_ok (show b + 1 < tab.length by omega)] at h
    simp only [Res.bind_ok] at h
    obtain ⟨l1, h1, h⟩ := bind_ok_inv h
    have hg := fun k => scaleRange_get h1 k
    rw [show tab[b] = tab.getD b 0 from (List.getD_eq_getElem _ _ (by omega)).symm,
      show tab[b + 1] = tab.getD (b + 1) 0 from (List.getD_eq_getElem _ _ (by omega)).symm] at hg
    have hl1 : l1.length = lines.length := by
      have a1 := hg l1.length
      have a2 := hg lines.length
      rw [List.getElem?_eq_none (by omega)] at a1
      rw [List.getElem?_eq_none (l := lines) (by omega)] at a2
      simp only [Option.map_none, List.getElem?_eq_none_iff] at a2
      have : lines[l1.length]? = none := by simpa using a1.symm
      rw [List.getElem?_eq_none_iff] at this
      omega
    obtain ⟨e1, e2⟩ := shapeLoop_get ht hm (by omega) h
    refine ⟨by rw [e1, hl1], fun k => ⟨?_, ?_⟩⟩
    · intro j hj hin
      obtain _ | j := j
      · have hno : ∀ i, i < gs.length → ¬ InBand tab (b + 1 + i) k := by
          rintro i hi ⟨c1, -⟩
          obtain ⟨-, c2⟩ := hin
          rcases Nat.eq_zero_or_pos i with rfl | hi0
          · simp only [Nat.add_zero] at c1 c2; omega
          · have := hm (b + 1 + i) (b + 1) (by omega) (by omega)
            simp only [Nat.add_zero] at c2; omega
        rw [(e2 k).2 hno, hg k]
        obtain ⟨c1, c2⟩ := hin
        simp only [Nat.add_zero] at c1 c2
        simp only [List.getD_cons_zero]
        congr 1
        funext x; rw [if_pos ⟨c1, c2⟩]
      · have hin' : InBand tab (b + 1 + j) k := by rw [show b + 1 + j = b + (j + 1) by omega]; exact hin
        rw [(e2 k).1 j (by simpa using hj) hin', hg k]
        obtain ⟨c1, c2⟩ := hin'
        have hn : ¬ (tab.getD b 0 ≤ k ∧ k < tab.getD (b + 1) 0) := by
          rintro ⟨-, d2⟩
          rcases Nat.eq_zero_or_pos j with rfl | hj0
          · simp only [Nat.add_zero] at c1; omega
          · have := hm (b + 1 + j) (b + 1) (by omega) (by simp at hj; omega)
            omega
        have : (fun x : α => if tab.getD b 0 ≤ k ∧ k < tab.getD (b + 1) 0 then x * g else x) = id := by
          funext x; rw [if_neg hn]; rfl
        rw [this]; simp
    · intro hno
      have h0 := hno 0 (by simp)
      rw [(e2 k).2 (fun i hi => by
        have := hno (i + 1) (by simp; omega)
        rwa [show b + (i + 1) = b + 1 + i by omega] at this), hg k]
      have : (fun x : α => if tab.getD b 0 ≤ k ∧ k < tab.getD (b + 1) 0 then x * g else x) = id := by
        funext x; rw [if_neg (show ¬ (tab.getD b 0 ≤ k ∧ k < tab.getD (b + 1) 0) from h0)]; rfl
      rw [this]; simp

theorem idx_mem {β : Type} {l : List β} {i : Nat} {v : β} (h : idx l i = .ok v) : v ∈ l := by
  have hi : i < l.length := by
    by_contra hc
    unfold idx at h
    rw [List.getElem?_eq_none (by omega)] at h
    simp at h
  rw [idx_eq_ok hi] at h
  simp only [Res.ok.injEq] at h
  rw [← h]; exact List.getElem_mem hi

theorem snsGains_length {nb : Nat} {sns : SnsVq} {g : List α} (h : snsGains nb sns = .ok g) (h1 : 32 ≤ nb)
    (h2 : nb ≤ 64) : g.length = nb := by
  unfold snsGains snsScaleFactors at h
  obtain ⟨scf, h3, h⟩ := bind_ok_inv h
  obtain ⟨f, h4, h⟩ := bind_ok_inv h
  obtain ⟨lf, a1, h3⟩ := bind_ok_inv h3
  obtain ⟨hf, a2, h3⟩ := bind_ok_inv h3
  obtain ⟨y, -, h3⟩ := bind_ok_inv h3
  obtain ⟨gg, -, h3⟩ := bind_ok_inv h3
  simp only [Res.ok.injEq] at h h3
  have hs : scf.length = 16 := by
    rw [← h3]; simp [D_length, LFCB_shape.2 lf (idx_mem a1), HFCB_shape.2 hf (idx_mem a2)]
  have := (safe_snsReduce h1 h2 (snsInterp_length hs)).of_ok h4
  rw [← h]; simp [this]

/-- **C24, decoder** Spectral noise shaping multiplies every coded line by the gain of its band, once; other lines (if the
buffer is longer) are not touched. -/
theorem C24 {f : SamplingFrequency} {d : FrameDuration} {sns : SnsVq} {lines r : List α}
    (h : snsDecode (Lc3Config.new f d) sns lines = .ok r) :
    ∃ g tab, snsGains (Lc3Config.new f d).nb sns = .ok g ∧ g.length = (Lc3Config.new f d).nb ∧
      bandTable d (Lc3Config.new f d).fsInd = .ok tab ∧ r.length = lines.length ∧
      (∀ b k, b < (Lc3Config.new f d).nb → InBand tab b k → r[k]? = (lines[k]?).map (· * g.getD b zero)) ∧
      ∀ k, (Lc3Config.new f d).ne ≤ k → r[k]? = lines[k]? := by
  obtain ⟨tab, e, ht⟩ := bandTable_ok f d
  unfold snsDecode at h
  obtain ⟨g, h1, h⟩ := bind_ok_inv h
  rw [e] at h
  simp only [Res.bind_ok] at h
  have hg := snsGains_length h1 (by cases f <;> cases d <;> decide) (by cases f <;> cases d <;> decide)
  obtain ⟨e1, e2⟩ := shapeLoop_get ht ht.strict (by omega) h
  refine ⟨g, tab, h1, hg, e, e1, ?_, ?_⟩
  · intro b k hb hin
    exact (e2 k).1 b (by omega) (by simpa using hin)
  · intro k hk
    refine (e2 k).2 ?_
    rintro j hj ⟨-, h3⟩
    have hl := ht.len
    have : tab.getD (0 + j + 1) 0 ≤ (Lc3Config.new f d).ne := by
      rw [List.getD_eq_getElem _ _ (by omega)]
      exact ht.le _ (List.getElem_mem _)
    omega

/-- the hypothesis of `C24` holds for the side information of every accepted frame -/
example {f : SamplingFrequency} {d : FrameDuration} {buf : List Nat} {si : SideInfo} {ad : ArithmeticData}
    {x : List Int} (h : readFrame false (Lc3Config.new f d) buf = .ok (si, ad, x)) {lines : List α}
    (hl : lines.length = (Lc3Config.new f d).ne) : ∃ r, snsDecode (Lc3Config.new f d) si.snsVq lines = .ok r := by
  have hs := safe_readFrame f d buf (readFrame_long h)
  rw [h] at hs
  obtain ⟨r, e, -⟩ := (safe_snsDecode hs.1 hl).exists_ok (noErr_snsDecode _ _ _)
  exact ⟨r, e⟩

end Lc3
