import Verif.Model.Examples
import Verif.Props.Files
import Verif.Props.LtpfMachine
/-! C114 and C115: the example programs that compare two files and that write a test signal -/

namespace Lc3

/-! ### C114 -/

theorem firstDiff_spec : ∀ (l r : List Nat) (i : Nat), l.length = r.length →
    (firstDiff l r i = none ∧ l = r) ∨ ∃ k, k < l.length ∧ firstDiff l r i = some (i + k, l.getD k 0, r.getD k 0) ∧
      l.take k = r.take k ∧ l.getD k 0 ≠ r.getD k 0
  | [], [], i, _ => .inl ⟨rfl, rfl⟩
  | [], _ :: _, i, h => by simp at h
  | _ :: _, [], i, h => by simp at h
  | a :: l, b :: r, i, h => by
    by_cases e : a = b
    · subst e
      have h' : l.length = r.length := by simpa using h
      rcases firstDiff_spec l r (i + 1) h' with ⟨h1, h2⟩ | ⟨k, h1, h2, h3, h4⟩
      · left
        refine ⟨?_, by rw [h2]⟩
        simp only [firstDiff, ne_eq, not_true_eq_false, if_false]
        exact h1
      · right
        refine ⟨k + 1, by simpa using h1, ?_, ?_, ?_⟩
        · simp only [firstDiff, ne_eq, not_true_eq_false, if_false, List.getD_cons_succ]
          rw [h2, show i + 1 + k = i + (k + 1) by omega]
        · simp only [List.take_succ_cons, h3]
        · simpa using h4
    · right
      refine ⟨0, by simp, ?_, by simp, by simpa using e⟩
      simp only [firstDiff, ne_eq, e, not_false_eq_true, if_true, List.getD_cons_zero, Nat.add_zero]

/-- the number of bytes that are compared: all if the files have the same length, otherwise those in the frames that both files have -/
def comparedBytes (n a b : Nat) : Nat := if a = b then a else n * (min a b / n)

theorem comparedBytes_step {n a b : Nat} (hn : 0 < n) (ha : n ≤ a) (hb : n ≤ b) :
    comparedBytes n a b = n + comparedBytes n (a - n) (b - n) := by
  unfold comparedBytes
  by_cases e : a = b
  · rw [if_pos e, if_pos (by omega)]; omega
  · rw [if_neg e, if_neg (by omega), show min a b = min (a - n) (b - n) + n by omega, Nat.add_div_right _ hn]
    ring

/-- what the program should report for files `left` and `right` whose frames are counted from `frame` on -/
def CompareOk (n frame : Nat) (left right : List Nat) (res : Option CompareResult) : Prop :=
  (∃ a b, res = some (.completed a b) ∧ (a = b ↔ left.length = right.length) ∧
    ∀ p < comparedBytes n left.length right.length, left.getD p 0 = right.getD p 0) ∨
  ∃ p, p < comparedBytes n left.length right.length ∧ (∀ q < p, left.getD q 0 = right.getD q 0) ∧ left.getD p 0 ≠ right.getD p 0 ∧
    res = some (.diff (frame + p / n + 1) (p % n) (left.getD p 0) (right.getD p 0))

theorem getD_take_of_lt {l : List Nat} {n p : Nat} (h : p < n) : (l.take n).getD p 0 = l.getD p 0 := by
  simp only [List.getD_eq_getElem?_getD, List.getElem?_take, h, if_true]

theorem getD_drop_add (l : List Nat) (n p : Nat) : (l.drop n).getD p 0 = l.getD (n + p) 0 := by
  simp only [List.getD_eq_getElem?_getD, List.getElem?_drop]

theorem getD_of_take_eq {l r : List Nat} {n p : Nat} (e : l.take n = r.take n) (h : p < n) : l.getD p 0 = r.getD p 0 := by
  rw [← getD_take_of_lt h, e, getD_take_of_lt h]

theorem compareLoop_spec {n : Nat} (hn : 0 < n) : ∀ (fuel frame : Nat) (left right buf : List Nat), buf.length = n → left.length < fuel →
    CompareOk n frame left right (compareLoop n fuel frame left right buf buf)
  | 0, _, _, _, _, _, h => by omega
  | fuel + 1, frame, left, right, buf, hb, hf => by
    have hl : (left.take n).length = min n left.length := List.length_take
    have hr : (right.take n).length = min n right.length := List.length_take
    unfold compareLoop
    simp only
    by_cases hc : (left.take n).length ≠ (right.take n).length ∨ (left.take n).length = 0
    · rw [if_pos hc]
      left
      refine ⟨_, _, rfl, ?_, ?_⟩
      · rw [hl, hr] at hc ⊢
        omega
      · intro p hp
        unfold comparedBytes at hp
        rw [hl, hr] at hc
        by_cases e : left.length = right.length
        · rw [if_pos e] at hp; omega
        · rw [if_neg e] at hp
          have : min left.length right.length / n = 0 := Nat.div_eq_of_lt (by omega)
          rw [this] at hp; omega
    · rw [if_neg hc]
      push Not at hc
      obtain ⟨h1, h2⟩ := hc
      have hlen : (left.take n ++ buf.drop (left.take n).length).length = (right.take n ++ buf.drop (right.take n).length).length := by
        simp only [List.length_append, List.length_drop]; omega
      have hk : left.length = right.length ∨ (n ≤ left.length ∧ n ≤ right.length) := by rw [hl, hr] at h1; omega
      have h0 : 0 < left.length := by rw [hl] at h2; omega
      rcases firstDiff_spec _ _ 0 hlen with ⟨e1, e2⟩ | ⟨k, k1, k2, k3, k4⟩
      · rw [e1]
        simp only
        rw [← e2]
        have e3 : left.take n = right.take n := by
          have := congrArg (List.take (left.take n).length) e2
          rw [List.take_left' rfl, h1, List.take_left' rfl] at this
          exact this
        have hb' : (left.take n ++ buf.drop (left.take n).length).length = n := by
          simp only [List.length_append, List.length_drop]; omega
        have ih := compareLoop_spec hn fuel (frame + 1) (left.drop n) (right.drop n) _ hb' (by rw [List.length_drop]; omega)
        have hlow : ∀ q < n, left.getD q 0 = right.getD q 0 := fun q hq => getD_of_take_eq e3 hq
        rcases ih with ⟨a, b, i1, i2, i3⟩ | ⟨p, i1, i2, i3, i4⟩
        · left
          refine ⟨a, b, i1, ?_, ?_⟩
          · rw [i2, List.length_drop, List.length_drop]
            omega
          · intro p hp
            rcases lt_or_ge p n with h3 | h3
            · exact hlow p h3
            · rcases lt_or_ge left.length n with h4 | h4
              · have : left.length = right.length := by omega
                unfold comparedBytes at hp
                rw [if_pos this] at hp
                omega
              · have h5 : n ≤ right.length := by omega
                rw [comparedBytes_step hn h4 h5] at hp
                have := i3 (p - n) (by rw [List.length_drop, List.length_drop]; omega)
                rw [getD_drop_add, getD_drop_add, show n + (p - n) = p by omega] at this
                exact this
        · right
          rw [List.length_drop, List.length_drop] at i1
          have h4 : n ≤ left.length ∧ n ≤ right.length := by
            rcases hk with hk | hk
            · by_contra hcon
              unfold comparedBytes at i1
              rw [if_pos (by omega)] at i1
              omega
            · exact hk
          rw [getD_drop_add, getD_drop_add] at i3 i4
          refine ⟨n + p, by rw [comparedBytes_step hn h4.1 h4.2]; omega, ?_, i3, ?_⟩
          · intro q hq
            rcases lt_or_ge q n with h3 | h3
            · exact hlow q h3
            · have := i2 (q - n) (by omega)
              rw [getD_drop_add, getD_drop_add, show n + (q - n) = q by omega] at this
              exact this
          · rw [i4, Nat.add_div_left _ hn, Nat.add_mod_left]
            simp only [Option.some.injEq, CompareResult.diff.injEq, and_true]
            omega
      · have hkl : k < (left.take n).length := by
          by_contra hcon
          apply k4
          rw [List.getD_append_right _ _ _ _ (not_lt.1 hcon), List.getD_append_right _ _ _ _ (by omega), h1]
        have g1 : (left.take n ++ buf.drop (left.take n).length).getD k 0 = left.getD k 0 := by
          rw [List.getD_append _ _ _ _ hkl, getD_take_of_lt (by omega)]
        have g2 : (right.take n ++ buf.drop (right.take n).length).getD k 0 = right.getD k 0 := by
          rw [List.getD_append _ _ _ _ (by omega), getD_take_of_lt (by omega)]
        rw [k2]
        rw [g1, g2] at k4
        right
        refine ⟨k, ?_, ?_, k4, ?_⟩
        · unfold comparedBytes
          by_cases e : left.length = right.length
          · rw [if_pos e]; omega
          · rw [if_neg e]
            have h3 : 1 ≤ min left.length right.length / n := (Nat.le_div_iff_mul_le hn).2 (by omega)
            have := Nat.mul_le_mul_left n h3
            omega
        · intro q hq
          have g3 : (left.take n ++ buf.drop (left.take n).length).getD q 0 = left.getD q 0 := by
            rw [List.getD_append _ _ _ _ (by omega), getD_take_of_lt (by omega)]
          have g4 : (right.take n ++ buf.drop (right.take n).length).getD q 0 = right.getD q 0 := by
            rw [List.getD_append _ _ _ _ (by omega), getD_take_of_lt (by omega)]
          rw [← g3, ← g4]
          exact getD_of_take_eq k3 hq
        · simp only [g1, g2, Nat.zero_add]
          rw [Nat.div_eq_of_lt (by omega), Nat.mod_eq_of_lt (by omega)]

/-- **C114** The program that compares two files ends. It reports the first byte at which they differ, with the number of its frame and its place in it, among
the bytes compared: all if the files have the same length, otherwise those in whole frames that both files have. If there is none, it reports the
lengths of the last reads, which are equal iff the lengths of the files are. -/
theorem C114 (left right : List Nat) : CompareOk 150 0 left right (compareFiles left right) :=
  compareLoop_spec (by norm_num) _ _ _ _ _ (by simp) (by omega)

/-- **C114** It reports the end with equal lengths exactly for equal files. -/
theorem C114_equal (left right : List Nat) : (∃ a, compareFiles left right = some (.completed a a)) ↔ left = right := by
  have h := C114 left right
  constructor
  · rintro ⟨a, e⟩
    rcases h with ⟨b, c, e1, e2, e3⟩ | ⟨p, -, -, -, e1⟩
    · rw [e] at e1
      simp only [Option.some.injEq, CompareResult.completed.injEq] at e1
      have e4 := e2.1 (by omega)
      unfold comparedBytes at e3
      rw [if_pos e4] at e3
      apply List.ext_getElem e4
      intro i h1 h2
      have := e3 i h1
      rwa [List.getD_eq_getElem _ _ h1, List.getD_eq_getElem _ _ h2] at this
    · rw [e] at e1; cases e1
  · rintro rfl
    rcases h with ⟨b, c, e1, e2, -⟩ | ⟨p, -, -, e, -⟩
    · exact ⟨b, by rw [e1, e2.2 rfl]⟩
    · exact absurd rfl e

/-- a difference in the second frame -/
example : compareFiles (List.replicate 200 7) (List.replicate 160 7 ++ List.replicate 40 8) = some (.diff 2 10 7 8) := by decide +kernel

/-- a difference in an incomplete last frame of files of different lengths is not looked at, but the lengths are reported -/
example : compareFiles [1, 2] [3] = some (.completed 2 1) := by decide

/-! ### C115 -/

theorem i32Chk_of {x : Int} (h1 : -2147483648 ≤ x) (h2 : x ≤ 2147483647) : i32Chk x = .ok x := if_pos ⟨h1, h2⟩

/-- **C115** The triangle wave is computed without overflow if the largest product fits, lies between minus half and half of the amplitude (rounded up) and is the
distance of the phase, reduced to one period, from the middle of the period. -/
theorem C115_wave {x A phase periods : Int} {length : Nat} (hx : 0 ≤ x) (hph : 0 ≤ phase) (hp : 0 < periods) (hl : 0 < length) (hl2 : length < 2 ^ 31)
    (hA : 0 < A) (hA2 : 2 * A < 2 ^ 31) (hp4 : 4 * periods < 2 ^ 31) (hxp : x + phase + length / (4 * periods) < 2 ^ 31)
    (hprod : 2 * periods * (x + phase + length / (4 * periods)) * A < 2 ^ 31) :
    ∃ v, triangleWave x length A phase periods = .ok v ∧ -(A / 2) ≤ v ∧ v ≤ A - A / 2 ∧
      v = A - |2 * periods * (x + phase + length / (4 * periods)) * A / length % (2 * A) - A| - A / 2 := by
  have hL : asI32 length = (length : Int) := by unfold asI32; omega
  obtain ⟨q, hq⟩ : ∃ q, q = (length : Int) / (4 * periods) := ⟨_, rfl⟩
  have hq0 : 0 ≤ q := by rw [hq]; exact Int.ediv_nonneg (by omega) (by omega)
  have hql : q ≤ length := by rw [hq]; exact Int.ediv_le_self _ (by omega)
  have hqt : Int.tdiv (length : Int) (4 * periods) = q := by rw [Int.tdiv_eq_ediv_of_nonneg (by omega), hq]
  rw [← hq] at hxp hprod
  obtain ⟨w, hw⟩ : ∃ w, w = x + phase + q := ⟨_, rfl⟩
  rw [← hw] at hxp hprod
  have hw0 : 0 ≤ w := by omega
  have h1 : 0 ≤ 2 * periods * w := mul_nonneg (by omega) hw0
  have h2 : 2 * periods * w ≤ 2 * periods * w * A := le_mul_of_one_le_right h1 (by omega)
  obtain ⟨P, hP⟩ : ∃ P, P = 2 * periods * w * A := ⟨_, rfl⟩
  have hP0 : 0 ≤ P := by rw [hP]; exact mul_nonneg h1 hA.le
  obtain ⟨d, hd⟩ : ∃ d, d = P / (length : Int) := ⟨_, rfl⟩
  have hd0 : 0 ≤ d := by rw [hd]; exact Int.ediv_nonneg hP0 (by omega)
  have hdP : d ≤ P := by rw [hd]; exact Int.ediv_le_self _ hP0
  have hdt : Int.tdiv P (length : Int) = d := by rw [Int.tdiv_eq_ediv_of_nonneg hP0, hd]
  obtain ⟨m, hm⟩ : ∃ m, m = d % (2 * A) := ⟨_, rfl⟩
  have hm0 : 0 ≤ m := by rw [hm]; exact Int.emod_nonneg _ (by omega)
  have hm1 : m < 2 * A := by rw [hm]; exact Int.emod_lt_of_pos _ (by omega)
  have hmt : Int.tmod d (2 * A) = m := by rw [Int.tmod_eq_emod_of_nonneg hd0, hm]
  have hht : Int.tdiv A 2 = A / 2 := Int.tdiv_eq_ediv_of_nonneg (by omega)
  have habs : 0 ≤ |m - A| ∧ |m - A| ≤ A := ⟨abs_nonneg _, abs_le.2 ⟨by omega, by omega⟩⟩
  refine ⟨A - |m - A| - A / 2, ?_, by omega, by omega, by rw [← hq, ← hw, ← hP, ← hd, ← hm]⟩
  unfold triangleWave divI32 remI32
  rw [hL]
  simp only
  rw [i32Chk_of (x := 2 * periods) (by omega) (by omega), Res.bind_ok, i32Chk_of (x := x + phase) (by omega) (by omega), Res.bind_ok,
    i32Chk_of (x := 4 * periods) (by omega) (by omega), Res.bind_ok, if_neg (by omega), hqt, i32Chk_of (x := q) (by omega) (by omega), Res.bind_ok,
    ← hw, i32Chk_of (x := w) (by omega) (by omega), Res.bind_ok, i32Chk_of (x := 2 * periods * w) (by omega) (by omega), Res.bind_ok,
    ← hP, i32Chk_of (x := P) (by omega) (by omega), Res.bind_ok, if_neg (by omega), hdt, i32Chk_of (x := d) (by omega) (by omega), Res.bind_ok,
    i32Chk_of (x := 2 * A) (by omega) (by omega), Res.bind_ok, if_neg (by omega), hmt, i32Chk_of (x := m) (by omega) (by omega), Res.bind_ok,
    i32Chk_of (x := m - A) (by omega) (by omega), Res.bind_ok, Int.natCast_natAbs, i32Chk_of (x := |m - A|) (by omega) (by omega), Res.bind_ok,
    if_neg (by omega), hht, i32Chk_of (x := A / 2) (by omega) (by omega), Res.bind_ok, i32Chk_of (x := A - |m - A|) (by omega) (by omega), Res.bind_ok,
    i32Chk_of (by omega) (by omega)]

/-- **C115** If the number of periods divides the length, the wave repeats after each period. -/
theorem C115_period {x A phase periods c : Int} {length : Nat} (hx : 0 ≤ x) (hph : 0 ≤ phase) (hp : 0 < periods) (hl : 0 < length) (hl2 : length < 2 ^ 31)
    (hA : 0 < A) (hA2 : 2 * A < 2 ^ 31) (hp4 : 4 * periods < 2 ^ 31) (hc : (length : Int) = periods * c)
    (hxp : x + c + phase + length / (4 * periods) < 2 ^ 31) (hprod : 2 * periods * (x + c + phase + length / (4 * periods)) * A < 2 ^ 31) :
    triangleWave (x + c) length A phase periods = triangleWave x length A phase periods := by
  have hc0 : 0 < c := by
    by_contra h
    have : periods * c ≤ 0 := mul_nonpos_of_nonneg_of_nonpos hp.le (by omega)
    omega
  have hq0 : 0 ≤ (length : Int) / (4 * periods) := Int.ediv_nonneg (by omega) (by omega)
  obtain ⟨v, e1, -, -, e2⟩ := C115_wave (x := x + c) (by omega) hph hp hl hl2 hA hA2 hp4 hxp hprod
  have hle : 2 * periods * (x + phase + length / (4 * periods)) * A ≤ 2 * periods * (x + c + phase + length / (4 * periods)) * A := by
    apply mul_le_mul_of_nonneg_right _ hA.le
    apply mul_le_mul_of_nonneg_left _ (by omega)
    omega
  obtain ⟨u, f1, -, -, f2⟩ := C115_wave (x := x) hx hph hp hl hl2 hA hA2 hp4 (by omega) (by omega)
  rw [e1, f1, e2, f2]
  have e : 2 * periods * (x + c + phase + length / (4 * periods)) * A = 2 * periods * (x + phase + length / (4 * periods)) * A + length * (2 * A) := by
    rw [hc]; ring
  rw [e, Int.add_mul_ediv_left _ _ (by omega), Int.add_emod_right]

/-- the test signal: one triangle from 0 over 32767 and -32767 -/
theorem demoSignal_eq : demoSignal = .ok [0, 4095, 8191, 12287, 16383, 20479, 24575, 28671, 32767, 28672, 24576, 20480, 16384, 12288, 8192, 4096,
    0, -4095, -8191, -12287, -16383, -20479, -24575, -28671, -32767, -28672, -24576, -20480, -16384, -12288, -8192, -4096] := by decide +kernel

/-- **C115** The conversion of the test signal to `i16` loses nothing. -/
theorem C115_signal (x : Nat) (hx : x < 32) : ∃ v, triangleWave x 32 (65535 - 1) 0 1 = .ok v ∧ i32AsI16 v = v := by
  obtain ⟨v, e, h1, h2, -⟩ := C115_wave (x := x) (A := 65534) (phase := 0) (periods := 1) (length := 32) (by omega) (by omega) (by omega) (by omega)
    (by omega) (by omega) (by omega) (by omega) (by omega) (by omega)
  refine ⟨v, e, ?_⟩
  unfold i32AsI16
  omega

theorem flatten_replicate_length {β : Type} (n : Nat) (l : List β) : ((List.replicate n l).flatten).length = n * l.length := by simp

/-- **C115** The program writes a file with a readable header that states the right number of data bytes, of channels and the right sampling
frequency. Two fields are wrong: the block size is 4 instead of 2 bytes, and the size of the rest of the file is 8 bytes too large. -/
theorem C115_file : ∃ file hd, demoFile = .ok file ∧ readWavHeader file = .ok (.ok hd) ∧ hd.dataStartPosition = 44 ∧ hd.numChannels = 1 ∧ hd.sampleRate = 48000 ∧
    hd.bitsPerSample = 16 ∧ hd.dataSize = (file.drop 44).length ∧ hd.byteRate = 48000 * 2 ∧
    hd.blockAlign = hd.numChannels * hd.bitsPerSample / 8 + 2 ∧ hd.dataWithHeaderSize = file.length - 8 + 8 := by
  obtain ⟨sig, hs, hsl⟩ : ∃ sig, demoSignal = .ok sig ∧ (writeI16s sig).length = 64 := ⟨_, demoSignal_eq, by decide⟩
  have hw : writeWavHeader demoHeader (List.replicate 256 0) = .ok (headerBytes demoHeader ++ List.drop 44 (List.replicate 256 0), .ok 44) :=
    writeWavHeader_eq (by rw [List.length_replicate]; omega)
  have hlen : (headerBytes demoHeader).length = 44 := headerBytes_length _
  obtain ⟨tail, ht⟩ : ∃ t : List Nat, t = List.drop 44 (List.replicate 256 0) := ⟨_, rfl⟩
  obtain ⟨data, hd⟩ : ∃ d, d = (List.replicate 375 (writeI16s sig ++ (List.replicate 9 (List.replicate (32 * 2) 0)).flatten)).flatten := ⟨_, rfl⟩
  have hdl : data.length = 240000 := by
    rw [hd, flatten_replicate_length, List.length_append, hsl, flatten_replicate_length, List.length_replicate]
  have hfile : demoFile = .ok (headerBytes demoHeader ++ data) := by
    unfold demoFile
    rw [hs, Res.bind_ok, hw, ← ht]
    simp only [Res.bind_ok]
    rw [List.take_left' hlen, ← hd]
  refine ⟨_, _, hfile, readWavHeader_append (h := demoHeader) (by unfold FitsWav demoHeader; decide) _, rfl, rfl, rfl, rfl, ?_, rfl, rfl, ?_⟩
  · rw [List.drop_left' hlen, hdl]; rfl
  · rw [List.length_append, hlen, hdl]; rfl

/-- a wave with three periods and a phase, in the range of the theorem -/
example : triangleWave 5 240 1000 7 3 = .ok 300 := by decide

end Lc3
