import Verif.Spec.Concealment
import Verif.Props.DecoderSafety
import Verif.Model.ScalarReal
import Verif.Lemmas.F32
import Mathlib.Tactic.Ring
import Mathlib.Tactic.Linarith
/-!
# C08 and C09: concealment of lost frames, output samples
-/

namespace Lc3
open Spec Scalar

variable {α : Type} [Scalar α]

theorem plcState_lt (k : Nat) : plcState k < 65536 := by
  cases k with
  | zero => decide
  | succ k => exact Nat.mod_lt _ (by norm_num)

theorem plcState_succ (k : Nat) : (16831 + plcState k * 12821) &&& 0xFFFF = plcState (k + 1) := by
  rw [show 0xFFFF = 2 ^ 16 - 1 from rfl, Nat.and_two_pow_sub_one_eq_mod, plcState, Nat.mul_comm]

theorem plcLoop_spec (a : α) : ∀ (cur good : List α) (k : Nat), cur.length = good.length →
    plcLoop a (plcState k) cur good =
      ((List.range good.length).map (fun i => if plcState (k + i + 1) < 32768 then good.getD i zero * a
        else good.getD i zero * -a), plcState (k + good.length))
  | [], [], k, _ => by simp [plcLoop]
  | [], g :: good, k, h => by simp at h
  | c :: cur, [], k, h => by simp at h
  | c :: cur, g :: good, k, h => by
    rw [plcLoop, plcState_succ]
    simp only
    rw [plcLoop_spec a cur good (k + 1) (by simpa using h)]
    simp only [List.length_cons, List.range_succ_eq_map, List.map_cons, List.map_map, Prod.mk.injEq]
    refine ⟨?_, by congr 1; omega⟩
    congr 1
    apply List.map_congr_left
    intro i _
    simp only [Function.comp_apply, List.getD_cons_succ]
    rw [show k + 1 + i + 1 = k + i.succ + 1 by omega]

theorem plcAlpha_fade (n : Nat) : plcAlpha n (fade n : α) = fade (n + 1) := by
  unfold plcAlpha
  rw [fade]
  by_cases h4 : n < 4
  · rw [if_neg (by omega), if_pos h4]
  · rw [if_pos (by omega), if_neg h4]
    by_cases h8 : n < 8 <;> simp [h8]

/-- the concealment state after the history `h` -/
structure PlcAfter (f : SamplingFrequency) (d : FrameDuration) (l0 : List α) (h : List (Option (List α)))
    (ch : DecChannel α) : Prop where
  inv : ChInv f d ch
  good : ch.plc.lastGood = lastGood l0 h
  lost : ch.plc.numLost = lossRun h
  alpha : ch.plc.alpha = fade (lossRun h)
  seed : ch.plc.seed = plcState (lossTotal h * (Lc3Config.new f d).ne)

/-- what a call does to the concealment state and the spectrum -/
theorem decodeChannel_plc {checks : Bool} {cfg : Lc3Config} {ch ch' : DecChannel α} {buf : List Nat}
    {out out' : List Int} {r : DecResult} (e : decodeChannel checks cfg ch 16 buf out = .ok (r, ch', out')) :
    ∃ info, decodeSpectrum checks cfg ch buf = .ok (ch'.specLines, ch'.plc, info) := by
  unfold decodeChannel at e
  rw [if_neg (by simp)] at e
  obtain ⟨⟨lines, plc, info⟩, h1, e⟩ := bind_ok_inv e
  simp only at e
  split at e
  · simp at e
  obtain ⟨⟨_, _⟩, -, e⟩ := bind_ok_inv e
  obtain ⟨⟨_, _⟩, -, e⟩ := bind_ok_inv e
  simp only [Res.ok.injEq, Prod.mk.injEq] at e
  obtain ⟨-, rfl, -⟩ := e
  exact ⟨info, h1⟩

theorem PlcAfter.lostFrame {f : SamplingFrequency} {d : FrameDuration} {l0 : List α} {h : List (Option (List α))}
    {ch ch' : DecChannel α} (H : PlcAfter f d l0 h ch) {checks : Bool} {buf : List Nat} {out out' : List Int}
    {r : DecResult} (hb : readFrame checks (Lc3Config.new f d) buf = .err)
    (e : decodeChannel checks (Lc3Config.new f d) ch 16 buf out = .ok (r, ch', out')) :
    PlcAfter f d l0 (none :: h) ch' ∧ ch'.specLines = (List.range (Lc3Config.new f d).ne).map
      (concealedLine (Lc3Config.new f d).ne l0 h) := by
  obtain ⟨info, hs⟩ := decodeChannel_plc e
  have hi := (decodeChannel_inv H.inv e).1
  unfold decodeSpectrum at hs
  rw [hb] at hs
  simp only [Res.ok.injEq, Prod.mk.injEq] at hs
  obtain ⟨h1, h2, -⟩ := hs
  unfold Plc.loadInto at h1 h2
  have hl : ch.specLines.length = ch.plc.lastGood.length := by rw [H.inv.spec, H.inv.plcLen]
  simp only [H.seed, H.lost, H.alpha, plcAlpha_fade] at h1 h2
  rw [plcLoop_spec _ _ _ _ hl] at h1 h2
  have hne : ch.plc.lastGood.length = (Lc3Config.new f d).ne := H.inv.plcLen
  constructor
  · refine ⟨hi, ?_, ?_, ?_, ?_⟩
    · rw [← h2]; exact H.good
    · rw [← h2]; rfl
    · rw [← h2]; rfl
    · rw [← h2]
      simp only [lossTotal]
      rw [hne]; congr 1; ring
  · rw [← h1, hne, H.good]
    rfl

theorem PlcAfter.goodFrame {f : SamplingFrequency} {d : FrameDuration} {l0 : List α} {h : List (Option (List α))}
    {ch ch' : DecChannel α} (H : PlcAfter f d l0 h ch) {checks : Bool} {buf : List Nat} {out out' : List Int}
    {r : DecResult} {p : SideInfo × ArithmeticData × List Int} (hb : readFrame checks (Lc3Config.new f d) buf = .ok p)
    (e : decodeChannel checks (Lc3Config.new f d) ch 16 buf out = .ok (r, ch', out')) :
    PlcAfter f d l0 (some ch'.specLines :: h) ch' := by
  obtain ⟨info, hs⟩ := decodeChannel_plc e
  have hi := (decodeChannel_inv H.inv e).1
  unfold decodeSpectrum at hs
  rw [hb] at hs
  obtain ⟨si, ad, x⟩ := p
  simp only at hs
  obtain ⟨lines, -, hs⟩ := bind_ok_inv hs
  obtain ⟨plc, h2, hs⟩ := bind_ok_inv hs
  simp only [Res.ok.injEq, Prod.mk.injEq] at hs
  obtain ⟨rfl, rfl, -⟩ := hs
  unfold Plc.save at h2
  split at h2
  · simp at h2
  simp only [Res.ok.injEq] at h2
  have hne := H.inv.plcNe
  have hll : ch'.specLines.length = _ := hi.spec
  have hpl := H.inv.plcLen
  refine ⟨hi, ?_, ?_, ?_, ?_⟩
  · rw [← h2]
    simp only [lastGood]
    rw [hne, List.take_of_length_le (by omega), List.drop_eq_nil_of_le (by omega), List.append_nil]
  · rw [← h2]; rfl
  · rw [← h2]; rfl
  · rw [← h2]; exact H.seed

theorem Spec.History.after {f : SamplingFrequency} {d : FrameDuration} {ch0 ch : DecChannel α}
    {h : List (Option (List α))} (H : History f d ch0 ch h) (h0 : PlcAfter f d ch0.plc.lastGood [] ch0) :
    PlcAfter f d ch0.plc.lastGood h ch := by
  induction H with
  | start => exact h0
  | good _ hb e ih => exact ih.goodFrame hb e
  | lost _ hb e ih => exact (ih.lostFrame hb e).1
  | refused _ hb e ih =>
    unfold decodeChannel at e
    rw [if_pos hb] at e
    simp only [Res.ok.injEq, Prod.mk.injEq] at e
    obtain ⟨-, rfl, -⟩ := e
    exact ih

/-- a new channel: no losses, the start seed -/
theorem decChannelNew_plc {cfg : Lc3Config} {sb sb' : List α} {cb cb' : List (Cx α)} {ch : DecChannel α}
    (h : decChannelNew cfg sb cb = .ok (ch, sb', cb')) :
    ch.plc.numLost = 0 ∧ ch.plc.alpha = one ∧ ch.plc.seed = 24607 := by
  unfold decChannelNew Plc.new at h
  obtain ⟨⟨_, _⟩, -, h⟩ := bind_ok_inv h
  obtain ⟨⟨plc, _⟩, hp, h⟩ := bind_ok_inv h
  obtain ⟨⟨_, _⟩, -, hp⟩ := bind_ok_inv hp
  simp only [Res.ok.injEq, Prod.mk.injEq] at hp
  obtain ⟨rfl, -⟩ := hp
  obtain ⟨⟨_, _, _⟩, -, h⟩ := bind_ok_inv h
  obtain ⟨⟨_, _⟩, -, h⟩ := bind_ok_inv h
  obtain ⟨⟨_, _⟩, -, h⟩ := bind_ok_inv h
  simp only [Res.ok.injEq, Prod.mk.injEq] at h
  obtain ⟨rfl, -, -⟩ := h
  exact ⟨rfl, rfl, rfl⟩

theorem decChannelsNew_plc {cfg : Lc3Config} : ∀ {n : Nat} {sb sb' : List α} {cb cb' : List (Cx α)}
    {chs : List (DecChannel α)}, decChannelsNew cfg n sb cb = .ok (chs, sb', cb') →
    ∀ ch ∈ chs, ch.plc.numLost = 0 ∧ ch.plc.alpha = one ∧ ch.plc.seed = 24607
  | 0, sb, sb', cb, cb', chs, h => by
    simp only [decChannelsNew, Res.ok.injEq, Prod.mk.injEq] at h
    obtain ⟨rfl, -, -⟩ := h
    simp
  | n + 1, sb, sb', cb, cb', chs, h => by
    rw [decChannelsNew] at h
    obtain ⟨⟨ch, s1, c1⟩, h1, h⟩ := bind_ok_inv h
    obtain ⟨⟨l, s2, c2⟩, h2, h⟩ := bind_ok_inv h
    simp only [Res.ok.injEq, Prod.mk.injEq] at h
    obtain ⟨rfl, -, -⟩ := h
    intro x hx
    rcases List.mem_cons.1 hx with rfl | hx
    · exact decChannelNew_plc h1
    · exact decChannelsNew_plc h2 x hx

/-- **C08** Take a channel of a new decoder and any sequence of good and lost frames; let `h` be the history. If the
next frame is lost, its spectrum is, line by line, the last good spectrum times plus or minus the fade factor for the
length of the current loss run. The sign is decided by the pseudo random state alone, of which every line of every lost frame
draws the next value. -/
theorem C08 {f : SamplingFrequency} {d : FrameDuration} {n : Nat} {sb : List α} {cb : List (Cx α)} {D : Decoder α}
    {r1 : List α} {r2 : List (Cx α)} (hD : Decoder.new n d f sb cb = .ok (D, r1, r2)) {ch0 : DecChannel α}
    (h0 : ch0 ∈ D.channels) {ch ch' : DecChannel α} {h : List (Option (List α))} (H : History f d ch0 ch h)
    {checks : Bool} {buf : List Nat} {out out' : List Int} {r : DecResult}
    (hb : readFrame checks (Lc3Config.new f d) buf = .err)
    (e : decodeChannel checks (Lc3Config.new f d) ch 16 buf out = .ok (r, ch', out')) :
    ch'.specLines = (List.range (Lc3Config.new f d).ne).map
      (concealedLine (Lc3Config.new f d).ne ch0.plc.lastGood h) := by
  have hD' := hD
  unfold Decoder.new at hD'
  obtain ⟨⟨chs, s1, c1⟩, h1, hD'⟩ := bind_ok_inv hD'
  simp only [Res.ok.injEq, Prod.mk.injEq] at hD'
  obtain ⟨rfl, rfl, rfl⟩ := hD'
  obtain ⟨p1, p2, p3⟩ := decChannelsNew_plc h1 ch0 h0
  obtain ⟨a1, a2, -⟩ := decChannelsNew_uses h1
  obtain ⟨chs', e', -, hi⟩ := decChannelsNew_ok (f := f) (d := d) (n := n) (sb := sb) (cb := cb) (by omega) (by omega)
  rw [e'] at h1
  simp only [Res.ok.injEq, Prod.mk.injEq] at h1
  obtain ⟨rfl, -, -⟩ := h1
  have ha := H.after ⟨hi ch0 h0, rfl, p1, p2, by simp [p3, lossTotal, plcState]⟩
  exact (ha.lostFrame hb e).2

/-- the pseudo random state never leaves its range -/
theorem C08_state_range (k : Nat) : plcState k < 65536 := plcState_lt k

/-- the fade factors in exact arithmetic: 1 up to the fourth loss, then 0.9 per loss up to the eighth, then 0.85 -/
theorem C08_fade (n : Nat) : (fade n : ℝ) = (9 / 10 : ℝ) ^ (min n 8 - 4) * (85 / 100 : ℝ) ^ (n - 8) := by
  induction n with
  | zero => show ((1 : Rat) : ℝ) = _; simp
  | succ n ih =>
    have e1 : (ofRat (9 / 10) : ℝ) = 9 / 10 := by show (((9 / 10 : Rat)) : ℝ) = _; norm_num
    have e2 : (ofRat (85 / 100) : ℝ) = 85 / 100 := by show (((85 / 100 : Rat)) : ℝ) = _; norm_num
    rw [fade, ih, e1, e2]
    by_cases h4 : n < 4
    · rw [if_pos h4, show min n 8 - 4 = 0 by omega, show min (n + 1) 8 - 4 = 0 by omega, show n - 8 = 0 by omega,
        show n + 1 - 8 = 0 by omega]
    · rw [if_neg h4]
      by_cases h8 : n < 8
      · rw [if_pos h8, show min (n + 1) 8 - 4 = (min n 8 - 4) + 1 by omega, show n - 8 = 0 by omega,
          show n + 1 - 8 = 0 by omega]
        ring
      · rw [if_neg h8, show min (n + 1) 8 - 4 = min n 8 - 4 by omega, show n + 1 - 8 = (n - 8) + 1 by omega]
        ring

/-- the hypotheses of `C08` can be met: a new decoder, a lost frame, then another lost frame -/
example : ∃ (sb : List α) (cb : List (Cx α)) (D : Decoder α) (r1 : List α) (r2 : List (Cx α)) (ch0 ch ch' : DecChannel α)
    (out' : List Int), Decoder.new 1 .tenMs .hz16000 sb cb = .ok (D, r1, r2) ∧
    ch0 ∈ D.channels ∧ History .hz16000 .tenMs ch0 ch [none] ∧
    readFrame true (Lc3Config.new .hz16000 .tenMs) [] = .err ∧
    decodeChannel true (Lc3Config.new .hz16000 .tenMs) ch 16 [] [0, 0] = .ok (.ok, ch', out') := by
  obtain ⟨D, e, hl⟩ := (C11 1 .hz16000 .tenMs (List.replicate (decoderLens 1 .tenMs .hz16000).1 (zero : α))
    (List.replicate (decoderLens 1 .tenMs .hz16000).2 ⟨zero, zero⟩)).1 (by simp)
  have hi := (reachable_inv (Reachable.new e)).2
  have h0 := List.getElem_mem (l := D.channels) (n := 0) (by omega)
  have hr : readFrame true (Lc3Config.new .hz16000 .tenMs) [] = .err := by decide +kernel
  obtain ⟨ch, o1, e1⟩ := decodeChannel_err (hi _ h0) hr [0, 0]
  obtain ⟨ch', o2, e2⟩ := decodeChannel_err (decodeChannel_inv (hi _ h0) e1).1 hr [0, 0]
  exact ⟨_, _, D, _, _, D.channels[0], ch, ch', o2, e, h0, .lost .start hr e1, hr, e2⟩

/-- the fifth loss in a row is attenuated: signs and factor of the first lines -/
example : concealedLine 2 ([] : List α) [none, none, none, none, some [one, zero]] 0 =
    one * -(one * ofRat (9 / 10)) ∧ 32768 ≤ plcState 9 := by
  constructor
  · simp [concealedLine, lossRun, lossTotal, lastGood, fade, plcState]
  · decide

/-! ### C09 -/

theorem scaleAndRound_eq : ∀ (xs : List α) (out : List Int),
    scaleAndRound xs out = (xs.take out.length).map roundSample ++ out.drop xs.length
  | [], out => by cases out <;> simp [scaleAndRound]
  | x :: xs, [] => by simp [scaleAndRound]
  | x :: xs, o :: out => by simp [scaleAndRound, scaleAndRound_eq xs out]

theorem roundSample_range (x : α) : -32768 ≤ roundSample x ∧ roundSample x ≤ 32767 := by
  unfold roundSample
  simp only
  omega

/-- **C09, samples written** For every scalar type (so for `f32` with NaN and infinities) and every reachable channel state: a
call that decodes a frame writes the first `min (frame length) (buffer length)` samples of the caller's buffer, each is a
16 bit value, computed from the filtered sample at the same position, and the rest of the buffer is not changed. -/
theorem C09 {f : SamplingFrequency} {d : FrameDuration} {ch ch' : DecChannel α} (h : ChInv f d ch) {checks : Bool}
    {buf : List Nat} {out out' : List Int} {r : DecResult}
    (e : decodeChannel checks (Lc3Config.new f d) ch 16 buf out = .ok (r, ch', out')) :
    ch'.freqSamples.length = (Lc3Config.new f d).nf ∧ out'.length = out.length ∧
    (∀ i, i < out.length → i < (Lc3Config.new f d).nf →
      out'.getD i 0 = roundSample (ch'.freqSamples.getD i zero) ∧ -32768 ≤ out'.getD i 0 ∧ out'.getD i 0 ≤ 32767) ∧
    (∀ i, (Lc3Config.new f d).nf ≤ i → out'.getD i 0 = out.getD i 0) := by
  obtain ⟨hi, hl⟩ := decodeChannel_inv h e
  change out'.length = out.length at hl
  have hf : ch'.freqSamples.length = (Lc3Config.new f d).nf := hi.freq
  refine ⟨hf, hl, ?_⟩
  have ho : out' = scaleAndRound ch'.freqSamples out := by
    unfold decodeChannel at e
    rw [if_neg (by simp)] at e
    obtain ⟨⟨lines, plc, info⟩, -, e⟩ := bind_ok_inv e
    simp only at e
    split at e
    · simp at e
    obtain ⟨⟨_, _⟩, -, e⟩ := bind_ok_inv e
    obtain ⟨⟨_, _⟩, -, e⟩ := bind_ok_inv e
    simp only [Res.ok.injEq, Prod.mk.injEq] at e
    obtain ⟨-, rfl, rfl⟩ := e
    rfl
  rw [scaleAndRound_eq] at ho
  have hA : ((ch'.freqSamples.take out.length).map roundSample).length = min out.length (Lc3Config.new f d).nf := by
    simp [hf]
  constructor
  · intro i h1 h2
    have : out'.getD i 0 = roundSample (ch'.freqSamples.getD i zero) := by
      rw [ho, List.getD_append _ _ _ _ (by omega), List.getD_eq_getElem _ _ (by omega),
        List.getD_eq_getElem ch'.freqSamples _ (by omega)]
      simp
    rw [this]
    exact ⟨rfl, roundSample_range _⟩
  · intro i h1
    by_cases h2 : i < out.length
    · have hm : min out.length (Lc3Config.new f d).nf = (Lc3Config.new f d).nf := by omega
      rw [ho, List.getD_append_right _ _ _ _ (by omega), hA, hm, List.getD_eq_getElem _ _ (by simp [hf]; omega),
        List.getD_eq_getElem _ _ h2, List.getElem_drop]
      congr 1
      omega
    · rw [List.getD_eq_default _ _ (by omega), List.getD_eq_default _ _ (by omega)]

/-- the hypothesis of `C09` is met by every channel of every reachable decoder -/
example {f : SamplingFrequency} {d : FrameDuration} {D : Decoder α} (h : Reachable f d D) :
    ∀ ch ∈ D.channels, ChInv f d ch := (reachable_inv h).2

section
open F32

theorem rndQ_half : rndQ (1 / 2) = 1 / 2 := rndQ_rep ⟨1, -1, by norm_num, by norm_num, by norm_num⟩

theorem rnd_half : rnd (1 / 2) = .fin (1 / 2) := by
  unfold rnd; rw [rndQ_half, if_neg (by norm_num), if_neg (by norm_num)]

theorem rnd_zero : rnd 0 = .fin 0 := by
  have : rndQ 0 = 0 := rndQ_rep ⟨0, 0, by norm_num, by norm_num, by norm_num⟩
  unfold rnd; rw [this, if_neg (by norm_num), if_neg (by norm_num)]

theorem rnd_neg (q : ℚ) : rnd (-q) = F32.neg (rnd q) := by
  unfold rnd
  rw [rndQ_neg]
  by_cases h1 : 2 ^ 128 ≤ rndQ q
  · rw [if_neg (by have : (0 : ℚ) < 2 ^ 128 := by norm_num
                   linarith), if_pos (by linarith), if_pos h1]; rfl
  · by_cases h2 : rndQ q ≤ -2 ^ 128
    · rw [if_pos (by linarith), if_neg h1, if_pos h2]; rfl
    · rw [if_neg (by intro h; apply h2; linarith), if_neg (by intro h; apply h1; linarith), if_neg h1, if_neg h2]; rfl

/-- truncation of the rounded sum -/
theorem toI32_rnd {q : ℚ} (hr : Rep q) (hq : 0 ≤ q) (hne : q ≠ 1 / 2 - 1 / 2 ^ 25) :
    (F32.toI32 (rnd (q + 1 / 2)) = ⌊q + 1 / 2⌋ ∧ ⌊q + 1 / 2⌋ < 65536) ∨
      (65536 ≤ F32.toI32 (rnd (q + 1 / 2)) ∧ F32.toI32 (rnd (q + 1 / 2)) ≤ 2147483647 ∧ 65536 ≤ ⌊q + 1 / 2⌋) := by
  obtain ⟨n, hn⟩ := Int.eq_ofNat_of_zero_le (Int.floor_nonneg.2 (show 0 ≤ q + 1 / 2 by linarith))
  obtain ⟨h1, h2⟩ := Int.floor_eq_iff.1 hn
  have h1' : (n : ℚ) ≤ q + 1 / 2 := by exact_mod_cast h1
  have h2' : q + 1 / 2 < (n : ℚ) + 1 := by exact_mod_cast h2
  by_cases hb : n < 65536
  · left
    refine ⟨?_, by omega⟩
    have a1 := le_rndQ h1' (by omega) (by linarith)
    have a2 := rndQ_lt hr hq h1' h2' hb hne
    have hb' : (n : ℚ) + 1 ≤ 65536 := by exact_mod_cast hb
    have hn0 : (0 : ℚ) ≤ n := by exact_mod_cast Nat.zero_le n
    unfold rnd
    rw [if_neg (by have : (65536 : ℚ) ≤ 2 ^ 128 := by norm_num
                   linarith), if_neg (by have : (0 : ℚ) < 2 ^ 128 := by norm_num
                                         linarith)]
    simp only [F32.toI32, truncQ]
    rw [if_pos (by linarith)]
    have : ⌊rndQ (q + 1 / 2)⌋ = (n : ℤ) := by
      rw [Int.floor_eq_iff]; exact ⟨by exact_mod_cast a1, by exact_mod_cast a2⟩
    rw [this, hn]
    omega
  · right
    have h3 : ((65536 : ℕ) : ℚ) ≤ q + 1 / 2 := by
      have : ((65536 : ℕ) : ℚ) ≤ n := Nat.cast_le.2 (not_lt.1 hb)
      exact this.trans h1'
    have a1 := le_rndQ h3 le_rfl (by linarith)
    push_cast at a1
    refine ⟨?_, ?_, by omega⟩
    · unfold rnd
      split_ifs with b1 b2
      · simp [F32.toI32]
      · exfalso
        have : (0 : ℚ) < 2 ^ 128 := by norm_num
        linarith
      · simp only [F32.toI32, truncQ]
        rw [if_pos (by linarith)]
        have : 65536 ≤ ⌊rndQ (q + 1 / 2)⌋ := Int.le_floor.2 (by exact_mod_cast a1)
        omega
    · unfold rnd
      split_ifs <;> simp only [F32.toI32] <;> omega

theorem toI32_neg_rnd (q : ℚ) (h : F32.toI32 (rnd q) ≤ 2147483647) (h0 : 0 ≤ F32.toI32 (rnd q)) (hq : 0 ≤ rndQ q) :
    F32.toI32 (rnd (-q)) = -F32.toI32 (rnd q) ∨
      (2147483647 ≤ F32.toI32 (rnd q) ∧ F32.toI32 (rnd (-q)) ≤ -2147483647) := by
  rw [rnd_neg]
  unfold rnd at h h0 ⊢
  have : (0 : ℚ) < 2 ^ 128 := by norm_num
  by_cases h1 : 2 ^ 128 ≤ rndQ q
  · rw [if_pos h1]; right; simp [F32.neg, F32.toI32]
  · rw [if_neg h1, if_neg (by linarith)]
    simp only [F32.neg, F32.toI32, truncQ]
    rw [if_pos hq]
    have hf : 0 ≤ ⌊rndQ q⌋ := Int.floor_nonneg.2 hq
    by_cases hz : rndQ q = 0
    · left; rw [hz]; simp
    · rw [if_neg (by have := lt_of_le_of_ne hq (Ne.symm hz); linarith), neg_neg]
      omega

/-- **C09, rounding in `f32`** For every `f32` value the written sample is the filtered sample rounded half away from zero and
saturated, with the exception of the two values next below 1/2 in magnitude; NaN gives 0 and infinities saturate. -/
theorem C09_round_partial (el : Elem) (q : ℚ) (hr : Rep q) (h1 : q ≠ 1 / 2 - 1 / 2 ^ 25)
    (h2 : q ≠ -(1 / 2 - 1 / 2 ^ 25)) :
    @roundSample F32 (F32.scalar el) (.fin q) = clamp16 (roundHalfAway q) := by
  have hpos : @pos F32 (F32.scalar el) (.fin q) = decide (0 < q) := by
    show F32.lt (rnd 0) (.fin q) = _
    rw [rnd_zero]; rfl
  have hadd : ∀ q : ℚ, F32.add (.fin q) (rnd (1 / 2)) = rnd (q + 1 / 2) := by intro q; rw [rnd_half]; rfl
  have hsub : ∀ q : ℚ, F32.sub (.fin q) (rnd (1 / 2)) = rnd (-(-q + 1 / 2)) := by
    intro q; rw [rnd_half]; show rnd (q + -(1 / 2)) = _; congr 1; ring
  unfold roundSample
  rw [hpos]
  simp only [decide_eq_true_eq]
  change max (min (if 0 < q then F32.toI32 (F32.add (.fin q) (rnd (1 / 2)))
    else F32.toI32 (F32.sub (.fin q) (rnd (1 / 2)))) 32767) (-32768) = _
  rw [hadd, hsub]
  unfold roundHalfAway clamp16
  by_cases hq : 0 < q
  · rw [if_pos hq, if_pos hq.le]
    rcases toI32_rnd hr hq.le h1 with ⟨a, b⟩ | ⟨a, b, c⟩
    · have : 0 ≤ ⌊q + 1 / 2⌋ := Int.floor_nonneg.2 (by linarith)
      rw [a]; split_ifs <;> omega
    · split_ifs <;> omega
  · rw [if_neg hq]
    have hr' : Rep (-q) := by
      obtain ⟨m, e, rfl, hm, he⟩ := hr
      exact ⟨-m, e, by push_cast; ring, by simpa using hm, he⟩
    have h0 : 0 ≤ -q := by linarith
    have hk := toI32_rnd hr' h0 (by intro h; apply h2; linarith)
    have hfl : 0 ≤ ⌊-q + 1 / 2⌋ := Int.floor_nonneg.2 (by linarith)
    have hrn : 0 ≤ rndQ (-q + 1 / 2) := by
      have := le_rndQ (n := 0) (q := -q + 1 / 2) (by push_cast; linarith) (by omega) (by linarith)
      exact_mod_cast this
    have hneg := toI32_neg_rnd (-q + 1 / 2) (by omega) (by omega) hrn
    have hif : (if 0 ≤ q then ⌊q + 1 / 2⌋ else -⌊-q + 1 / 2⌋) = -⌊-q + 1 / 2⌋ := by
      split_ifs with hz
      · have : q = 0 := by linarith
        subst this; norm_num
      · rfl
    rw [hif]
    split_ifs <;> omega

/-- the exception is real: the largest `f32` below 1/2 is written as 1, although its nearest integer is 0 -/
theorem C09_round_fails (el : Elem) : Rep (1 / 2 - 1 / 2 ^ 25) ∧
    @roundSample F32 (F32.scalar el) (.fin (1 / 2 - 1 / 2 ^ 25)) = 1 ∧
    clamp16 (roundHalfAway (1 / 2 - 1 / 2 ^ 25)) = 0 := by
  refine ⟨⟨2 ^ 24 - 1, -25, by norm_num, by norm_num, by norm_num⟩, ?_, ?_⟩
  · have hpos : @pos F32 (F32.scalar el) (.fin (1 / 2 - 1 / 2 ^ 25)) = true := by
      show F32.lt (rnd 0) (.fin _) = _
      rw [rnd_zero]; show decide (_ < _) = true
      norm_num
    unfold roundSample
    rw [hpos]
    simp only [if_true]
    change max (min (F32.toI32 (F32.add (.fin (1 / 2 - 1 / 2 ^ 25)) (rnd (1 / 2)))) 32767) (-32768) = 1
    rw [rnd_half]
    change max (min (F32.toI32 (rnd (1 / 2 - 1 / 2 ^ 25 + 1 / 2))) 32767) (-32768) = 1
    have hlog : Int.log 2 ((1 : ℚ) - 1 / 2 ^ 25) = -1 := by
      refine le_antisymm (log_le (by norm_num) (by norm_num)) (le_log (by norm_num) (by norm_num))
    have hr : rndQ (1 / 2 - 1 / 2 ^ 25 + 1 / 2) = 1 := by
      rw [show (1 / 2 - 1 / 2 ^ 25 + 1 / 2 : ℚ) = 1 - 1 / 2 ^ 25 by ring]
      unfold rndQ ulpExp
      rw [abs_of_pos (by norm_num), hlog]
      have : roundEven ((1 - 1 / 2 ^ 25) / 2 ^ max ((-1 : ℤ) - 23) (-149)) = 2 ^ 24 := by
        unfold roundEven
        have hf : ⌊((1 - 1 / 2 ^ 25) / 2 ^ max ((-1 : ℤ) - 23) (-149) : ℚ)⌋ = 2 ^ 24 - 1 := by
          rw [Int.floor_eq_iff]; norm_num
        simp only
        rw [hf]; norm_num
      rw [this]; norm_num
    unfold rnd
    rw [hr, if_neg (by norm_num), if_neg (by norm_num)]
    simp [F32.toI32, truncQ]
  · have : ⌊(1 / 2 - 1 / 2 ^ 25 + 1 / 2 : ℚ)⌋ = 0 := by rw [Int.floor_eq_iff]; norm_num
    have h : roundHalfAway (1 / 2 - 1 / 2 ^ 25) = 0 := by
      unfold roundHalfAway
      rw [if_pos (by norm_num), this]
    rw [h]; rfl

/-- **C09** NaN and infinities -/
theorem C09_special (el : Elem) : @roundSample F32 (F32.scalar el) .nan = 0 ∧
    @roundSample F32 (F32.scalar el) (.inf false) = 32767 ∧ @roundSample F32 (F32.scalar el) (.inf true) = -32768 := by
  refine ⟨?_, ?_, ?_⟩
  · unfold roundSample
    change max (min (if F32.lt (rnd 0) .nan then _ else F32.toI32 .nan) 32767) (-32768) = _
    rw [rnd_zero]; rfl
  · unfold roundSample
    change max (min (if F32.lt (rnd 0) (.inf false) then F32.toI32 (F32.add (.inf false) (rnd (1 / 2))) else _) 32767)
      (-32768) = _
    rw [rnd_zero, rnd_half]; rfl
  · unfold roundSample
    change max (min (if F32.lt (rnd 0) (.inf true) then _ else F32.toI32 (F32.sub (.inf true) (rnd (1 / 2)))) 32767)
      (-32768) = _
    rw [rnd_zero, rnd_half]; rfl

/-- `roundHalfAway` is a nearest integer and the one farther from zero on a tie -/
theorem roundHalfAway_nearest (q : ℚ) : |q - roundHalfAway q| ≤ 1 / 2 ∧
    (|q - roundHalfAway q| = 1 / 2 → |q| < |(roundHalfAway q : ℚ)|) := by
  unfold roundHalfAway
  split_ifs with h
  · have h1 := Int.floor_le (q + 1 / 2)
    have h2 := Int.lt_floor_add_one (q + 1 / 2)
    have h3 : (0 : ℚ) ≤ ⌊q + 1 / 2⌋ := by exact_mod_cast Int.floor_nonneg.2 (show 0 ≤ q + 1 / 2 by linarith)
    refine ⟨by rw [abs_le]; constructor <;> linarith, ?_⟩
    intro he
    rw [abs_of_nonneg h, abs_of_nonneg h3]
    rcases abs_cases (q - (⌊q + 1 / 2⌋ : ℚ)) with ⟨a, b⟩ | ⟨a, b⟩ <;> linarith
  · have h1 := Int.floor_le (-q + 1 / 2)
    have h2 := Int.lt_floor_add_one (-q + 1 / 2)
    have h3 : (0 : ℚ) ≤ ⌊-q + 1 / 2⌋ := by exact_mod_cast Int.floor_nonneg.2 (show 0 ≤ -q + 1 / 2 by linarith)
    push_cast
    refine ⟨by rw [abs_le]; constructor <;> linarith, ?_⟩
    intro he
    rw [abs_neg, abs_of_neg (not_le.1 h), abs_of_nonneg h3]
    rcases abs_cases (q - -(⌊-q + 1 / 2⌋ : ℚ)) with ⟨a, b⟩ | ⟨a, b⟩ <;> linarith

/-- a value met by `C09_round_partial`: -2.5 is rounded to -3 -/
example : Rep (-5 / 2) ∧ clamp16 (roundHalfAway (-5 / 2)) = -3 := by
  refine ⟨⟨-5, -1, by norm_num, by norm_num, by norm_num⟩, ?_⟩
  have : ⌊(-(-5 / 2) + 1 / 2 : ℚ)⌋ = 3 := by rw [Int.floor_eq_iff]; norm_num
  unfold roundHalfAway
  rw [if_neg (by norm_num), this]; rfl

end

end Lc3
