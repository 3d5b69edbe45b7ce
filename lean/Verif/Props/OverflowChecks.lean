import Verif.Lemmas.SeedBound
import Verif.Props.DecoderSafety
/-!
# C57: frames of standard length in a build with overflow checks

The noise filling seed is a sum `Σ |x_k| * k` in `i32` arithmetic. With overflow checks the decoder panics when it
exceeds `i32::MAX`, and there are frames for which it does (`C06_checks_fails`, a frame of 900 bytes). The standard
allows frames of at most 400 bytes. Such a frame has too few bits for the magnitudes that would be needed.
-/

namespace Lc3
open Spec Scalar Tables

theorem bind_congr_ok {β γ : Type} {x : Res β} {k l : β → Res γ} (h : ∀ a, x = .ok a → k a = l a) :
    (x >>= k) = (x >>= l) := by
  cases x with
  | ok a => exact h a rfl
  | err => rfl
  | panic => rfl

theorem arithDecode_checks_eq {buf : List Nat} {cfg : Lc3Config} {si : SideInfo} (hne : cfg.ne ≤ 400)
    (hfs : cfg.fsInd ≤ 4) (hs : SideBounds cfg si) (hlen : buf.length ≤ 400) {r : Reader} (ht : 8 ≤ r.tail) :
    arithDecode true buf r cfg.fsInd cfg.ne si cfg.nMs = arithDecode false buf r cfg.fsInd cfg.ne si cfg.nMs := by
  unfold arithDecode
  apply bind_congr_ok
  rintro ⟨st, r1⟩ h1
  apply bind_congr_ok
  rintro ⟨⟨ti, tor⟩, st2, r2⟩ h2
  apply bind_congr_ok
  rintro ⟨⟨x, sl⟩, st3, r3⟩ h3
  apply bind_congr_ok
  rintro ⟨⟨bits, x'⟩, r4⟩ h4
  have hsm := seed_small hne hfs hs hlen ht h1 h2 h3 h4
  have hle := seedSum_take_le x' cfg.ne 0
  have e : noiseFillingSeed true (x'.take cfg.ne) = noiseFillingSeed false (x'.take cfg.ne) := by
    unfold noiseFillingSeed
    simp only [Bool.true_and, Bool.false_and, decide_eq_true_eq, Bool.false_eq_true, if_false]
    rw [if_neg (by omega)]
  simp only
  rw [e]

theorem readFrame_checks_eq (f : SamplingFrequency) (d : FrameDuration) {buf : List Nat} (hlen : buf.length ≤ 400) :
    readFrame true (Lc3Config.new f d) buf = readFrame false (Lc3Config.new f d) buf := by
  by_cases hs : buf.length ∈ shortLens f d
  · -- the side information of such a frame is never accepted
    have h : ∀ checks p, readFrame checks (Lc3Config.new f d) buf ≠ .ok p := fun checks p e => readFrame_long e hs
    unfold readFrame at h ⊢
    apply bind_congr_ok
    rintro ⟨si, r⟩ h1
    have key := fun nb L hfs hnb hL hL1 hL2 =>
      readSideInfo_long (cfg := Lc3Config.new f d) (nb := nb) (L := L) hfs hnb hL hL1 hL2 h1
    have hk : ((NBITS_BW_TABLE.getD (Lc3Config.new f d).fsInd 0 + clog2 ((Lc3Config.new f d).ne / 2) + 49) / 8 + 1)
        ≤ buf.length :=
      key _ _ (by cases f <;> cases d <;> decide) rfl rfl (by cases f <;> cases d <;> decide)
        (by cases f <;> cases d <;> decide)
    have hsl : ∀ n ∈ shortLens f d, n < (NBITS_BW_TABLE.getD (Lc3Config.new f d).fsInd 0 +
        clog2 ((Lc3Config.new f d).ne / 2) + 49) / 8 + 1 := by
      cases f <;> cases d <;> decide
    exact absurd hk (Nat.not_le_of_lt (hsl _ hs))
  · have hside := safe_readSideInfo_config f d buf hs
    have hne : (Lc3Config.new f d).ne ≤ 400 := by cases f <;> cases d <;> decide
    have hfs : (Lc3Config.new f d).fsInd ≤ 4 := by cases f <;> cases d <;> decide
    unfold readFrame
    apply bind_congr_ok
    rintro ⟨si, r⟩ h1
    obtain ⟨h2, -, h3⟩ := hside.of_ok h1
    simp only at h2 h3 ⊢
    rw [arithDecode_checks_eq hne hfs h2 hlen (by omega)]

variable {α : Type} [Scalar α]

/-- **C57** For every frame of at most 400 bytes (the longest frame of the standard) a build with overflow checks does
exactly what a build without them does: same result, same samples, same decoder state. -/
theorem C57 {f : SamplingFrequency} {d : FrameDuration} {D : Decoder α} (hD : Reachable f d D) (bits ch : Nat)
    {buf : List Nat} (hlen : buf.length ≤ 400) (out : List Int) :
    decodeFrame true D bits ch buf out = decodeFrame false D bits ch buf out := by
  unfold decodeFrame
  cases hch : D.channels[ch]? with
  | none => rfl
  | some c =>
    simp only
    rw [(reachable_inv hD).1]
    have e : decodeChannel true (Lc3Config.new f d) c bits buf out = decodeChannel false (Lc3Config.new f d) c bits buf out := by
      unfold decodeChannel
      split
      · rfl
      · unfold decodeSpectrum
        rw [readFrame_checks_eq f d hlen]
    rw [e]

/-- Every frame of a length that the standard allows (20 to 400 bytes) is decoded without a panic, with and without
overflow checks: whatever its bytes are, the call returns. -/
theorem C57_returns {f : SamplingFrequency} {d : FrameDuration} {D : Decoder α} (hD : Reachable f d D) (checks : Bool)
    {bits ch : Nat} (hch : ch < D.channels.length) {buf : List Nat} (h1 : 20 ≤ buf.length) (h2 : buf.length ≤ 400)
    (out : List Int) : ∃ r D' out', decodeFrame checks D bits ch buf out = .ok (r, D', out') := by
  have hl : buf.length ∉ panicLengths f d := by
    intro hm
    have : ∀ n ∈ panicLengths f d, n < 20 := by cases f <;> cases d <;> decide
    have := this _ hm
    omega
  cases checks with
  | false => exact C06_partial hD hch hl out
  | true => rw [C57 hD bits ch h2 out]; exact C06_partial hD hch hl out

/-- the hypotheses can be met: a reachable decoder at 48 kHz, 10 ms and a frame of 400 bytes -/
example : ∃ (D : Decoder α) (buf : List Nat), Reachable .hz48000 .tenMs D ∧ 0 < D.channels.length ∧
    20 ≤ buf.length ∧ buf.length ≤ 400 := by
  obtain ⟨D, h, hl⟩ := exists_reachable (α := α) .hz48000 .tenMs 1
  exact ⟨D, List.replicate 400 255, h, by omega, by rw [List.length_replicate]; omega,
    by rw [List.length_replicate]⟩

/-- the bound on the length cannot be dropped: at 900 bytes the two builds differ -/
theorem C57_bound_needed : ∃ buf, buf.length = 900 ∧ ∀ (D : Decoder α) (out : List Int),
    Reachable .hz48000 .tenMs D → 0 < D.channels.length →
    decodeFrame true D 16 0 buf out ≠ decodeFrame false D 16 0 buf out := by
  obtain ⟨buf, h1, -, h3⟩ := C06_checks_fails (α := α)
  refine ⟨buf, h1, fun D out hD hch e => ?_⟩
  rw [h3 D 0 out hD] at e
  obtain ⟨r, D', out', e'⟩ := C06_partial hD (bits := 16) (ch := 0) hch (buf := buf) (by rw [h1]; simp [panicLengths]) out
  rw [e'] at e
  cases e

end Lc3
