import Verif.Props.Concealment
import Verif.Props.PostFilter
/-!
# C131: a lost frame switches the post filter off
-/

namespace Lc3
open Spec Scalar

variable {α : Type} [Scalar α]

theorem ltpfRun_activePrev {cfg : Lc3Config} {s s' : Ltpf α} {info : LtpfInfo} {nbits : Nat} {x o : List α}
    (e : ltpfRun cfg s info nbits x = .ok (s', o)) : s'.activePrev = info.isActive := by
  unfold ltpfRun at e
  obtain ⟨⟨p, q⟩, -, e⟩ := bind_ok_inv e
  obtain ⟨⟨cn, cd⟩, -, e⟩ := bind_ok_inv e
  simp only at e
  split at e
  · cases e
  · obtain ⟨ym, -, e⟩ := bind_ok_inv e
    split at e
    · cases e
    · simp only [Res.ok.injEq, Prod.mk.injEq] at e
      rw [← e.1]

/-- the filter is transparent between two frames that do not use it -/
theorem ltpfRun_transparent {f : SamplingFrequency} {d : FrameDuration} {s s' : Ltpf α} (hi : LtpfInv f d s)
    (ha : s.activePrev = false) {info : LtpfInfo} (hp : info.pitchIndex < 512) (hoff : info.isActive = false)
    {nbits : Nat} {x o : List α} (hx : x.length = (Lc3Config.new f d).nf)
    (e : ltpfRun (Lc3Config.new f d) s info nbits x = .ok (s', o)) : o = x := by
  have hrel := hi.rel
  obtain ⟨s'', out, y', e', -, -, hout, -, hex⟩ := ltpfRun_ok hrel hp nbits hx
  rw [e] at e'
  simp only [Res.ok.injEq, Prod.mk.injEq] at e'
  obtain ⟨rfl, rfl⟩ := e'
  have hy' := hex (by
    intro h
    have : s.activePrev = true := h
    rw [ha] at this
    exact absurd this (by simp))
  rw [hout]
  apply List.ext_getElem
  · rw [List.length_map, List.length_range, hx]
  · intro n h1 h2
    rw [List.getElem_map, List.getElem_range, hy']
    rw [List.length_map, List.length_range] at h1
    rw [frameOut_off_off _ _ ha (by rw [settingOf_active, hoff]) _ _ _ h1]
    unfold appendFrame
    rw [if_neg (by omega)]
    simp [h2]

theorem decodeChannel_lostOff {f : SamplingFrequency} {d : FrameDuration} {ch ch' : DecChannel α} (hi : ChInv f d ch)
    {checks : Bool} {buf : List Nat} {out out' : List Int} {r : DecResult}
    (hb : readFrame checks (Lc3Config.new f d) buf = .err)
    (e : decodeChannel checks (Lc3Config.new f d) ch 16 buf out = .ok (r, ch', out')) :
    ch'.ltpf.activePrev = false ∧ (ch.ltpf.activePrev = false →
      mdctDecRun (Lc3Config.new f d) ch.memOla ch'.specLines = .ok (ch'.memOla, ch'.freqSamples)) := by
  unfold decodeChannel decodeSpectrum at e
  rw [if_neg (by simp), hb] at e
  simp only [Res.bind_ok] at e
  rw [if_neg (by simp [hi.freq])] at e
  obtain ⟨⟨ola, freq⟩, h1, e⟩ := bind_ok_inv e
  have hl : (ch.plc.loadInto ch.specLines).2.length = (Lc3Config.new f d).ne := by
    simp [Plc.loadInto, plcLoop_length, hi.spec]
  have h7 := ((safe_mdctDecRun hl hi.ola).of_ok h1).2
  obtain ⟨⟨s', o⟩, h2, e⟩ := bind_ok_inv e
  simp only [Res.ok.injEq, Prod.mk.injEq] at e
  obtain ⟨-, rfl, -⟩ := e
  refine ⟨ltpfRun_activePrev h2, fun ha => ?_⟩
  have := ltpfRun_transparent hi.ltpf ha (by decide) rfl h7 h2
  subst this
  exact h1

theorem Spec.History.lost_off {f : SamplingFrequency} {d : FrameDuration} {ch0 ch : DecChannel α} (h0 : ChInv f d ch0)
    {h : List (Option (List α))} (H : History f d ch0 ch h) :
    ChInv f d ch ∧ (h.head? = some none → ch.ltpf.activePrev = false) := by
  induction H with
  | start => exact ⟨h0, by simp⟩
  | good _ _ e ih => exact ⟨(decodeChannel_inv ih.1 e).1, by simp⟩
  | lost _ hb e ih => exact ⟨(decodeChannel_inv ih.1 e).1, fun _ => (decodeChannel_lostOff ih.1 hb e).1⟩
  | refused _ hb e ih =>
    unfold decodeChannel at e
    rw [if_pos hb] at e
    simp only [Res.ok.injEq, Prod.mk.injEq] at e
    obtain ⟨-, rfl, -⟩ := e
    exact ih

/-- **C131.** In every stream a lost frame leaves the post filter switched off, and when the frame before was lost too,
the samples of a lost frame are exactly those of the inverse transform of the concealed spectrum: the post filter
changes none of them. -/
theorem C131 {f : SamplingFrequency} {d : FrameDuration} {D : Decoder α} (hD : Reachable f d D) {ch0 : DecChannel α}
    (h0 : ch0 ∈ D.channels) {ch ch' : DecChannel α} {h : List (Option (List α))} (H : History f d ch0 ch h)
    {checks : Bool} {buf : List Nat} {out out' : List Int} {r : DecResult}
    (hb : readFrame checks (Lc3Config.new f d) buf = .err)
    (e : decodeChannel checks (Lc3Config.new f d) ch 16 buf out = .ok (r, ch', out')) :
    ch'.ltpf.activePrev = false ∧ (h.head? = some none →
      mdctDecRun (Lc3Config.new f d) ch.memOla ch'.specLines = .ok (ch'.memOla, ch'.freqSamples)) := by
  obtain ⟨hi, ha⟩ := H.lost_off ((reachable_inv hD).2 ch0 h0)
  obtain ⟨p, q⟩ := decodeChannel_lostOff hi hb e
  exact ⟨p, fun hh => q (ha hh)⟩

/-- two lost frames in a row exist -/
example : ∃ (D : Decoder α) (ch0 ch ch' : DecChannel α) (out' : List Int), Reachable .hz16000 .tenMs D ∧
    ch0 ∈ D.channels ∧ History .hz16000 .tenMs ch0 ch [none] ∧
    readFrame true (Lc3Config.new .hz16000 .tenMs) [] = .err ∧
    decodeChannel true (Lc3Config.new .hz16000 .tenMs) ch 16 [] [0, 0] = .ok (.ok, ch', out') := by
  obtain ⟨D, e, hl⟩ := (C11 1 .hz16000 .tenMs (List.replicate (decoderLens 1 .tenMs .hz16000).1 (zero : α))
    (List.replicate (decoderLens 1 .tenMs .hz16000).2 ⟨zero, zero⟩)).1 (by simp)
  have hi := (reachable_inv (Reachable.new e)).2
  have h0 := List.getElem_mem (l := D.channels) (n := 0) (by omega)
  have hr : readFrame true (Lc3Config.new .hz16000 .tenMs) [] = .err := by decide +kernel
  obtain ⟨ch, o1, e1⟩ := decodeChannel_err (hi _ h0) hr [0, 0]
  obtain ⟨ch', o2, e2⟩ := decodeChannel_err (decodeChannel_inv (hi _ h0) e1).1 hr [0, 0]
  exact ⟨D, D.channels[0], ch, ch', o2, Reachable.new e, h0, .lost .start hr e1, hr, e2⟩

/-- a frame after a lost one that carries no active post filter is not filtered either -/
theorem C131_good {f : SamplingFrequency} {d : FrameDuration} {D : Decoder α} (hD : Reachable f d D)
    {ch0 : DecChannel α} (h0 : ch0 ∈ D.channels) {ch ch' : DecChannel α} {h : List (Option (List α))}
    (H : History f d ch0 ch (none :: h)) {checks : Bool} {buf : List Nat} {out out' : List Int} {r : DecResult}
    {p : SideInfo × ArithmeticData × List Int} (hb : readFrame checks (Lc3Config.new f d) buf = .ok p)
    (hoff : p.1.ltpf.isActive = false)
    (e : decodeChannel checks (Lc3Config.new f d) ch 16 buf out = .ok (r, ch', out')) :
    mdctDecRun (Lc3Config.new f d) ch.memOla ch'.specLines = .ok (ch'.memOla, ch'.freqSamples) := by
  obtain ⟨hi, ha⟩ := H.lost_off ((reachable_inv hD).2 ch0 h0)
  unfold decodeChannel at e
  rw [if_neg (by simp)] at e
  obtain ⟨⟨lines, plc, info⟩, h1, e⟩ := bind_ok_inv e
  have hinfo : info = p.1.ltpf := by
    unfold decodeSpectrum at h1
    rw [hb] at h1
    obtain ⟨l, -, h1⟩ := bind_ok_inv h1
    obtain ⟨q, -, h1⟩ := bind_ok_inv h1
    simp only [Res.ok.injEq, Prod.mk.injEq] at h1
    exact h1.2.2.symm
  have h1' : decodeSpectrum false (Lc3Config.new f d) ch buf = .ok (lines, plc, info) := by
    cases checks with
    | false => exact h1
    | true =>
      rcases decodeSpectrum_checks (Lc3Config.new f d) ch buf with h | h
      · rw [h] at h1; simp at h1
      · rw [← h]; exact h1
  obtain ⟨hl, -, -, -, hp⟩ := (safe_decodeSpectrum hi (readFrame_long hb)).of_ok h1'
  simp only at e hl hp
  rw [if_neg (by simp [hi.freq])] at e
  obtain ⟨⟨ola, freq⟩, h2, e⟩ := bind_ok_inv e
  have h7 := ((safe_mdctDecRun hl hi.ola).of_ok h2).2
  obtain ⟨⟨s', o⟩, h3, e⟩ := bind_ok_inv e
  simp only [Res.ok.injEq, Prod.mk.injEq] at e
  obtain ⟨-, rfl, -⟩ := e
  have := ltpfRun_transparent hi.ltpf (ha rfl) hp (by rw [hinfo, hoff]) h7 h3
  subst this
  exact h2

/-- a frame without an active post filter that the parser accepts -/
example : ∃ p, readFrame true (Lc3Config.new .hz16000 .tenMs) (List.replicate 20 9) = .ok p ∧
    p.1.ltpf.isActive = false := by
  have h : (match readFrame true (Lc3Config.new .hz16000 .tenMs) (List.replicate 20 9) with
    | .ok p => !p.1.ltpf.isActive
    | _ => false) = true := by decide +kernel
  split at h
  · rename_i p e; exact ⟨p, e, by simpa using h⟩
  · simp at h

end Lc3
