import Verif.Model.EncLtpf
import Verif.Model.LtpfDec
import Verif.Lemmas.EncLtpf
import Verif.Lemmas.F32Eval
import Verif.Props.SnsPulses
import Verif.Spec.PitchLag
/-!
# C20 and C41: the pitch analysis of the encoder and its pitch index
-/

namespace Lc3
open Scalar Tables

/-! ## C41: every access is in range -/

/-- what holds between frames: the buffers have the lengths of the configuration and the last lag is one the search can give -/
structure EncLtpf.Inv {α : Type} (cfg : Lc3Config) (s : EncLtpf α) : Prop where
  xs : s.xs.length = xsExtLen cfg
  xt : s.xt.length = xtExtLen cfg
  x6 : s.x6.length = x6ExtLen
  lo : 17 ≤ s.tPrev
  hi : s.tPrev ≤ 114

/-- what the bit stream can carry: 9 bits of pitch index if a pitch is present (11 bits in all), one bit otherwise -/
def EncLtpfResult.Fits (r : EncLtpfResult) : Prop :=
  r.pitchIndex < 2 ^ 9 ∧ r.nbitsLtpf = (if r.pitchPresent then 1 + 1 + 9 else 1) ∧ (r.pitchPresent = false → r.pitchIndex = 0)

/-- an index computed from a lag the search can give is below 512 -/
theorem pitchIndexOf_lt {p : Nat} {fr : Int} (h1 : 32 ≤ p) (h2 : p ≤ 228) (h3 : 0 ≤ fr) (h4 : fr ≤ 3) :
    pitchIndexOf p fr < 512 := by
  have ht : Int.tdiv fr 2 = fr / 2 := Int.tdiv_eq_ediv_of_nonneg h3
  unfold pitchIndexOf
  rw [ht]
  split
  · rw [i32AsUsize_of_nonneg (by omega) (by omega)]; omega
  · split
    · rw [i32AsUsize_of_nonneg (by omega) (by omega)]; omega
    · omega

variable {α : Type} [Scalar α]

/-- C41: whatever the samples, the arithmetic and the outcome of the comparisons, `run` succeeds in every configuration, keeps the
invariant, and its result fits the bit stream. -/
theorem C41_run (f : SamplingFrequency) (d : FrameDuration) (s : EncLtpf α) (hs : s.Inv (Lc3Config.new f d)) (x : List Int)
    (hx : x.length = (Lc3Config.new f d).nf) (nn : Bool) (nbits : Nat) :
    ∃ s' r, s.run (Lc3Config.new f d) x nn nbits = .ok (s', r) ∧ EncLtpf.Inv (Lc3Config.new f d) s' ∧ r.Fits := by
  obtain ⟨hxs, hxt, hx6, hlo, hhi⟩ := hs
  have hcfg : 240 / upFactorOf (Lc3Config.new f d).fs + (Lc3Config.new f d).nf = xsExtLen (Lc3Config.new f d) := by
    cases f <;> cases d <;> decide
  have hlen : len12p8Of (Lc3Config.new f d).nMs ≤ xtExtLen (Lc3Config.new f d) ∧
      len6p4Of (Lc3Config.new f d).nMs ≤ x6ExtLen ∧
      delayLtpfOf (Lc3Config.new f d).nMs + NMEM_12P8D + len12p8Of (Lc3Config.new f d).nMs = xtExtLen (Lc3Config.new f d) ∧
      NMEM_12P8D + len12p8Of (Lc3Config.new f d).nMs ≤ xtExtLen (Lc3Config.new f d) ∧
      (Lc3Config.new f d).nMs = d := by cases f <;> cases d <;> decide
  obtain ⟨l1, l2, l3, l4, ld⟩ := hlen
  unfold EncLtpf.run
  rw [if_neg (by omega)]
  unfold ltpfShift
  dsimp only
  rw [usub_of_le (by omega)]; simp only [Res.bind_ok]
  obtain ⟨a, ha, hal⟩ := shiftDown_ok (l := s.xs) (a := s.xs.length - 240 / upFactorOf (Lc3Config.new f d).fs) (Nat.sub_le _ _)
  obtain ⟨b, hb, hbl⟩ := shiftDown_ok (l := s.xt) (a := len12p8Of (Lc3Config.new f d).nMs) (by omega)
  obtain ⟨c, hc, hcl⟩ := shiftDown_ok (l := s.x6) (a := len6p4Of (Lc3Config.new f d).nMs) (by omega)
  rw [ha]; simp only [Res.bind_ok]
  rw [if_pos ⟨by omega, by omega⟩, hb, hc]; simp only [Res.bind_ok]
  rw [sliceR_ok (by omega) (by omega)]; simp only [Res.bind_ok]
  have hax : (a.take (240 / upFactorOf (Lc3Config.new f d).fs) ++ x).length = xsExtLen (Lc3Config.new f d) := by
    rw [List.length_append, List.length_take]; omega
  obtain ⟨y, hy, hyl⟩ := resampleAll_ok (α := α) f d _ hax (len12p8Of d) 0 (by omega)
  rw [show len12p8Of (Lc3Config.new f d).nMs = len12p8Of d by rw [ld]] at *
  rw [hy]; simp only [Res.bind_ok]
  have hz := highPass50_length y s.h1 s.h2
  generalize highPass50 y s.h1 s.h2 = z at hz
  obtain ⟨z, z1, z2⟩ := z
  dsimp only at hz ⊢
  have hxt' : (b.take (delayLtpfOf (Lc3Config.new f d).nMs + NMEM_12P8D) ++ z ++
      b.drop (delayLtpfOf (Lc3Config.new f d).nMs + NMEM_12P8D + len12p8Of d)).length = xtExtLen (Lc3Config.new f d) := by
    rw [List.length_append, List.length_append, List.length_take, List.length_drop]; omega
  generalize b.take (delayLtpfOf (Lc3Config.new f d).nMs + NMEM_12P8D) ++ z ++
      b.drop (delayLtpfOf (Lc3Config.new f d).nMs + NMEM_12P8D + len12p8Of d) = xt' at hxt'
  obtain ⟨t, pr, y6, hpd, t1, t2, hy6⟩ := pitchDetection_ok (Lc3Config.new f d) s.tPrev xt' c hlo hhi (by omega) (by omega)
  rw [hpd]; simp only [Res.bind_ok]
  obtain ⟨p, fr, hpl, p1, p2, f1, f2, -, -⟩ := pitchLagParameter_ok (Lc3Config.new f d) xt' t t1 t2 (by rw [ld]; omega)
  rw [hpl]; simp only [Res.bind_ok]
  obtain ⟨⟨ac, nc, pi⟩, hac⟩ := activationBit_ok (Lc3Config.new f d)
    ({ tPrev := s.tPrev, memPitch := s.memPitch, memActive := s.memActive, memNc := s.memNc, memMemNc := s.memMemNc,
       xs := a.take (240 / upFactorOf (Lc3Config.new f d).fs) ++ x, xt := xt', x6 := y6, h1 := z1, h2 := z2 } : EncLtpf α)
    p fr nn (decide (ltpfTNbits (Lc3Config.new f d).nMs nbits < 560 + (Lc3Config.new f d).fsInd * 80)) p2 hxt'
  rw [hac]; simp only [Res.bind_ok]
  refine ⟨_, _, rfl, ⟨hax, hxt', hy6, t1, t2⟩, ?_, rfl, ?_⟩
  · have := pitchIndexOf_lt p1 p2 f1 f2
    dsimp only
    split <;> omega
  · intro h
    dsimp only at h ⊢
    rw [h]; rfl

/-- C41: `new` succeeds exactly if the buffers are long enough, and gives a state with the invariant. -/
theorem C41_new (cfg : Lc3Config) (sb : List α) (ib : List Int) :
    (xsExtLen cfg ≤ ib.length ∧ xtExtLen cfg + x6ExtLen ≤ sb.length →
      ∃ s, EncLtpf.new cfg sb ib = .ok (s, sb.drop (encLtpfBufLens cfg).2, ib.drop (encLtpfBufLens cfg).1) ∧ s.Inv cfg) ∧
    (¬ (xsExtLen cfg ≤ ib.length ∧ xtExtLen cfg + x6ExtLen ≤ sb.length) → EncLtpf.new cfg sb ib = .panic) := by
  unfold EncLtpf.new splitAt encLtpfBufLens
  constructor
  · rintro ⟨h1, h2⟩
    rw [if_pos h1]; simp only [Res.bind_ok]
    rw [if_pos (by omega)]; simp only [Res.bind_ok]
    rw [if_pos (by rw [List.length_drop]; omega)]; simp only [Res.bind_ok]
    refine ⟨_, by rw [List.drop_drop], ?_⟩
    refine ⟨?_, ?_, ?_, by show 17 ≤ K_MIN; decide, by show K_MIN ≤ 114; decide⟩
    · show (List.take _ _).length = _; rw [List.length_take]; omega
    · show (List.take _ _).length = _; rw [List.length_take]; omega
    · show (List.take _ _).length = _; rw [List.length_take, List.length_drop]; omega
  · intro h
    by_cases h1 : xsExtLen cfg ≤ ib.length
    · rw [if_pos h1]; simp only [Res.bind_ok]
      by_cases h2 : xtExtLen cfg ≤ sb.length
      · rw [if_pos h2]; simp only [Res.bind_ok]
        rw [if_neg (by rw [List.length_drop]; omega)]; rfl
      · rw [if_neg h2]; rfl
    · rw [if_neg h1]; rfl

/-- run the filter over a sequence of frames: samples, near Nyquist flag, number of bits -/
def EncLtpf.runAll (cfg : Lc3Config) (s : EncLtpf α) : List (List Int × Bool × Nat) → Res (EncLtpf α × List EncLtpfResult)
  | [] => .ok (s, [])
  | (x, nn, nbits) :: fs => do
    let (s, r) ← s.run cfg x nn nbits
    let (s, rs) ← s.runAll cfg fs
    .ok (s, r :: rs)

/-- C41 for all histories: a fresh filter can process every sequence of frames of the right length. -/
theorem C41_history (f : SamplingFrequency) (d : FrameDuration) (sb : List α) (ib : List Int)
    (hi : (encLtpfBufLens (Lc3Config.new f d)).1 ≤ ib.length) (hb : (encLtpfBufLens (Lc3Config.new f d)).2 ≤ sb.length)
    (fs : List (List Int × Bool × Nat)) (hfs : ∀ x ∈ fs, x.1.length = (Lc3Config.new f d).nf) :
    ∃ s sb' ib' s' rs, EncLtpf.new (Lc3Config.new f d) sb ib = .ok (s, sb', ib') ∧
      s.runAll (Lc3Config.new f d) fs = .ok (s', rs) ∧ rs.length = fs.length ∧ ∀ r ∈ rs, r.Fits := by
  obtain ⟨s, hs, hv⟩ := (C41_new (Lc3Config.new f d) sb ib).1 ⟨hi, hb⟩
  have : ∀ (fs : List (List Int × Bool × Nat)) (s : EncLtpf α), s.Inv (Lc3Config.new f d) →
      (∀ x ∈ fs, x.1.length = (Lc3Config.new f d).nf) →
      ∃ s' rs, s.runAll (Lc3Config.new f d) fs = .ok (s', rs) ∧ rs.length = fs.length ∧ ∀ r ∈ rs, r.Fits := by
    intro fs
    induction fs with
    | nil => intro s _ _; exact ⟨s, [], rfl, rfl, by simp⟩
    | cons x fs ih =>
      intro s hv h
      obtain ⟨x, nn, nbits⟩ := x
      obtain ⟨s1, r, h1, hv1, hr⟩ := C41_run f d s hv x (h (x, nn, nbits) (by simp)) nn nbits
      obtain ⟨s2, rs, h2, hl, hrs⟩ := ih s1 hv1 (fun y hy => h y (by simp [hy]))
      refine ⟨s2, r :: rs, ?_, by simp [hl], ?_⟩
      · simp only [EncLtpf.runAll]; rw [h1]; simp only [Res.bind_ok]; rw [h2]; rfl
      · intro q hq
        rcases List.mem_cons.1 hq with rfl | hq
        · exact hr
        · exact hrs q hq
  obtain ⟨s', rs, h2, h3, h4⟩ := this fs s hv hfs
  exact ⟨s, _, _, s', rs, hs, h2, h3, h4⟩

/-- The hypotheses of `C41_history` can be met: buffers of the lengths `calc_working_buffer_length` gives at 48 kHz. -/
example : encLtpfBufLens (Lc3Config.new .hz48000 .tenMs) = (540, 562) := by decide

/-- One sample less in the integer buffer and `new` panics. -/
example (sb : List α) : EncLtpf.new (Lc3Config.new .hz48000 .tenMs) sb (List.replicate 539 0) = .panic :=
  (C41_new _ sb _).2 (by rintro ⟨h, -⟩; rw [List.length_replicate] at h; exact absurd h (by decide))

/-! ## C20: the pitch index -/

theorem ok_pair {β γ : Type} {a b : β} {c d : γ} (h : a = b) (h2 : c = d) : Res.ok (a, c) = Res.ok (b, d) := by
  rw [h, h2]

/-- C20, decoder: for all 512 indices the decoder reads the lag of the code. -/
theorem C20_decoder (i : Nat) (h : i < 512) : ∃ p fr, pitchLagDec i = .ok (p, fr) ∧ 4 * p + fr = Spec.quarterLag i ∧ fr < 4 := by
  unfold pitchLagDec Spec.quarterLag
  by_cases h1 : i ≥ 440
  · rw [if_pos h1, if_neg (by omega), if_neg (by omega), usub_of_le (by omega)]
    exact ⟨_, _, rfl, by omega, by omega⟩
  · rw [if_neg h1]
    by_cases h2 : i ≥ 380
    · rw [if_pos h2, if_neg (by omega), if_pos (by omega), usub_of_le (by omega)]; simp only [Res.bind_ok]
      rw [usub_of_le (by omega)]; simp only [Res.bind_ok]
      rw [usub_of_le (by omega)]; simp only [Res.bind_ok]
      exact ⟨_, _, rfl, by omega, by omega⟩
    · rw [if_neg h2, if_pos (by omega)]
      dsimp only
      rw [usub_of_le (by omega)]; simp only [Res.bind_ok]
      exact ⟨_, _, rfl, by omega, by omega⟩

example : Spec.quarterLag 379 = 4 * 126 + 3 ∧ Spec.quarterLag 380 = 4 * 127 ∧ Spec.quarterLag 511 = 4 * 228 := by decide

/-- C20: the statement. The decoder finds the lag the encoder has determined. -/
def C20_statement (α : Type) [Scalar α] : Prop :=
  ∀ (cfg : Lc3Config) (xt : List α) (t index p : Nat) (fr : Int), 17 ≤ t → t ≤ 114 → xt.length = xtExtLen cfg →
    pitchLagParameter cfg xt t = .ok (index, p, fr) → pitchLagDec index = .ok (p, fr.toNat)

theorem C20_lag (cfg : Lc3Config) (xt : List α) (t index p : Nat) (fr : Int) (h1 : 17 ≤ t) (h2 : t ≤ 114)
    (hx : xt.length = xtExtLen cfg) (h : pitchLagParameter cfg xt t = .ok (index, p, fr)) :
    index = pitchIndexOf p fr ∧ 32 ≤ p ∧ p ≤ 228 ∧ 0 ≤ fr ∧ fr ≤ 3 ∧ (127 ≤ p → fr = 0 ∨ fr = 2) ∧ (157 ≤ p → fr = 0) := by
  obtain ⟨p', fr', h', r⟩ := pitchLagParameter_ok cfg xt t h1 h2 (by rw [hx]; unfold xtExtLen; omega)
  rw [h'] at h
  injection h with h
  injection h with e1 h
  injection h with e2 e3
  subst e2 e3
  exact ⟨e1.symm, r⟩

/-- C20: the lags of the encoder are those that have an index. -/
theorem C20_codable (cfg : Lc3Config) (xt : List α) (t index p : Nat) (fr : Int) (h1 : 17 ≤ t) (h2 : t ≤ 114)
    (hx : xt.length = xtExtLen cfg) (h : pitchLagParameter cfg xt t = .ok (index, p, fr)) : Spec.codable p fr.toNat := by
  obtain ⟨-, a, b, c, e, g, k⟩ := C20_lag cfg xt t index p fr h1 h2 hx h
  unfold Spec.codable
  omega

/-- C20, proved part: the decoder finds the lag if it is not between 127 and 156 samples. Missing: the lags from 127 to 156, for
which the statement is false (`C20_wrong`, `C20_fails`). -/
theorem C20_partial (cfg : Lc3Config) (xt : List α) (t index p : Nat) (fr : Int) (h1 : 17 ≤ t) (h2 : t ≤ 114)
    (hx : xt.length = xtExtLen cfg) (h : pitchLagParameter cfg xt t = .ok (index, p, fr)) (hp : ¬ (127 ≤ p ∧ p < 157)) :
    pitchLagDec index = .ok (p, fr.toNat) := by
  obtain ⟨rfl, a, b, c, e, g, k⟩ := C20_lag cfg xt t index p fr h1 h2 hx h
  unfold pitchIndexOf
  by_cases hq : p < 127
  · rw [if_pos hq, i32AsUsize_of_nonneg (by omega) (by omega)]
    unfold pitchLagDec
    rw [if_neg (by omega), if_neg (by omega)]
    dsimp only
    rw [usub_of_le (by omega)]; simp only [Res.bind_ok]
    exact ok_pair (by omega) (by omega)
  · rw [if_neg hq, if_neg hp]
    have := k (by omega)
    subst this
    unfold pitchLagDec
    rw [if_pos (by omega), usub_of_le (by omega)]; simp only [Res.bind_ok]
    exact ok_pair (by omega) rfl

/-- C20, the error: for every lag between 127 and 156 samples the decoder uses another lag, shorter by at least 62 samples
(`- 126` instead of `+ 126` in encoder/long_term_post_filter.rs 357). -/
theorem C20_wrong (cfg : Lc3Config) (xt : List α) (t index p : Nat) (fr : Int) (h1 : 17 ≤ t) (h2 : t ≤ 114)
    (hx : xt.length = xtExtLen cfg) (h : pitchLagParameter cfg xt t = .ok (index, p, fr)) (hp : 127 ≤ p) (hp2 : p < 157) :
    ∃ q fq, pitchLagDec index = .ok (q, fq) ∧ q + 62 ≤ p := by
  obtain ⟨rfl, a, b, c, e, g, k⟩ := C20_lag cfg xt t index p fr h1 h2 hx h
  have ht : Int.tdiv fr 2 = fr / 2 := Int.tdiv_eq_ediv_of_nonneg c
  unfold pitchIndexOf
  rw [if_neg (by omega), if_pos ⟨hp, hp2⟩, ht, i32AsUsize_of_nonneg (by omega) (by omega)]
  unfold pitchLagDec
  rw [if_neg (by omega), if_neg (by omega)]
  dsimp only
  rw [usub_of_le (by omega)]; simp only [Res.bind_ok]
  exact ⟨_, _, rfl, by omega⟩

/-- the index with the sign of the standard -/
def pitchIndexRepaired (p : Nat) (fr : Nat) : Nat :=
  if p < 127 then 4 * p + fr - 128 else if p < 157 then 2 * p + fr / 2 + 126 else p + 283

/-- C20: with `+ 126` every codable lag would be found. -/
theorem C20_repaired (p fr : Nat) (h : Spec.codable p fr) :
    pitchIndexRepaired p fr < 512 ∧ pitchLagDec (pitchIndexRepaired p fr) = .ok (p, fr) := by
  unfold pitchIndexRepaired pitchLagDec
  rcases h with ⟨a, b, c⟩ | ⟨a, b, c⟩ | ⟨a, b, c⟩
  · rw [if_pos b, if_neg (by omega), if_neg (by omega)]
    dsimp only
    rw [usub_of_le (by omega)]; simp only [Res.bind_ok]
    exact ⟨by omega, ok_pair (by omega) (by omega)⟩
  · rw [if_neg (by omega), if_pos b, if_neg (by omega), if_pos (by omega), usub_of_le (by omega)]; simp only [Res.bind_ok]
    rw [usub_of_le (by omega)]; simp only [Res.bind_ok]
    rw [usub_of_le (by omega)]; simp only [Res.bind_ok]
    exact ⟨by omega, ok_pair (by omega) (by omega)⟩
  · rw [if_neg (by omega), if_neg (by omega), if_pos (by omega), usub_of_le (by omega)]; simp only [Res.bind_ok]
    exact ⟨by omega, ok_pair (by omega) (by omega)⟩

example : Spec.codable 130 2 := .inr (.inl (by decide))

/-- a signal with two pulses, `lag` samples apart, in the buffer of the encoder (10 ms) -/
def pulses (lag : Nat) : List F32 :=
  (List.range 384).map fun i => if i = 232 + 50 ∨ i + lag = 232 + 50 then .fin 1000 else .fin 0

set_option maxRecDepth 100000 in
/-- C20, witness: in `f32`, two pulses 130 samples apart give the lag 130 and the index 134. -/
theorem C20_witness :
    @pitchLagParameter F32 (F32.scalar sqrtElem) (Lc3Config.new .hz48000 .tenMs) (pulses 130) 65 = .ok (134, 130, 0) := by
  rw [F32.evalScalar_eq]; decide +kernel

/-- C20 fails for `f32`: the decoder reads the lag 65.5 from the index 134. -/
theorem C20_fails : ¬ @C20_statement F32 (F32.scalar sqrtElem) := by
  intro h
  have := h (Lc3Config.new .hz48000 .tenMs) (pulses 130) 65 134 130 0 (by decide) (by decide)
    (by simp [pulses]; rfl) C20_witness
  revert this
  decide

end Lc3
