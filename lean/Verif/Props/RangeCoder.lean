import Verif.Lemmas.SymbRun
import Verif.Lemmas.SideIndep
import Verif.Lemmas.TableFacts
import Verif.Spec.Bits
/-! # C01, C29, C32: the range coder -/

namespace Lc3
open Tables

/-- A final value of the range coder "wraps": the value chosen by `ac_enc_finish` lies beyond the 24-bit
register (`over1 = 1` in encoder/bitstream_encoding.rs line 361). Here the code omits a masking step and may
reserve one bit too few, see `C01_fails`. -/
def finalValueWraps (ac : AcEnc) : Prop := 2 ^ 24 ≤ ac.low + (2 ^ Nat.log2 ac.range - 1)

/-- Full statement of C01: an encoder that codes any symbols at the head of a frame which already holds at
least 16 bits at its end, and whose own estimate says that everything fits, finishes without panic; and
every frame that agrees with the result on the reserved head bits is decoded to the same symbols. -/
def C01_statement : Prop :=
  ∀ (N : Nat) (tl : List Bool) (ys : List Symb) (s0 s : EncSt), N < 65536 → 16 ≤ tl.length →
    (∀ y ∈ ys, ProperModel y.cum y.freq ∧ y.val < y.freq.length) →
    startFrame N tl = .ok s0 → encodeSymbols ys s0 = .ok s → tl.length + nbitsAriForecast s ≤ 8 * N →
    ∃ s', acEncFinish s = .ok s' ∧ s'.buf.length = N ∧
      ∀ B : List Nat, B.length = N → (∀ b ∈ B, b < 256) →
        (∀ i, i < nbitsAriForecast s → headBit B i = headBit s'.buf i) →
        decodeSymbols B tl.length ys = .ok (ys.map Symb.val)

theorem sameHead_of_headBit {N K : Nat} {buf B : List Nat} (h1 : buf.length = N) (h2 : B.length = N)
    (h : ∀ i, i < K → headBit B i = headBit buf i) : SameHead N K buf B := by
  intro j hj hj2
  by_cases hK : 8 * N - 1 - j < K
  · have := h (8 * N - 1 - j) hK
    rw [headBit_eq (by omega), headBit_eq (by omega), h1, h2] at this
    rwa [show 8 * N - 1 - (8 * N - 1 - j) = j by omega] at this
  · omega

theorem finalValueWraps_iff (ac : AcEnc) : ¬ finalValueWraps ac ↔ finishOver ac = false := by
  unfold finalValueWraps finishOver; simp

/-- **C01**, with the exception forced by the missing mask: if the final value does not wrap, the symbols
are decoded whatever follows the reserved head bits; if it wraps, they are decoded when the 24 bits after
the last shift are still free (zero). -/
theorem C01_partial {N : Nat} {tl : List Bool} {ys : List Symb} {s0 s : EncSt} (hN : N < 65536)
    (hT : 16 ≤ tl.length) (hys : ∀ y ∈ ys, ProperModel y.cum y.freq ∧ y.val < y.freq.length)
    (h0 : startFrame N tl = .ok s0) (h1 : encodeSymbols ys s0 = .ok s)
    (hfit : tl.length + nbitsAriForecast s ≤ 8 * N) :
    ∃ s', acEncFinish s = .ok s' ∧ s'.buf.length = N ∧
      (¬ finalValueWraps s.ac → ∀ B : List Nat, B.length = N → (∀ b ∈ B, b < 256) →
        (∀ i, i < nbitsAriForecast s → headBit B i = headBit s'.buf i) →
        decodeSymbols B tl.length ys = .ok (ys.map Symb.val)) ∧
      (tl.length + nbitsAriForecast s + 22 ≤ 8 * N →
        decodeSymbols s'.buf tl.length ys = .ok (ys.map Symb.val)) := by
  obtain ⟨hd, f, c, hroom, hfore⟩ := symbols_post hN hys h0 h1 hfit hT
  obtain ⟨s', e, post⟩ := acEncFinish_spec f c (by omega) hroom
  have hok : (symSt tl ys).Ok := (ASt.Ok.init _).run (symbs_valid hys)
  obtain ⟨hl1, hl2⟩ := log2_le hok.1 hok.2
  have key : ∀ B : List Nat, B.length = N → Bytes B →
      (symSt tl ys).abs.L ≤ beVal (B.take ((symSt tl ys).abs.S + 3)) →
      beVal (B.take ((symSt tl ys).abs.S + 3)) < (symSt tl ys).abs.L + (symSt tl ys).abs.R →
      decodeSymbols B tl.length ys = .ok (ys.map Symb.val) := by
    intro B hBl hB hlo hhi
    obtain ⟨bs, hbs⟩ : ∃ bs : List Bool, bs = (List.range tl.length).map (tailBit B) := ⟨_, rfl⟩
    have hbl : bs.length = tl.length := by rw [hbs]; simp
    have habs : ∀ (σ : ASt) (t : List Bool),
        (ASt.run ⟨σ.abs, t⟩ (ys.map Symb.ev)).abs = (σ.run (ys.map Symb.ev)).abs := by
      clear * -
      induction ys with
      | nil => intros; rfl
      | cons y ys ih =>
        intro σ t
        simp only [List.map_cons, ASt.run]
        exact ih (σ.step y.ev) t
    have ha : (symSt bs ys).abs = (symSt tl ys).abs := habs ⟨Abs.init, tl⟩ bs
    have ht : (symSt bs ys).tl = bs := symSt_tl _ _
    have hg : Good B (symSt bs ys) := by
      refine ⟨hB, (ASt.Ok.init _).run (symbs_valid hys), ?_, ?_, ?_, ?_, ?_⟩
      · rw [ha, hBl]; exact hroom
      · rw [ha]; exact hlo
      · rw [ha]; exact hhi
      · rw [ht]; intro j hj; simp [hbs]
      · rw [ha, ht, hbl, hBl]; omega
    unfold decodeSymbols
    have hi := acDecInit_spec (buf := B) (by rw [hBl]; omega) bs
    rw [hbl] at hi
    rw [hi]
    exact decodeModels_spec hys (ASt.Ok.init _) hg
  refine ⟨s', e, post.len, ?_, ?_⟩
  · intro hw B hBl hB hsame
    obtain ⟨p1, p2⟩ := post.any B hBl hB (sameHead_of_headBit post.len hBl hsame)
    exact key B hBl hB p1 (p2 ((finalValueWraps_iff _).1 hw))
  · intro hgap
    obtain ⟨p1, _⟩ := post.any s'.buf post.len post.bytes (SameHead.refl _ _ _)
    exact key _ post.len post.bytes p1 (post.hiGap (by omega))

/-- two symbols whose final value wraps -/
def wrapSymbols : List Symb := [⟨[0, 81, 1023], [81, 942, 1], 0⟩, ⟨[0, 994, 1023], [994, 29, 1], 1⟩]

theorem wrapSymbols_ok : ∀ y ∈ wrapSymbols, ProperModel y.cum y.freq ∧ y.val < y.freq.length := by
  intro y hy
  simp only [wrapSymbols, List.mem_cons, List.not_mem_nil, or_false] at hy
  rcases hy with rfl | rfl
  · exact ⟨proper_of_check (by decide), by decide⟩
  · exact ⟨proper_of_check (by decide), by decide⟩

/-- **C01 fails as stated**: these two symbols need more bits than `ac_enc_finish` writes. With one bits
after the reserved head bits the decoder does not recover them. -/
theorem C01_fails : ¬ C01_statement := by
  intro h
  obtain ⟨s', e, _, hB⟩ := h 8 (List.replicate 16 false) wrapSymbols
    ⟨⟨0, 5, 1⟩, [0, 0, 0, 0, 0, 0, 0, 0], ⟨0, 16777215, -1, 0, 0⟩⟩
    ⟨⟨0, 5, 1⟩, [0, 0, 0, 0, 0, 0, 0, 0], ⟨10763776, 9614080, 19, 0, 0⟩⟩
    (by decide) (by decide) wrapSymbols_ok (by decide +kernel) (by decide +kernel) (by decide +kernel)
  have e' : acEncFinish ⟨⟨0, 5, 1⟩, [0, 0, 0, 0, 0, 0, 0, 0], ⟨10763776, 9614080, 19, 0, 0⟩⟩ =
      .ok ⟨⟨1, 5, 1⟩, [20, 0, 0, 0, 0, 0, 0, 0], ⟨0, 9614080, 0, 0, 0⟩⟩ := by decide +kernel
  rw [e'] at e
  cases e
  have hd := hB [20, 63, 255, 255, 255, 255, 255, 255] rfl (by decide)
    (by
      have : nbitsAriForecast ⟨⟨0, 5, 1⟩, [0, 0, 0, 0, 0, 0, 0, 0], ⟨10763776, 9614080, 19, 0, 0⟩⟩ = 10 := by
        decide +kernel
      rw [this]
      decide)
  have hn : decodeSymbols [20, 63, 255, 255, 255, 255, 255, 255] 16 wrapSymbols ≠ .ok [0, 1] := by
    decide +kernel
  exact hn hd

/-- example sequence: symbols of spectral and noise shaping models -/
def exampleSymbols : List Symb :=
  [⟨AC_SPEC_CUMFREQ.getD 3 [], AC_SPEC_FREQ.getD 3 [], 5⟩,
   ⟨AC_SPEC_CUMFREQ.getD 60 [], AC_SPEC_FREQ.getD 60 [], 16⟩,
   ⟨AC_TNS_COEF_CUMFREQ.getD 1 [], AC_TNS_COEF_FREQ.getD 1 [], 8⟩]

theorem exampleSymbols_ok : ∀ y ∈ exampleSymbols, ProperModel y.cum y.freq ∧ y.val < y.freq.length := by
  intro y hy
  simp only [exampleSymbols, List.mem_cons, List.not_mem_nil, or_false] at hy
  rcases hy with rfl | rfl | rfl
  · exact ⟨proper_of_check (by decide +kernel), by decide +kernel⟩
  · exact ⟨proper_of_check (by decide +kernel), by decide +kernel⟩
  · exact ⟨proper_of_check (by decide +kernel), by decide +kernel⟩

/-- C01 and C32 are not vacuous: a frame of 9 bytes in which the final value does not wrap -/
example : ∃ s0 s : EncSt, startFrame 9 (List.replicate 16 true) = .ok s0 ∧
    encodeSymbols (exampleSymbols ++ exampleSymbols) s0 = .ok s ∧ 16 + nbitsAriForecast s ≤ 8 * 9 ∧
    s.ac.low + (2 ^ Nat.log2 s.ac.range - 1) < 2 ^ 24 :=
  ⟨⟨⟨0, 6, 1⟩, [0, 0, 0, 0, 0, 0, 0, 255, 255], ⟨0, 16777215, -1, 0, 0⟩⟩,
    ⟨⟨0, 6, 1⟩, [0, 0, 0, 0, 0, 0, 0, 255, 255], ⟨5917632, 592352, 138, 0, 0⟩⟩, by decide +kernel, by decide +kernel, by decide +kernel, by decide +kernel⟩

/-- **C29** Every cumulative table starts at 0, grows by the (positive) frequency of each symbol and totals
1024: the 64 spectral models, both models of the filter order, the eight models of filter coefficients. -/
theorem C29 :
    (∀ i, (h1 : i < AC_SPEC_CUMFREQ.length) → (h2 : i < AC_SPEC_FREQ.length) →
      ProperModel AC_SPEC_CUMFREQ[i] AC_SPEC_FREQ[i] ∧ AC_SPEC_FREQ[i].length = 17) ∧
    (∀ i, (h1 : i < AC_TNS_ORDER_CUMFREQ.length) → (h2 : i < AC_TNS_ORDER_FREQ.length) →
      ProperModel AC_TNS_ORDER_CUMFREQ[i] AC_TNS_ORDER_FREQ[i] ∧ AC_TNS_ORDER_FREQ[i].length = 8) ∧
    (∀ i, (h1 : i < AC_TNS_COEF_CUMFREQ.length) → (h2 : i < AC_TNS_COEF_FREQ.length) →
      ProperModel AC_TNS_COEF_CUMFREQ[i] AC_TNS_COEF_FREQ[i] ∧ AC_TNS_COEF_FREQ[i].length = 17) ∧
    AC_SPEC_CUMFREQ.length = 64 ∧ AC_SPEC_FREQ.length = 64 ∧ AC_TNS_ORDER_CUMFREQ.length = 2 ∧
    AC_TNS_ORDER_FREQ.length = 2 ∧ AC_TNS_COEF_CUMFREQ.length = 8 ∧ AC_TNS_COEF_FREQ.length = 8 :=
  ⟨fun _ h1 h2 => spec_proper h1 h2, fun _ h1 h2 => tnsOrder_proper h1 h2,
    fun _ h1 h2 => tnsCoef_proper h1 h2, spec_cum_len, spec_freq_len, tnsOrder_cum_len, tnsOrder_freq_len,
    tnsCoef_cum_len, tnsCoef_freq_len⟩

/-- one of the models -/
example : ∃ (h1 : 5 < AC_SPEC_CUMFREQ.length) (h2 : 5 < AC_SPEC_FREQ.length),
    AC_SPEC_CUMFREQ[5][1]? = AC_SPEC_FREQ[5][0]? := ⟨by decide, by decide, by decide⟩

/-- **C32** If the bits already written from the end and the encoder's own estimate fit the frame, then
finishing the range coder does not panic, and it changes only the reserved head bits: every other bit,
in particular every bit written from the end, keeps its value. -/
theorem C32 {N : Nat} {tl : List Bool} {ys : List Symb} {s0 s : EncSt} (hN : N < 65536)
    (hT : 16 ≤ tl.length) (hys : ∀ y ∈ ys, ProperModel y.cum y.freq ∧ y.val < y.freq.length)
    (h0 : startFrame N tl = .ok s0) (h1 : encodeSymbols ys s0 = .ok s)
    (hfit : tl.length + nbitsAriForecast s ≤ 8 * N) :
    ∃ s', acEncFinish s = .ok s' ∧ s'.buf.length = N ∧
      (∀ i, nbitsAriForecast s ≤ i → i < 8 * N → headBit s'.buf i = headBit s.buf i) ∧
      (∀ j, (hj : j < tl.length) → tailBit s'.buf j = tl[j]) := by
  obtain ⟨hd, f, c, hroom, _⟩ := symbols_post hN hys h0 h1 hfit hT
  obtain ⟨s', e, hl, hloc⟩ := acEncFinish_local f c (by omega) hroom
  refine ⟨s', e, hl, ?_, ?_⟩
  · intro i h1 h2
    rw [headBit_eq (by omega), headBit_eq (by rw [f.len]; omega), hl, f.len]
    exact hloc _ (by omega)
  · intro j hj
    rw [hloc j (by omega), f.tail j hj]

/-- finishing the frame of the previous example keeps the two bytes at the end -/
example : ∃ s' : EncSt, acEncFinish
    ⟨⟨0, 6, 1⟩, [0, 0, 0, 0, 0, 0, 0, 255, 255], ⟨5917632, 592352, 138, 0, 0⟩⟩ = .ok s' ∧ s'.buf.drop 7 = [255, 255] :=
  ⟨⟨⟨1, 6, 1⟩, [138, 92, 0, 0, 0, 0, 0, 255, 255], ⟨0, 592352, 92, 0, 0⟩⟩, by decide +kernel, rfl⟩

end Lc3
