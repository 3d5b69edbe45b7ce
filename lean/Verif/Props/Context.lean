import Verif.Lemmas.Traced
import Verif.Props.FrameRoundTrip
/-! C28: the probability models used while coding spectral data. `Model/Traced.lean` holds copies of the coding
loops that log every look-up before it is made; `encodeBodyT_snd` and `readFrameT_snd` prove that they are the
models otherwise. -/

namespace Lc3
open Tables Logged

/-- A look-up of the model with number `i` and of symbol `sym` in it finds all the entries it needs. -/
def LookupOk (i sym : Nat) : Prop :=
  ∃ (pki : Nat) (cums freqs : List Nat) (cum freq : Nat), AC_SPEC_LOOKUP[i]? = some pki ∧
    AC_SPEC_CUMFREQ[pki]? = some cums ∧ AC_SPEC_FREQ[pki]? = some freqs ∧ cums[sym]? = some cum ∧
    freqs[sym]? = some freq ∧ cums.length = 17 ∧ freqs.length = 17

theorem lookupOk {i sym : Nat} (hi : i < 4096) (hs : sym < 17) : LookupOk i sym := by
  have h1 : i = i % 1024 + min (i / 1024) 3 * 1024 := by omega
  have e1 := spec_lookup (t := i % 1024) (lev := i / 1024) (by omega)
  have e2 := spec_cum_idx (i % 1024) (i / 1024)
  have e3 := spec_freq_idx (i % 1024) (i / 1024)
  obtain ⟨m1, m2⟩ := spec_model (i % 1024) (i / 1024)
  rw [← h1] at e1
  have m3 := m1.len
  refine ⟨_, _, _, _, _, idx_ok_iff.1 e1, idx_ok_iff.1 e2, idx_ok_iff.1 e3,
    List.getElem?_eq_getElem (by omega), List.getElem?_eq_getElem (by omega), by omega, m2⟩

open Context in
/-- every model number the specification asks for exists -/
theorem symbols_range {rounds rf ne : Nat} (hrf : rf ≤ 512) {ps : List Pair} (hs : SizesOk ps)
    (hb : ∀ p ∈ ps, p.a < 4 ∧ p.b < 4) : ∀ e ∈ symbols rounds rf ne ps, e.1 < 4096 ∧ e.2 < 17 := by
  intro e he
  unfold symbols at he
  rw [List.mem_flatMap] at he
  obtain ⟨k, hk, he⟩ := he
  obtain ⟨l, hl, rfl⟩ := List.mem_map.1 he
  rw [List.mem_range] at hk
  have hc := ctxAt_lt hs k
  simp only
  refine ⟨?_, ?_⟩
  · rw [modelIndex_eq]; split <;> omega
  · rw [List.getElem?_eq_getElem hk]
    have := hb _ (List.getElem_mem hk)
    simp only [Option.getD_some, symbol]
    split <;> omega

open Context in
theorem ofLines_bound : ∀ (n : Nat) (xs : List Int), xs.length ≤ n → ∀ p ∈ ofLines xs, p.a < 4 ∧ p.b < 4 := by
  intro n
  induction n with
  | zero =>
    intro xs hl p hp
    have : xs = [] := List.length_eq_zero_iff.1 (by omega)
    subst this; simp [ofLines] at hp
  | succ n ih =>
    intro xs hl p hp
    match xs, hl with
    | [], _ => simp [ofLines] at hp
    | [_], _ => simp [ofLines] at hp
    | x0 :: x1 :: xs, hl =>
      simp only [ofLines, List.mem_cons] at hp
      rcases hp with rfl | hp
      · exact ofMagnitudes_lt _ _
      · exact ih xs (by simp at hl; omega) p hp

/-- log of the encoder body -/
theorem encodeBodyT_tr (ne : Nat) (p : FrameParams) (stale : EncSt) (buf : List Nat)
    (hx : ∀ x ∈ p.xq.take p.lastnz, x.natAbs ≤ 32768) (he : p.lastnz % 2 = 0) :
    Tr (encodeBodyT ne p stale buf) (Context.symbols 15 p.rateFlag ne (Context.ofLines (p.xq.take p.lastnz)))
      (fun _ => True) := by
  unfold encodeBodyT encSpectralT
  refine Tr.bindLift (fun w => ?_)
  refine Tr.bindLift (fun s => ?_)
  refine Tr.bindLift (fun s => ?_)
  refine Tr.bindLift (fun _ => ?_)
  by_cases h1 : p.nbitsLsb > 3840
  · rw [if_pos h1]; exact Tr.panic
  rw [if_neg h1]
  by_cases h2 : p.lastnz > p.xq.length
  · rw [if_pos h2]; exact Tr.panic
  rw [if_neg h2, symbols_eq]
  have hl : (p.xq.take p.lastnz).length = 2 * (p.lastnz / 2) := take_len (by omega) he
  have := tr_encPairsT (lsb := p.lsbMode) (rf := p.rateFlag) (ne := ne) (nl := p.nbitsLsb) (p.xq.take p.lastnz) hx
    (p.lastnz / 2) (p.xq.take p.lastnz) 0 [] s hl (by simp) (by simp)
    (by rw [ofLines_length _ _ hl]; omega)
  rwa [ctxAt_zero] at this

/-- **C28, encoder.** For every 16 bit spectrum the encoder looks up exactly the models the specification asks for,
in that order (only the first ones if it stops early because the buffer is full), and all of them exist. -/
theorem C28_encoder (ne : Nat) (p : FrameParams) (stale : EncSt) (buf : List Nat) (hrf : p.rateFlag ≤ 512)
    (hx : ∀ x ∈ p.xq.take p.lastnz, x.natAbs ≤ 32768) (he : p.lastnz % 2 = 0) :
    (encodeBodyT ne p stale buf).1 <+:
      Context.symbols 15 p.rateFlag ne (Context.ofLines (p.xq.take p.lastnz)) ∧
    (∀ r, encodeBody ne p stale buf = .ok r → (encodeBodyT ne p stale buf).1 =
      Context.symbols 15 p.rateFlag ne (Context.ofLines (p.xq.take p.lastnz))) ∧
    ∀ e ∈ (encodeBodyT ne p stale buf).1, LookupOk e.1 e.2 := by
  have h := encodeBodyT_tr ne p stale buf hx he
  refine ⟨h.1, ?_, ?_⟩
  · intro r hr
    rw [← encodeBodyT_snd] at hr
    exact (h.2 r hr).1
  · intro e hm
    have hm' := h.1.subset hm
    obtain ⟨h1, h2⟩ := symbols_range hrf (ofLines_sizes _ _ (le_refl _)) (ofLines_bound _ _ (le_refl _)) e hm'
    exact lookupOk h1 h2

/-- log of the spectral decoder -/
theorem decodePairsT_log (buf : List Nat) (lsb : Bool) {rf ne : Nat} (hrf : rf ≤ 512) (n : Nat) (r : Reader) (st : AcDec) :
    (∀ e ∈ (decodePairsT buf lsb rf ne n 0 0 r st).1, e < 4096) ∧
    ∀ ps st' r', decodePairs buf lsb rf ne n 0 0 r st = .ok (ps, st', r') →
      (decodePairsT buf lsb rf ne n 0 0 r st).1 = (Context.symbols 14 rf ne (ps.map decPair)).map (·.1) := by
  have h := trd_decodePairsT buf lsb (ne := ne) hrf n [] r st (by intro p hp; simp at hp)
  rw [List.length_nil, ctxAt_zero] at h
  refine ⟨h.1, ?_⟩
  intro ps st' r' e
  rw [← decodePairsT_snd] at e
  rw [(h.2 _ e).1, symbols_eq]
  rfl

theorem rateFlagOf_le (nbits fsInd : Nat) : rateFlagOf nbits fsInd ≤ 512 := by
  unfold rateFlagOf; split <;> omega

/-- **C28, decoder.** Whatever bytes the decoder is given, and whether or not it accepts them, every model it looks
up exists and has all 17 symbols. -/
theorem C28_decoder (checks : Bool) (cfg : Lc3Config) (buf : List Nat) (sym : Nat) (hs : sym < 17) :
    ∀ i ∈ (readFrameT checks cfg buf).1, LookupOk i sym := by
  intro i hi
  refine lookupOk ?_ hs
  rw [readFrameT_fst] at hi
  cases e1 : readSideInfo buf Reader.new cfg.fsInd cfg.ne with
  | err => rw [e1] at hi; exact absurd hi (List.not_mem_nil)
  | panic => rw [e1] at hi; exact absurd hi (List.not_mem_nil)
  | ok p =>
    rw [e1, fst_bind_ok (m := Logged.lift (Res.ok p)) (a := p) rfl, fst_lift, List.nil_append, arithDecodeT_fst] at hi
    cases e2 : acDecInit buf p.2 with
    | err => rw [e2] at hi; exact absurd hi (List.not_mem_nil)
    | panic => rw [e2] at hi; exact absurd hi (List.not_mem_nil)
    | ok q =>
      rw [e2, fst_bind_ok (m := Logged.lift (Res.ok q)) (a := q) rfl, fst_lift, List.nil_append] at hi
      cases e3 : decodeTnsData buf q.2 p.1 q.1 (buf.length * 8) cfg.nMs with
      | err => rw [e3] at hi; exact absurd hi (List.not_mem_nil)
      | panic => rw [e3] at hi; exact absurd hi (List.not_mem_nil)
      | ok t =>
        rw [e3, fst_bind_ok (m := Logged.lift (Res.ok t)) (a := t) rfl, fst_lift, List.nil_append] at hi
        unfold decodeSpectralDataT at hi
        by_cases hl : p.1.lastnz > 400
        · rw [if_pos hl] at hi; exact absurd hi (List.not_mem_nil)
        · rw [if_neg hl, fst_bind_nil (by rintro ⟨ps, st, r⟩; rfl)] at hi
          exact (decodePairsT_log buf p.1.lsbMode (rateFlagOf_le _ _) _ _ _).1 i hi

/-- log of the decoder on a frame of the encoder -/
theorem readFrameT_good {f : SamplingFrequency} {d : FrameDuration} {p : FrameParams} {q : PulseIdx}
    {B : List Nat} (checks : Bool) (h : BodyHyp (Lc3Config.new f d) B.length p q)
    (hg : Good B (bodySt (Lc3Config.new f d).ne p))
    (hT : (bodySt (Lc3Config.new f d).ne p).tl.length < 8 * B.length) :
    (readFrameT checks (Lc3Config.new f d) B).1 =
      (Context.symbols 14 p.rateFlag (Lc3Config.new f d).ne (Context.ofLines (p.xq.take p.lastnz))).map (·.1) := by
  have hp := front_post h hg hT
  rw [readFrameT_fst, hp.side, fst_bind_ok (m := Logged.lift (Res.ok _)) rfl, fst_lift, List.nil_append,
    arithDecodeT_fst]
  simp only
  rw [hp.init, fst_bind_ok (m := Logged.lift (Res.ok _)) rfl, fst_lift, List.nil_append]
  simp only
  rw [hp.tns, fst_bind_ok (m := Logged.lift (Res.ok _)) rfl, fst_lift, List.nil_append]
  simp only
  have hlz : (expectedSide p q).lastnz = p.lastnz := rfl
  have hls : (expectedSide p q).lsbMode = p.lsbMode := rfl
  have hlh := h.side.lastnzHi
  have hne := ne_le f d
  have hlen2 := take_len h.data.lines h.side.lastnzEven
  have hrf : rateFlagOf (B.length * 8) (Lc3Config.new f d).fsInd = p.rateFlag := by
    rw [h.data.rate]; unfold rateFlagOf
    have e : (Lc3Config.new f d).fsInd * 160 = 160 * (Lc3Config.new f d).fsInd := Nat.mul_comm _ _
    rw [e, Nat.mul_comm B.length 8]
  unfold decodeSpectralDataT
  rw [hlz, hls, if_neg (by omega), hrf, fst_bind_nil (by rintro ⟨ps, st, r⟩; rfl)]
  have hot : (tnsSt (Lc3Config.new f d).ne p).Ok := (ASt.Ok.init _).run (tns_valid h)
  rw [bodySt_eq] at hg
  have := decodePairs_spec (buf := B) (lsb := p.lsbMode) (ne := (Lc3Config.new f d).ne) h.data.rate_le (p.lastnz / 2)
    (p.xq.take p.lastnz) 0 0 (tnsSt (Lc3Config.new f d).ne p) hlen2 (by omega) h.data.range hot hg
  rw [(decodePairsT_log B p.lsbMode h.data.rate_le _ _ _).2 _ _ _ this,
    pairsDec_decPair _ _ _ (le_refl _) h.data.range]

/-- **C28, both sides.** On every frame the encoder produces (in both refinement modes, and outside the one case in
which the final value of the range coder is spoilt, see C04) the decoder looks up the same models in the same
order. -/
theorem C28 {f : SamplingFrequency} {d : FrameDuration} {p : FrameParams} {q : PulseIdx} {buf : List Nat}
    {stale s : EncSt} {lsbs : List Bool} {t : Nat} (checks : Bool) (hs : SideOk (Lc3Config.new f d) p q)
    (hd : DataOk (Lc3Config.new f d) buf.length p) (hN : buf.length < 65536)
    (hb : encodeBody (Lc3Config.new f d).ne p stale buf = .ok (lsbs, s)) (hfit : Fits buf.length s t)
    (hwrap : ¬ finalValueWraps s.ac ∨
      t + nbitsAriForecast s + (if p.lsbMode then lsbs else p.residual).length + 22 ≤ 8 * buf.length) :
    ∃ s', encodeFrame (Lc3Config.new f d).ne p stale buf = .ok s' ∧
      (readFrameT checks (Lc3Config.new f d) s'.buf).1 =
        (encodeBodyT (Lc3Config.new f d).ne p stale buf).1.map (·.1) := by
  have h := bodyHyp_of_ok hs hd hb
  have ht := hfit.t_eq h hN hb
  obtain ⟨hlsb, hd', hp⟩ := body_post h hN hb hfit.toBody
  have hok := bodySt_ok h (Lc3Config.new f d).ne
  obtain ⟨hl1, hl2⟩ := log2_le hok.1 hok.2
  have hfore := hp.fore
  have hfits := hp.fits
  obtain ⟨s', e1, hl, hg⟩ := frame_good h hN hb hfit.toBody (by
    rcases hwrap with hw | hw
    · exact .inl ((finalValueWraps_iff _).1 hw)
    · right
      have hx : (extraBits p (encRoom buf.length (bodySt (Lc3Config.new f d).ne p) s)).length ≤
          (if p.lsbMode then lsbs else p.residual).length := by
        unfold extraBits
        rw [List.length_take, hlsb]
        cases p.lsbMode <;> simp
      by_cases hc : s.ac.cache < 0
      · simp only [hc, if_true] at hfore; omega
      · simp only [hc, if_false] at hfore; omega)
  refine ⟨s', e1, ?_⟩
  rw [← hl] at h
  have hg' : Good s'.buf (bodySt (Lc3Config.new f d).ne p) := by
    have hb2 : Good s'.buf ((bodySt (Lc3Config.new f d).ne p).run
        ((extraBits p (encRoom buf.length (bodySt (Lc3Config.new f d).ne p) s)).map .bit)) := by
      rw [ASt.run_bits]; exact hg
    exact hb2.back_run _ hok (bits_valid _)
  rw [readFrameT_good checks h hg' (by rw [hl]; omega)]
  have he := encodeBodyT_tr (Lc3Config.new f d).ne p stale buf (fun x hx => le_of_lt (hd.range x hx)) hs.lastnzEven
  rw [(he.2 (lsbs, s) (by rw [encodeBodyT_snd]; exact hb)).1,
    symbols_rounds (ofLines_lev _ _ (le_refl _) hd.range)]

/-- a spectrum with an escaped pair: the escape symbol and the following symbol use the levels 0 and 1, and the pair
after it a context that depends on both pairs before -/
example : Context.symbols 15 512 400 (Context.ofLines [1, -2, 6, 0, 1, 1]) =
    [(512, 9), (512 + 4, 16), (512 + 4 + 1024, 3), (512 + 64 + 7, 5)] := by decide

/-- the hypotheses of `C28` can be met, here by a frame in LSB mode with an escaped pair -/
example : ∃ s', encodeFrame 160 exampleLsb staleSt (List.replicate 20 0) = .ok s' ∧
    (readFrameT true (Lc3Config.new .hz16000 .tenMs) s'.buf).1 =
      (encodeBodyT 160 exampleLsb staleSt (List.replicate 20 0)).1.map (·.1) :=
  C28 (f := .hz16000) (d := .tenMs) (q := ⟨12345, 0, 0⟩) (s := exampleLsbSt) (lsbs := [true, true, false]) (t := 65) true
    (example_side _ _ _ _ (by decide) (by decide) (by decide)) (example_data _ _ _ _ (by decide) (by decide))
    (by decide) (by decide +kernel) ⟨by decide +kernel, by decide +kernel⟩
    (.inl (by unfold finalValueWraps; decide +kernel))

end Lc3
