import Verif.Lemmas.SafeDecoder
/-! Frames of the lengths in `shortLens` are never accepted; overflow checks only add panics. -/

namespace Lc3
open Scalar Tables
variable {α : Type} [Scalar α]

theorem readTailUsize_ok_inv {buf : List Nat} {r : Reader} {n : Nat} {p : Nat × Reader} (h1 : 1 ≤ n) (h2 : n ≤ 25)
    (h : r.readTailUsize buf n = .ok p) : p.2 = ⟨r.head, r.tail + n⟩ ∧ r.head + r.tail / 8 + 1 ≤ buf.length := by
  have := (safe_readTailUsize (buf := buf) (r := r) h1 h2).of_ok h
  refine ⟨this.1, ?_⟩
  have hb : 1 ≤ bytesFor r.tail n := by unfold bytesFor; split <;> omega
  omega

theorem readTailBool_ok {buf : List Nat} {r : Reader} {p : Bool × Reader} (h : r.readTailBool buf = .ok p) :
    p.2 = ⟨r.head, r.tail + 1⟩ := by
  unfold Reader.readTailBool at h
  simp only at h
  split at h
  · simp at h
  · obtain ⟨_, -, h⟩ := bind_ok_inv h
    obtain ⟨_, -, h⟩ := bind_ok_inv h
    simp only [Res.ok.injEq] at h
    subst h; rfl

theorem readTnsFlags_ok {buf : List Nat} : ∀ (n : Nat) {T : Nat} {p : List Nat × Reader},
    readTnsFlags buf ⟨0, T⟩ n = .ok p → p.2 = ⟨0, T + n⟩
  | 0, T, p, h => by
    simp only [readTnsFlags, Res.ok.injEq] at h
    subst h; rfl
  | n + 1, T, p, h => by
    unfold readTnsFlags at h
    obtain ⟨⟨b, r⟩, h1, h⟩ := bind_ok_inv h
    have e := readTailBool_ok h1
    simp only at e
    subst e
    obtain ⟨⟨l, r⟩, h2, h⟩ := bind_ok_inv h
    have e := readTnsFlags_ok n h2
    simp only [Res.ok.injEq] at h
    subst h
    simp only at e ⊢
    rw [e]; congr 1; omega

theorem readSnsVq_ok {buf : List Nat} {T : Nat} {p : SnsVq × Reader} (h : readSnsVq buf ⟨0, T⟩ = .ok p) :
    p.2 = ⟨0, T + 38⟩ := by
  unfold readSnsVq at h
  obtain ⟨⟨a, r⟩, h1, h⟩ := bind_ok_inv h
  have e := (readTailUsize_ok_inv (by omega) (by omega) h1).1
  simp only at e; subst e
  obtain ⟨⟨a, r⟩, h1, h⟩ := bind_ok_inv h
  have e := (readTailUsize_ok_inv (by omega) (by omega) h1).1
  simp only at e; subst e
  obtain ⟨⟨msb, r⟩, h1, h⟩ := bind_ok_inv h
  have e := readTailBool_ok h1
  simp only at e; subst e
  obtain ⟨⟨a, r⟩, h1, h⟩ := bind_ok_inv h
  have e := (readTailUsize_ok_inv (by split <;> omega) (by split <;> omega) h1).1
  simp only at e; subst e
  obtain ⟨⟨a, r⟩, h1, h⟩ := bind_ok_inv h
  have e := readTailBool_ok h1
  simp only at e; subst e
  obtain ⟨⟨a, r⟩, h1, h⟩ := bind_ok_inv h
  have e := (readTailUsize_ok_inv (by split <;> omega) (by split <;> omega) h1).1
  simp only at e; subst e
  obtain ⟨v, -, h⟩ := bind_ok_inv h
  simp only [Res.ok.injEq] at h
  subst h
  cases msb <;> simp

theorem readLtpfInfo_ok {buf : List Nat} {T : Nat} {pp : Bool} {p : LtpfInfo × Reader}
    (h : readLtpfInfo buf ⟨0, T⟩ pp = .ok p) : ∃ T', p.2 = ⟨0, T'⟩ ∧ T ≤ T' := by
  unfold readLtpfInfo at h
  cases pp
  · simp only [Bool.false_eq_true, if_false, Res.ok.injEq] at h
    subst h; exact ⟨T, rfl, le_refl _⟩
  · simp only [if_true] at h
    obtain ⟨⟨a, r⟩, h1, h⟩ := bind_ok_inv h
    have e := readTailBool_ok h1
    simp only at e; subst e
    obtain ⟨⟨a, r⟩, h1, h⟩ := bind_ok_inv h
    have e := (readTailUsize_ok_inv (by omega) (by omega) h1).1
    simp only at e; subst e
    simp only [Res.ok.injEq] at h
    subst h; exact ⟨_, rfl, by omega⟩

/-- side information that was read fits the frame -/
theorem readSideInfo_long {buf : List Nat} {cfg : Lc3Config} {nb L : Nat} (hfs : cfg.fsInd ≤ 4)
    (hnb : NBITS_BW_TABLE.getD cfg.fsInd 0 = nb) (hL : clog2 (cfg.ne / 2) = L) (hL1 : 1 ≤ L) (hL2 : L ≤ 8)
    {p : SideInfo × Reader} (h : readSideInfo buf Reader.new cfg.fsInd cfg.ne = .ok p) :
    (nb + L + 49) / 8 + 1 ≤ buf.length := by
  unfold readSideInfo at h
  obtain ⟨⟨bw, r⟩, h1, h⟩ := bind_ok_inv h
  have e := ((safe_readBandwidth hfs).of_ok h1).2
  rw [hnb] at e
  simp only at e; subst e
  rw [hL] at h
  obtain ⟨⟨lz, r⟩, h1, h⟩ := bind_ok_inv h
  have e := (readTailUsize_ok_inv hL1 (by omega) h1).1
  simp only at e; subst e
  simp only at h
  split at h
  · simp at h
  obtain ⟨⟨a, r⟩, h1, h⟩ := bind_ok_inv h
  have e := readTailBool_ok h1
  simp only at e; subst e
  obtain ⟨⟨a, r⟩, h1, h⟩ := bind_ok_inv h
  have e := (readTailUsize_ok_inv (by omega) (by omega) h1).1
  simp only at e; subst e
  obtain ⟨n, hn⟩ : ∃ n, n = if bw < 3 then 1 else 2 := ⟨_, rfl⟩
  have hn1 : 1 ≤ n := by rw [hn]; split <;> omega
  simp only [← hn] at h
  obtain ⟨⟨a, r⟩, h1, h⟩ := bind_ok_inv h
  have e := readTnsFlags_ok _ h1
  simp only at e; subst e
  obtain ⟨⟨a, r⟩, h1, h⟩ := bind_ok_inv h
  have e := readTailBool_ok h1
  simp only at e; subst e
  obtain ⟨⟨a, r⟩, h1, h⟩ := bind_ok_inv h
  have e := readSnsVq_ok h1
  simp only at e; subst e
  obtain ⟨⟨a, r⟩, h1, h⟩ := bind_ok_inv h
  obtain ⟨T', e, hT⟩ := readLtpfInfo_ok h1
  simp only at e; subst e
  obtain ⟨⟨a, r⟩, h1, h⟩ := bind_ok_inv h
  have e := (readTailUsize_ok_inv (by omega) (by omega) h1).2
  simp only [Nat.zero_add] at e
  have : (nb + L + 49) / 8 ≤ T' / 8 := Nat.div_le_div_right (by omega)
  omega

theorem readFrame_long {f : SamplingFrequency} {d : FrameDuration} {checks : Bool} {buf : List Nat}
    {p : SideInfo × ArithmeticData × List Int} (h : readFrame checks (Lc3Config.new f d) buf = .ok p) :
    buf.length ∉ shortLens f d := by
  unfold readFrame at h
  obtain ⟨⟨si, r⟩, h1, -⟩ := bind_ok_inv h
  have key := fun nb L hfs hnb hL hL1 hL2 =>
    readSideInfo_long (cfg := Lc3Config.new f d) (nb := nb) (L := L) hfs hnb hL hL1 hL2 h1
  intro hm
  have hk : ((NBITS_BW_TABLE.getD (Lc3Config.new f d).fsInd 0 + clog2 ((Lc3Config.new f d).ne / 2) + 49) / 8 + 1) ≤ buf.length :=
    key _ _ (by cases f <;> cases d <;> decide) rfl rfl (by cases f <;> cases d <;> decide) (by cases f <;> cases d <;> decide)
  have hs : ∀ n ∈ shortLens f d, n < (NBITS_BW_TABLE.getD (Lc3Config.new f d).fsInd 0 +
      clog2 ((Lc3Config.new f d).ne / 2) + 49) / 8 + 1 := by
    cases f <;> cases d <;> decide
  exact absurd hk (Nat.not_le_of_lt (hs _ hm))

theorem noiseFillingSeed_checks (x : List Int) : noiseFillingSeed true x = .panic ∨
    noiseFillingSeed true x = noiseFillingSeed false x := by
  unfold noiseFillingSeed
  simp only [Bool.true_and, Bool.false_and, decide_eq_true_eq, Bool.false_eq_true, if_false]
  split
  · exact .inl rfl
  · exact .inr rfl

theorem bind_checks {β γ : Type} {x y : Res β} {k : β → Res γ} (h : x = .panic ∨ x = y) :
    (x >>= k) = .panic ∨ (x >>= k) = (y >>= k) := by
  rcases h with rfl | rfl
  · exact .inl rfl
  · exact .inr rfl

theorem bind_checks2 {β γ : Type} {x : Res β} {k l : β → Res γ} (h : ∀ a, k a = .panic ∨ k a = l a) :
    (x >>= k) = .panic ∨ (x >>= k) = (x >>= l) := by
  cases x with
  | ok a => exact h a
  | err => exact .inr rfl
  | panic => exact .inr rfl

/-- a build with overflow checks parses as one without or panics -/
theorem readFrame_checks (cfg : Lc3Config) (buf : List Nat) :
    readFrame true cfg buf = .panic ∨ readFrame true cfg buf = readFrame false cfg buf := by
  unfold readFrame
  apply bind_checks2
  rintro ⟨si, r⟩
  apply bind_checks
  unfold arithDecode
  apply bind_checks2; intro _
  apply bind_checks2; intro _
  apply bind_checks2; intro _
  apply bind_checks2; intro _
  apply bind_checks
  exact noiseFillingSeed_checks _

theorem decodeSpectrum_checks (cfg : Lc3Config) (ch : DecChannel α) (buf : List Nat) :
    decodeSpectrum true cfg ch buf = .panic ∨ decodeSpectrum true cfg ch buf = decodeSpectrum false cfg ch buf := by
  unfold decodeSpectrum
  rcases readFrame_checks cfg buf with h | h
  · rw [h]; exact .inl rfl
  · rw [h]; exact .inr rfl

theorem decodeChannel_checks (cfg : Lc3Config) (ch : DecChannel α) (bits : Nat) (buf : List Nat) (out : List Int) :
    decodeChannel true cfg ch bits buf out = .panic ∨
      decodeChannel true cfg ch bits buf out = decodeChannel false cfg ch bits buf out := by
  unfold decodeChannel
  split
  · exact .inr rfl
  · exact bind_checks (decodeSpectrum_checks _ _ _)

/-- frames of every length keep the invariant -/
theorem decodeChannel_inv {f : SamplingFrequency} {d : FrameDuration} {ch : DecChannel α} (h : ChInv f d ch)
    {checks : Bool} {bits : Nat} {buf : List Nat} {out : List Int} {r : DecResult × DecChannel α × List Int}
    (e : decodeChannel checks (Lc3Config.new f d) ch bits buf out = .ok r) :
    ChInv f d r.2.1 ∧ r.2.2.length = out.length := by
  have e' : decodeChannel false (Lc3Config.new f d) ch bits buf out = .ok r := by
    cases checks with
    | false => exact e
    | true =>
      rcases decodeChannel_checks (Lc3Config.new f d) ch bits buf out with h | h
      · rw [h] at e; simp at e
      · rw [← h]; exact e
  by_cases hb : buf.length ∈ shortLens f d
  · unfold decodeChannel at e'
    split at e'
    · simp only [Res.ok.injEq] at e'
      subst e'; exact ⟨h, rfl⟩
    · have hs : decodeSpectrum false (Lc3Config.new f d) ch buf = .panic ∨
          decodeSpectrum false (Lc3Config.new f d) ch buf = .ok
            ((ch.plc.loadInto ch.specLines).2, (ch.plc.loadInto ch.specLines).1, lostLtpfInfo) := by
        unfold decodeSpectrum
        cases e2 : readFrame false (Lc3Config.new f d) buf with
        | ok p => exact absurd hb (readFrame_long e2)
        | err => exact .inr rfl
        | panic => exact .inl rfl
      rcases hs with hs | hs
      · rw [hs] at e'; simp at e'
      rw [hs] at e'
      simp only [Res.bind_ok] at e'
      rw [if_neg (by simp [h.freq])] at e'
      obtain ⟨⟨ola, freq⟩, h1, e'⟩ := bind_ok_inv e'
      have hl : (ch.plc.loadInto ch.specLines).2.length = (Lc3Config.new f d).ne := by
        simp [Plc.loadInto, plcLoop_length, h.spec]
      obtain ⟨h6, h7⟩ := (safe_mdctDecRun hl h.ola).of_ok h1
      obtain ⟨s', o, e3, hi, hl3⟩ := ltpfRun_inv h.ltpf (info := lostLtpfInfo) (by decide) (buf.length * 8) h7
      simp only at e3 e'
      rw [e3] at e'
      simp only [Res.bind_ok, Res.ok.injEq] at e'
      subst e'
      exact ⟨⟨hl, hl3, h.plcLen, h.plcNe, plcLoop_seed _ _ _ _ h.plcSeed, h6, hi⟩, scaleAndRound_length _ _⟩
  · exact (safe_decodeChannel h hb).of_ok e'

/-- a frame that the parser rejects is concealed and the call returns -/
theorem decodeChannel_err {f : SamplingFrequency} {d : FrameDuration} {ch : DecChannel α} (h : ChInv f d ch)
    {checks : Bool} {buf : List Nat} (he : readFrame checks (Lc3Config.new f d) buf = .err) (out : List Int) :
    ∃ ch' out', decodeChannel checks (Lc3Config.new f d) ch 16 buf out = .ok (.ok, ch', out') := by
  unfold decodeChannel decodeSpectrum
  rw [if_neg (by simp), he]
  simp only [Res.bind_ok]
  rw [if_neg (by simp [h.freq])]
  have hl : (ch.plc.loadInto ch.specLines).2.length = (Lc3Config.new f d).ne := by
    simp [Plc.loadInto, plcLoop_length, h.spec]
  have hm := safe_mdctDecRun (f := f) (d := d) hl h.ola
  have hn := noErr_mdctDecRun (Lc3Config.new f d) ch.memOla (ch.plc.loadInto ch.specLines).2
  cases e : mdctDecRun (Lc3Config.new f d) ch.memOla (ch.plc.loadInto ch.specLines).2 with
  | err => exact absurd e hn
  | panic => rw [e] at hm; exact hm.elim
  | ok p =>
    obtain ⟨ola, freq⟩ := p
    rw [e] at hm
    obtain ⟨s', o, e3, -, -⟩ := ltpfRun_inv h.ltpf (info := lostLtpfInfo) (by decide) (buf.length * 8) hm.2
    simp only [Res.bind_ok] at e3 ⊢
    rw [e3]
    exact ⟨_, _, rfl⟩

end Lc3
