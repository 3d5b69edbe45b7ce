import Verif.Model.Decoder
import Verif.Lemmas.SafeFrame
import Verif.Lemmas.SafeSpectrum
import Verif.Lemmas.SafeMdct
import Verif.Lemmas.Ltpf3
import Verif.Lemmas.NoErr
/-! The decoder channel: invariant and absence of panics. -/

namespace Lc3
open Scalar Tables Spec
variable {α : Type} [Scalar α]

/-- lengths and positions of the post filter state -/
structure LtpfInv (f : SamplingFrequency) (d : FrameDuration) (s : Ltpf α) : Prop where
  cn : s.cNum.length = lDenOf (Lc3Config.new f d).fs - 1
  cd : s.cDen.length = lDenOf (Lc3Config.new f d).fs + 1
  blkDvd : (Lc3Config.new f d).nf ∣ s.blockStart
  blk : s.blockStart + (Lc3Config.new f d).nf ≤ ringSize (Lc3Config.new f d)
  xl : s.xMem.length = ringSize (Lc3Config.new f d)
  yl : s.yMem.length = ringSize (Lc3Config.new f d)
  lag : s.activePrev = true → LagOk (ringSize (Lc3Config.new f d)) (lDenOf (Lc3Config.new f d).fs) s.pIntMem

/-- the contents of a circular memory as a signal -/
def ringSignal (mem : List α) (ring : Nat) : Int → α := fun t => mem.getD (t % (ring : Int)).toNat zero

theorem nf_pos (f : SamplingFrequency) (d : FrameDuration) : 0 < (Lc3Config.new f d).nf := by
  cases f <;> cases d <;> decide

theorem ring_pos (f : SamplingFrequency) (d : FrameDuration) : 0 < ringSize (Lc3Config.new f d) := by
  cases f <;> cases d <;> decide

theorem LtpfInv.rel {f : SamplingFrequency} {d : FrameDuration} {s : Ltpf α} (h : LtpfInv f d s) :
    LtpfRel f d s s.blockStart (ringSignal s.xMem (ringSize (Lc3Config.new f d)))
      (ringSignal s.yMem (ringSize (Lc3Config.new f d))) :=
  ⟨h.cn, h.cd, by simp, h.blkDvd, h.blk, Ring.exists h.xl (ring_pos f d) _ _,
    Ring.exists h.yl (ring_pos f d) _ _, h.lag⟩

theorem LtpfRel.inv {f : SamplingFrequency} {d : FrameDuration} {s : Ltpf α} {T : Int} {x y : Int → α}
    (h : LtpfRel f d s T x y) : LtpfInv f d s :=
  ⟨h.cn, h.cd, h.blkDvd, h.blk, h.rx.1, h.ry.1, h.lag⟩

theorem ltpfRun_inv {f : SamplingFrequency} {d : FrameDuration} {s : Ltpf α} (h : LtpfInv f d s) {info : LtpfInfo}
    (hp : info.pitchIndex < 512) (nbits : Nat) {fr : List α} (hfr : fr.length = (Lc3Config.new f d).nf) :
    ∃ s' out, ltpfRun (Lc3Config.new f d) s info nbits fr = .ok (s', out) ∧ LtpfInv f d s' ∧
      out.length = (Lc3Config.new f d).nf := by
  obtain ⟨s', out, y', e, r, -, ho, -, -⟩ := ltpfRun_ok h.rel hp nbits hfr
  exact ⟨s', out, e, r.inv, by simp [ho]⟩

/-- The invariant of a decoder channel: its buffers have the lengths given at construction. -/
structure ChInv (f : SamplingFrequency) (d : FrameDuration) (ch : DecChannel α) : Prop where
  spec : ch.specLines.length = (Lc3Config.new f d).ne
  freq : ch.freqSamples.length = (Lc3Config.new f d).nf
  plcLen : ch.plc.lastGood.length = (Lc3Config.new f d).ne
  plcNe : ch.plc.ne = (Lc3Config.new f d).ne
  plcSeed : ch.plc.seed < 65536
  ola : ch.memOla.length = (Lc3Config.new f d).nf - (Lc3Config.new f d).z
  ltpf : LtpfInv f d ch.ltpf

theorem plcLoop_length (a : α) : ∀ (cur good : List α) (seed : Nat), (plcLoop a seed cur good).1.length = cur.length
  | [], _, _ => by simp [plcLoop]
  | c :: cur, [], _ => by simp [plcLoop]
  | c :: cur, g :: good, seed => by simp [plcLoop, plcLoop_length a cur good]

theorem plcLoop_seed (a : α) : ∀ (cur good : List α) (seed : Nat), seed < 65536 → (plcLoop a seed cur good).2 < 65536
  | [], _, _, h => by simpa [plcLoop] using h
  | c :: cur, [], _, h => by simpa [plcLoop] using h
  | c :: cur, g :: good, seed, h => by
    simp only [plcLoop]
    exact plcLoop_seed a cur good _ (lt_of_le_of_lt Nat.and_le_right (by norm_num))

theorem tnsBands_config {f : SamplingFrequency} {d : FrameDuration} {bw : Nat} (h : bw ≤ (Lc3Config.new f d).fsInd)
    (h4 : bw ≤ 4) : ∀ p ∈ tnsBandsDec (Lc3Config.new f d).nMs bw, p.2 ≤ (Lc3Config.new f d).ne := by
  have key : ∀ bw < 5, bw ≤ (Lc3Config.new f d).fsInd →
      ∀ p ∈ tnsBandsDec (Lc3Config.new f d).nMs bw, p.2 ≤ (Lc3Config.new f d).ne := by
    cases f <;> cases d <;> decide +kernel
  exact key bw (by omega) h

theorem zipInto_length {old new : List α} (h : old.length ≤ new.length) : (zipInto old new).length = old.length := by
  rw [zipInto_eq h]; simp; omega

theorem safe_dequantise {f : SamplingFrequency} {d : FrameDuration} {lines : List α} {si : SideInfo}
    {ad : ArithmeticData} {x : List Int} {nbits : Nat} (hs : SideBounds (Lc3Config.new f d) si)
    (hd : DataBounds (Lc3Config.new f d) si nbits ad x) (hl : lines.length = (Lc3Config.new f d).ne) :
    Safe (dequantise (Lc3Config.new f d) lines si ad x) (fun l => l.length = (Lc3Config.new f d).ne) := by
  have hne : (Lc3Config.new f d).ne ≤ 400 := by cases f <;> cases d <;> decide
  have hx := hd.lines
  unfold dequantise
  rw [if_neg (by omega)]
  have hz : (zipInto lines ((x.take (Lc3Config.new f d).ne).map (ofInt : Int → α))).length = lines.length :=
    zipInto_length (by simp; omega)
  refine (safe_noiseFilling hs.bw4 hd.seed hx).bind ?_
  intro l1 h1
  rw [residualDecode_length, hz, hl] at h1
  rw [safe_ok, globalGain_length, h1]

theorem safe_specFromFrame {f : SamplingFrequency} {d : FrameDuration} {lines : List α} {si : SideInfo}
    {ad : ArithmeticData} {x : List Int} {nbits : Nat} (hs : SideBounds (Lc3Config.new f d) si)
    (hd : DataBounds (Lc3Config.new f d) si nbits ad x) (hl : lines.length = (Lc3Config.new f d).ne) :
    Safe (specFromFrame (Lc3Config.new f d) lines si ad x) (fun l => l.length = (Lc3Config.new f d).ne) := by
  unfold specFromFrame
  refine (safe_dequantise hs hd hl).bind ?_
  intro l1 h1
  refine (safe_tnsDecode ?_ ?_ hd.orders.2 hd.idxs.1).bind ?_
  · rw [h1]; exact tnsBands_config hs.bw hs.bw4
  · rw [hd.orders.1, hs.numTns]; split <;> omega
  · intro l2 h2
    rw [h1] at h2
    exact safe_snsDecode hs h2

theorem safe_decodeSpectrum {f : SamplingFrequency} {d : FrameDuration} {ch : DecChannel α} (h : ChInv f d ch)
    {buf : List Nat} (hb : buf.length ∉ shortLens f d) :
    Safe (decodeSpectrum false (Lc3Config.new f d) ch buf) (fun p => p.1.length = (Lc3Config.new f d).ne ∧
      p.2.1.lastGood.length = (Lc3Config.new f d).ne ∧ p.2.1.ne = (Lc3Config.new f d).ne ∧ p.2.1.seed < 65536 ∧
      p.2.2.pitchIndex < 512) := by
  have hr := safe_readFrame f d buf hb
  unfold decodeSpectrum
  cases e : readFrame false (Lc3Config.new f d) buf with
  | panic => rw [e] at hr; exact hr.elim
  | err =>
    simp only [safe_ok]
    refine ⟨?_, h.plcLen, h.plcNe, ?_, by decide⟩
    · simp [Plc.loadInto, plcLoop_length, h.spec]
    · exact plcLoop_seed _ _ _ _ h.plcSeed
  | ok p =>
    obtain ⟨si, ad, x⟩ := p
    rw [e] at hr
    obtain ⟨h1, h2⟩ := hr
    refine (safe_specFromFrame h1 h2 h.spec).bind ?_
    intro l hl
    have hpl := h.plcLen
    have hpn := h.plcNe
    unfold Plc.save
    rw [if_neg (by omega)]
    exact ⟨hl, by simp [hl, hpl, hpn], hpn, h.plcSeed, h1.pitch⟩

theorem scaleAndRound_length : ∀ (l : List α) (o : List Int), (scaleAndRound l o).length = o.length
  | [], _ => by simp [scaleAndRound]
  | x :: xs, [] => by simp [scaleAndRound]
  | x :: xs, _ :: o => by simp [scaleAndRound, scaleAndRound_length xs o]

theorem safe_decodeChannel {f : SamplingFrequency} {d : FrameDuration} {ch : DecChannel α} (h : ChInv f d ch)
    {bits : Nat} {buf : List Nat} {out : List Int} (hb : buf.length ∉ shortLens f d) :
    Safe (decodeChannel false (Lc3Config.new f d) ch bits buf out) (fun p => ChInv f d p.2.1 ∧
      p.2.2.length = out.length) := by
  unfold decodeChannel
  refine Safe.ite (fun _ => ⟨h, rfl⟩) (fun _ => ?_)
  refine (safe_decodeSpectrum h hb).bind ?_
  rintro ⟨lines, plc, info⟩ ⟨h1, h2, h3, h4, h5⟩
  simp only at h1 h2 h3 h4 h5 ⊢
  rw [if_neg (by simp [h.freq])]
  refine (safe_mdctDecRun h1 h.ola).bind ?_
  rintro ⟨ola, freq⟩ ⟨h6, h7⟩
  simp only at h6 h7 ⊢
  obtain ⟨s', o, e, hi, hl⟩ := ltpfRun_inv h.ltpf h5 (buf.length * 8) h7
  rw [e]
  exact ⟨⟨h1, hl, h2, h3, h4, h6, hi⟩, scaleAndRound_length _ _⟩

theorem splitAt_ok_iff {β : Type} {l a b : List β} {n : Nat} :
    splitAt l n = .ok (a, b) ↔ n ≤ l.length ∧ a = l.take n ∧ b = l.drop n := by
  unfold splitAt
  split
  · rename_i h
    simp only [Res.ok.injEq, Prod.mk.injEq, h, true_and]
    constructor <;> rintro ⟨rfl, rfl⟩ <;> exact ⟨rfl, rfl⟩
  · rename_i h
    simp [h]

theorem splitAt_ok {β : Type} {l : List β} {n : Nat} (h : n ≤ l.length) : splitAt l n = .ok (l.take n, l.drop n) :=
  splitAt_ok_iff.2 ⟨h, rfl, rfl⟩

theorem noErr_splitAt {β : Type} (l : List β) (n : Nat) : NoErr (splitAt l n) := by
  unfold splitAt; split <;> simp

/-- scalars used by one channel -/
def chanScalars (cfg : Lc3Config) : Nat := cfg.ne + cfg.ne + mdctDecLen cfg + ltpfDecLen cfg
/-- complex numbers used by one channel -/
def chanComplex (cfg : Lc3Config) : Nat := cfg.nf / 2 * 4

theorem decChannelNew_ok {f : SamplingFrequency} {d : FrameDuration} {sb : List α} {cb : List (Cx α)}
    (h1 : chanScalars (Lc3Config.new f d) ≤ sb.length) (h2 : chanComplex (Lc3Config.new f d) ≤ cb.length) :
    ∃ ch, decChannelNew (Lc3Config.new f d) sb cb =
      .ok (ch, sb.drop (chanScalars (Lc3Config.new f d)), cb.drop (chanComplex (Lc3Config.new f d))) ∧ ChInv f d ch := by
  have hne : (Lc3Config.new f d).ne ≤ (Lc3Config.new f d).nf := by cases f <;> cases d <;> decide
  have hz : (Lc3Config.new f d).z ≤ (Lc3Config.new f d).nf := by cases f <;> cases d <;> decide
  have hL := (ltpf_dims f d).two
  have hmb : (Lc3Config.new f d).nf ≤ ringSize (Lc3Config.new f d) := by cases f <;> cases d <;> decide
  obtain ⟨w, hw, -⟩ := windowOf_ok f d
  obtain ⟨fac, hfac, -⟩ := kfFactor_sizes _ (fftSizes_config f d).1
  unfold chanScalars mdctDecLen ltpfDecLen at h1
  unfold chanComplex at h2
  simp only at h1
  obtain ⟨cfg, hcfg⟩ : ∃ cfg, cfg = Lc3Config.new f d := ⟨_, rfl⟩
  rw [← hcfg] at h1 h2 hne hz hL hmb hw hfac
  have hsplit : ∀ {β : Type} (l : List β) (a n : Nat), a + n ≤ l.length →
      splitAt (l.drop a) n = .ok ((l.drop a).take n, l.drop (a + n)) := by
    intro β l a n h
    rw [splitAt_ok (by simp; omega), List.drop_drop]
  have hsp : splitAt sb cfg.ne = .ok (sb.take cfg.ne, sb.drop cfg.ne) := splitAt_ok (by omega)
  have hcp : splitAt cb (cfg.nf / 2) = .ok (cb.take (cfg.nf / 2), cb.drop (cfg.nf / 2)) := splitAt_ok (by omega)
  have hu1 : usub cfg.nf cfg.z = .ok (cfg.nf - cfg.z) := by unfold usub; rw [if_pos hz]
  have hu2 : usub cfg.nf cfg.ne = .ok (cfg.nf - cfg.ne) := by unfold usub; rw [if_pos hne]
  unfold decChannelNew Plc.new mdctDecNew dctNew Ltpf.new
  rw [← hcfg]
  simp only [hsp, hcp, hfac, hw, hu1, hu2, Res.bind_ok]
  rw [hsplit cb _ _ (by omega)]
  simp only [Res.bind_ok]
  rw [hsplit cb _ _ (by omega)]
  simp only [Res.bind_ok]
  rw [hsplit cb _ _ (by omega)]
  simp only [Res.bind_ok]
  rw [hsplit sb _ _ (by omega)]
  simp only [Res.bind_ok]
  rw [hsplit sb _ _ (by omega)]
  simp only [Res.bind_ok]
  rw [hsplit sb _ _ (by omega)]
  simp only [Res.bind_ok]
  rw [hsplit sb _ _ (by omega)]
  simp only [Res.bind_ok]
  rw [hsplit sb _ _ (by omega)]
  simp only [Res.bind_ok]
  rw [hsplit sb _ _ (by omega)]
  simp only [Res.bind_ok]
  rw [hsplit sb _ _ (by omega)]
  simp only [Res.bind_ok]
  rw [hsplit sb _ _ (by omega)]
  simp only [Res.bind_ok]
  rw [hsplit sb _ _ (by omega)]
  simp only [Res.bind_ok]
  rw [hsplit sb _ _ (by omega)]
  simp only [Res.bind_ok]
  rw [hsplit sb _ _ (by omega)]
  simp only [Res.bind_ok]
  rw [hsplit sb _ _ (by omega)]
  simp only [Res.bind_ok]
  rw [hsplit sb _ _ (by omega)]
  simp only [Res.bind_ok]
  rw [hsplit sb _ _ (by omega)]
  simp only [Res.bind_ok]
  have hfin : ∀ (ch : DecChannel α) (a a' : List α) (b b' : List (Cx α)), a = a' → b = b' → ChInv f d ch →
      ∃ ch', Res.ok (ch, a, b) = .ok (ch', a', b') ∧ ChInv f d ch' := by
    rintro ch a _ b _ rfl rfl h; exact ⟨ch, rfl, h⟩
  apply hfin
  · congr 1
    unfold chanScalars mdctDecLen ltpfDecLen
    simp only
    omega
  · congr 1
    unfold chanComplex
    omega
  · have hlen : ∀ (a n : Nat), a + n ≤ sb.length → ((sb.drop a).take n).length = n := by
      intro a n h; simp; omega
    subst hcfg
    refine ⟨by simp; omega, hlen _ _ (by omega), hlen _ _ (by omega), rfl, show 24607 < 65536 by omega, hlen _ _ (by omega),
      ⟨(hlen _ _ (by omega)).trans (by omega), hlen _ _ (by omega), by simp, by simpa using hmb, hlen _ _ (by omega),
        hlen _ _ (by omega), by simp⟩⟩

theorem bind_splitAt {β γ : Type} {l : List β} {n : Nat} {k : List β × List β → Res γ} {r : γ}
    (h : (splitAt l n >>= k) = .ok r) : n ≤ l.length ∧ k (l.take n, l.drop n) = .ok r := by
  unfold splitAt at h
  split at h
  · exact ⟨‹_›, h⟩
  · exact absurd h (by simp)

theorem bind_ok_inv {β γ : Type} {x : Res β} {k : β → Res γ} {r : γ} (h : (x >>= k) = .ok r) :
    ∃ a, x = .ok a ∧ k a = .ok r := by
  cases x with
  | ok a => exact ⟨a, rfl, h⟩
  | err => simp at h
  | panic => simp at h

theorem usub_ok_inv {a b c : Nat} (h : usub a b = .ok c) : c = a - b := by
  unfold usub at h
  split at h
  · simpa using h.symm
  · simp at h

theorem plcNew_uses {ne : Nat} {sb sb' : List α} {p : Plc α} (h : Plc.new ne sb = .ok (p, sb')) :
    sb'.length + ne = sb.length := by
  obtain ⟨s1, h⟩ := bind_splitAt h
  cases h
  simp; omega

theorem dctNew_uses {nf : Nat} {cb cb' : List (Cx α)} (h : dctNew nf cb = .ok cb') :
    cb'.length + nf / 2 * 4 = cb.length := by
  obtain ⟨s1, h⟩ := bind_splitAt h
  obtain ⟨_, -, h⟩ := bind_ok_inv h
  obtain ⟨s2, h⟩ := bind_splitAt h
  obtain ⟨s3, h⟩ := bind_splitAt h
  obtain ⟨s4, h⟩ := bind_splitAt h
  cases h
  simp only [List.length_drop] at *
  omega

theorem mdctDecNew_uses {cfg : Lc3Config} {sb sb' m : List α} {cb cb' : List (Cx α)}
    (h : mdctDecNew cfg sb cb = .ok (m, sb', cb')) :
    sb'.length + (cfg.nf - cfg.z) + cfg.nf * 2 + (cfg.nf - cfg.ne) + cfg.nf / 2 = sb.length ∧
    cb'.length + cfg.nf / 2 * 4 = cb.length := by
  obtain ⟨cb1, h1, h⟩ := bind_ok_inv h
  have hc := dctNew_uses h1
  obtain ⟨u1, hu1, h⟩ := bind_ok_inv h
  obtain ⟨s1, h⟩ := bind_splitAt h
  obtain ⟨s2, h⟩ := bind_splitAt h
  obtain ⟨u2, hu2, h⟩ := bind_ok_inv h
  obtain ⟨s3, h⟩ := bind_splitAt h
  obtain ⟨s4, h⟩ := bind_splitAt h
  obtain ⟨_, -, h⟩ := bind_ok_inv h
  have e1 := usub_ok_inv hu1
  have e2 := usub_ok_inv hu2
  simp only [Res.ok.injEq, Prod.mk.injEq] at h
  obtain ⟨-, rfl, rfl⟩ := h
  simp only [List.length_drop] at *
  omega

theorem ltpfNew_uses {cfg : Lc3Config} {sb sb' : List α} {s : Ltpf α} (h : Ltpf.new cfg sb = .ok (s, sb')) :
    sb'.length + ltpfDecLen cfg = sb.length := by
  obtain ⟨s1, h⟩ := bind_splitAt h
  obtain ⟨s2, h⟩ := bind_splitAt h
  obtain ⟨s3, h⟩ := bind_splitAt h
  obtain ⟨s4, h⟩ := bind_splitAt h
  obtain ⟨s5, h⟩ := bind_splitAt h
  obtain ⟨s6, h⟩ := bind_splitAt h
  obtain ⟨s7, h⟩ := bind_splitAt h
  obtain ⟨s8, h⟩ := bind_splitAt h
  simp only [Res.ok.injEq, Prod.mk.injEq] at h
  obtain ⟨-, rfl⟩ := h
  unfold ltpfDecLen
  simp only [List.length_drop] at *
  omega

/-- construction uses exactly the advertised amounts -/
theorem decChannelNew_uses {cfg : Lc3Config} {sb sb' : List α} {cb cb' : List (Cx α)} {ch : DecChannel α}
    (h : decChannelNew cfg sb cb = .ok (ch, sb', cb')) :
    sb'.length + chanScalars cfg = sb.length ∧ cb'.length + chanComplex cfg = cb.length := by
  obtain ⟨s1, h⟩ := bind_splitAt h
  obtain ⟨⟨p, sb1⟩, h1, h⟩ := bind_ok_inv h
  obtain ⟨⟨m, sb2, cb1⟩, h2, h⟩ := bind_ok_inv h
  obtain ⟨⟨l, sb3⟩, h3, h⟩ := bind_ok_inv h
  obtain ⟨s4, h⟩ := bind_splitAt h
  have e1 := plcNew_uses h1
  have e2 := mdctDecNew_uses h2
  have e3 := ltpfNew_uses h3
  simp only [Res.ok.injEq, Prod.mk.injEq] at h
  obtain ⟨-, rfl, rfl⟩ := h
  unfold chanScalars mdctDecLen chanComplex
  simp only [List.length_drop] at *
  omega

theorem decChannelsNew_uses {cfg : Lc3Config} : ∀ {n : Nat} {sb sb' : List α} {cb cb' : List (Cx α)}
    {chs : List (DecChannel α)}, decChannelsNew cfg n sb cb = .ok (chs, sb', cb') →
    sb'.length + n * chanScalars cfg = sb.length ∧ cb'.length + n * chanComplex cfg = cb.length ∧ chs.length = n
  | 0, _, _, _, _, _, h => by
    simp only [decChannelsNew, Res.ok.injEq, Prod.mk.injEq] at h
    obtain ⟨rfl, rfl, rfl⟩ := h
    simp
  | n + 1, sb, sb', cb, cb', chs, h => by
    obtain ⟨⟨ch, sb1, cb1⟩, h1, h⟩ := bind_ok_inv h
    obtain ⟨⟨chs1, sb2, cb2⟩, h2, h⟩ := bind_ok_inv h
    obtain ⟨a1, a2⟩ := decChannelNew_uses h1
    obtain ⟨b1, b2, b3⟩ := decChannelsNew_uses h2
    simp only [Res.ok.injEq, Prod.mk.injEq] at h
    obtain ⟨rfl, rfl, rfl⟩ := h
    rw [Nat.succ_mul, Nat.succ_mul]
    refine ⟨by omega, by omega, by simp [b3]⟩

theorem decChannelsNew_ok {f : SamplingFrequency} {d : FrameDuration} : ∀ {n : Nat} {sb : List α} {cb : List (Cx α)},
    n * chanScalars (Lc3Config.new f d) ≤ sb.length → n * chanComplex (Lc3Config.new f d) ≤ cb.length →
    ∃ chs, decChannelsNew (Lc3Config.new f d) n sb cb = .ok (chs, sb.drop (n * chanScalars (Lc3Config.new f d)),
      cb.drop (n * chanComplex (Lc3Config.new f d))) ∧ chs.length = n ∧ ∀ ch ∈ chs, ChInv f d ch
  | 0, sb, cb, _, _ => ⟨[], by simp [decChannelsNew], rfl, by simp⟩
  | n + 1, sb, cb, h1, h2 => by
    rw [Nat.succ_mul] at h1 h2
    obtain ⟨ch, e, hi⟩ := decChannelNew_ok (f := f) (d := d) (sb := sb) (cb := cb) (by omega) (by omega)
    obtain ⟨chs, e2, hl, hi2⟩ := decChannelsNew_ok (n := n) (f := f) (d := d)
      (sb := sb.drop (chanScalars (Lc3Config.new f d))) (cb := cb.drop (chanComplex (Lc3Config.new f d)))
      (by rw [List.length_drop]; omega) (by rw [List.length_drop]; omega)
    refine ⟨ch :: chs, ?_, by simp [hl], ?_⟩
    · rw [decChannelsNew, e]
      simp only [Res.bind_ok]
      rw [e2]
      simp only [Res.bind_ok, List.drop_drop, Nat.succ_mul]
      rw [Nat.add_comm (chanScalars _), Nat.add_comm (chanComplex _)]
    · intro c hc
      rcases List.mem_cons.1 hc with rfl | hc
      · exact hi
      · exact hi2 c hc

theorem noErr_decChannelNew (cfg : Lc3Config) (sb : List α) (cb : List (Cx α)) : NoErr (decChannelNew cfg sb cb) := by
  unfold decChannelNew Plc.new mdctDecNew dctNew Ltpf.new kfFactor
  have hs : ∀ {β : Type} (l : List β) (n : Nat), NoErr (splitAt l n) := fun l n => noErr_splitAt l n
  have hw : ∀ (d : FrameDuration) (n : Nat), NoErr (windowOf d n) := by
    intro d n; unfold windowOf; split <;> no_err
  repeat' first
    | exact noErr_ok _
    | exact hs _ _
    | exact hw _ _
    | exact noErr_kfFactorLoop _ _ _ _
    | exact noErr_usub _ _
    | apply NoErr.bind
    | intro _

theorem noErr_decChannelsNew (cfg : Lc3Config) : ∀ (n : Nat) (sb : List α) (cb : List (Cx α)),
    NoErr (decChannelsNew cfg n sb cb)
  | 0, _, _ => noErr_ok _
  | n + 1, sb, cb => by
    rw [decChannelsNew]
    exact (noErr_decChannelNew _ _ _).bind fun _ => (noErr_decChannelsNew cfg n _ _).bind fun _ => noErr_ok _

end Lc3
