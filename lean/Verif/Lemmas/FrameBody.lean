import Verif.Lemmas.TnsEvents
import Verif.Lemmas.PairEvents
import Verif.Lemmas.SideInfo
import Verif.Lemmas.PtrInv
/-! The whole frame: encoder as one event list, decoder on the finished frame. -/

namespace Lc3
open Tables

theorem Res.bind_congr' {α β} {x : Res α} {f g : α → Res β} (h : ∀ a, x = .ok a → f a = g a) :
    (x >>= f) = (x >>= g) := by
  cases x with
  | ok a => exact h a rfl
  | err => rfl
  | panic => rfl

def initAc : AcEnc := ⟨0, 0x00ffffff, -1, 0, 0⟩

theorem bool_ac (s : EncSt) (b : Bool) (ac : AcEnc) :
    ({ s with ac := ac } : EncSt).bool b = (s.bool b >>= fun s' => .ok { s' with ac := ac }) := by
  unfold EncSt.bool
  cases s.w.writeBoolBackward s.buf b <;> rfl

theorem encBools_ac (bs : List Bool) (s : EncSt) (ac : AcEnc) :
    encBools bs { s with ac := ac } = (encBools bs s >>= fun s' => .ok { s' with ac := ac }) := by
  induction bs generalizing s with
  | nil => rfl
  | cons b bs ih =>
    simp only [encBools]
    rw [bool_ac]
    simp only [Res.bind_assoc, Res.bind_ok]
    congr 1; funext s'; exact ih s'

/-- all events up to the residual data -/
def bodyEvs (ne : Nat) (p : FrameParams) : List Ev :=
  (sideBits ne p).map .bit ++ (tnsEvs p.lpcWeighting p.rcOrder p.rcI 0 p.numTns ++
    pairsEv p.lsbMode p.rateFlag ne (p.xq.take p.lastnz) 0 0)

theorem bits_valid (bs : List Bool) : ∀ e ∈ bs.map Ev.bit, e.Valid := by
  intro e he; obtain ⟨b', _, rfl⟩ := List.mem_map.1 he; trivial

structure BodyHyp (cfg : Lc3Config) (N : Nat) (p : FrameParams) (q : PulseIdx) : Prop where
  side : SideOk cfg p q
  data : DataOk cfg N p
  nl : p.nbitsLsb ≤ 3840
  lsbs : (pairsLsbs p.lsbMode (p.xq.take p.lastnz)).length ≤ p.nbitsLsb

theorem DataOk.w_lt {cfg : Lc3Config} {N : Nat} {p : FrameParams} (h : DataOk cfg N p) :
    p.lpcWeighting < 2 := by
  rw [h.weighting]; repeat' split
  all_goals omega

theorem DataOk.rate_le {cfg : Lc3Config} {N : Nat} {p : FrameParams} (h : DataOk cfg N p) :
    p.rateFlag ≤ 512 := by rw [h.rate]; split <;> omega

theorem take_len {p : FrameParams} (h : p.lastnz ≤ p.xq.length) (he : p.lastnz % 2 = 0) :
    (p.xq.take p.lastnz).length = 2 * (p.lastnz / 2) := by simp; omega

theorem numTns_le {cfg : Lc3Config} {p : FrameParams} {q : PulseIdx} (h : SideOk cfg p q) :
    0 < p.numTns ∧ p.numTns ≤ 2 := by
  rw [h.numTns]; split <;> omega

theorem tns_valid {cfg : Lc3Config} {N : Nat} {p : FrameParams} {q : PulseIdx} (h : BodyHyp cfg N p q) :
    ∀ e ∈ tnsEvs p.lpcWeighting p.rcOrder p.rcI 0 p.numTns, e.Valid :=
  tnsEvs_valid h.data.w_lt h.data.orders h.data.coefs _ _

theorem pairs_valid {cfg : Lc3Config} {N : Nat} {p : FrameParams} {q : PulseIdx} (h : BodyHyp cfg N p q)
    (ne : Nat) : ∀ e ∈ pairsEv p.lsbMode p.rateFlag ne (p.xq.take p.lastnz) 0 0, e.Valid :=
  pairsEv_valid _ _ _ (p.lastnz / 2) _ _ _ (take_len h.data.lines h.side.lastnzEven) h.data.range

theorem body_valid {cfg : Lc3Config} {N : Nat} {p : FrameParams} {q : PulseIdx} (h : BodyHyp cfg N p q)
    (ne : Nat) : ∀ e ∈ bodyEvs ne p, e.Valid := by
  intro e he
  unfold bodyEvs at he
  rcases List.mem_append.1 he with he | he
  · exact bits_valid _ e he
  rcases List.mem_append.1 he with he | he
  · exact tns_valid h e he
  · exact pairs_valid h ne e he

def startSt (w : Writer) (N : Nat) : EncSt := ⟨w, List.replicate N 0, initAc⟩

/-- the body of `encode` is the run of an event list -/
theorem encodeBody_eq {cfg : Lc3Config} {p : FrameParams} {q : PulseIdx} {buf : List Nat} {stale : EncSt}
    (h : BodyHyp cfg buf.length p q) (hN : 0 < buf.length) (hN2 : buf.length < 65536) (ne : Nat) :
    ∃ w, Writer.new buf.length = .ok w ∧ FrameInv buf.length (startSt w buf.length) [] [] ∧
      encodeBody ne p stale buf = (runEv (bodyEvs ne p) (startSt w buf.length) >>=
        fun s => .ok (pairsLsbs p.lsbMode (p.xq.take p.lastnz), s)) := by
  obtain ⟨w, e1, f1⟩ := FrameInv.new hN hN2 initAc
  refine ⟨w, e1, f1, ?_⟩
  unfold encodeBody
  rw [e1]
  simp only [Res.bind_ok]
  rw [encSideInfo_eq h.side]
  unfold bodyEvs
  rw [runEv_append, runEv_bits]
  have hst : startSt w buf.length =
      { ({ stale with w := w, buf := List.replicate buf.length 0 } : EncSt) with ac := initAc } := rfl
  have hac := encBools_ac (sideBits ne p) { stale with w := w, buf := List.replicate buf.length 0 } initAc
  have hptr0 : PtrInv buf.length (startSt w buf.length) ⟨Abs.init, []⟩ := PtrInv.of_inv f1 CInv.init
  rw [← hst] at hac
  have hconv : (encBools (sideBits ne p) { stale with w := w, buf := List.replicate buf.length 0 } >>= fun s =>
      encTnsData p.lpcWeighting p.rcOrder p.rcI 0 p.numTns (acEncInit s) >>= fun s => encSpectral ne p s) =
      (encBools (sideBits ne p) (startSt w buf.length) >>= fun s =>
      encTnsData p.lpcWeighting p.rcOrder p.rcI 0 p.numTns s >>= fun s => encSpectral ne p s) := by
    rw [hac, Res.bind_assoc]; rfl
  rw [hconv, Res.bind_assoc]
  apply Res.bind_congr'
  intro s1 hs1
  rw [runEv_append]
  obtain ⟨hn0, hn2⟩ := numTns_le h.side
  rw [encTnsData_eq h.data.w_lt h.data.orders h.data.coefs p.numTns 0
    (by have := h.side.rcOrderLen; omega) (by rw [h.data.coefsLen]; omega), Res.bind_assoc]
  apply Res.bind_congr'
  intro s2 hs2
  have hp1 : PtrInv buf.length s1 (ASt.run ⟨Abs.init, []⟩ ((sideBits ne p).map .bit)) :=
    runEv_ptr _ hptr0 (ASt.Ok.init _) (bits_valid _) (by rw [runEv_bits]; exact hs1)
  have hp2 := runEv_ptr _ hp1 ((ASt.Ok.init _).run (bits_valid _)) (tns_valid h) hs2
  unfold encSpectral
  rw [hp2.nbitsSideWritten]
  simp only [Res.bind_ok]
  have h1 := h.nl
  have h2 := h.data.lines
  rw [if_neg (by omega), if_neg (by omega)]
  rw [encPairs_eq h.data.rate_le (p.lastnz / 2) _ 0 0 [] s2 (take_len h.data.lines h.side.lastnzEven) (by omega)
    h.data.range (by simpa using h.lsbs)]
  simp

/-- abstract state at the start of the residual data -/
def bodySt (ne : Nat) (p : FrameParams) : ASt := ASt.run ⟨Abs.init, []⟩ (bodyEvs ne p)

theorem bodySt_ok {cfg : Lc3Config} {N : Nat} {p : FrameParams} {q : PulseIdx} (h : BodyHyp cfg N p q)
    (ne : Nat) : (bodySt ne p).Ok := (ASt.Ok.init _).run (body_valid h ne)

theorem sideBits_min {f : SamplingFrequency} {d : FrameDuration} {p : FrameParams} {q : PulseIdx}
    (h : SideOk (Lc3Config.new f d) p q) : 40 ≤ (sideBits (Lc3Config.new f d).ne p).length := by
  unfold sideBits
  simp only [List.length_append, natBits_length, scf2Bits_length p h.shape, List.length_singleton]
  omega

/-- the body ended and its own estimate says that it fits -/
structure BodyFits (N : Nat) (s : EncSt) : Prop where
  fits : ∃ t, s.w.nbitsSideWritten (8 * N) = .ok t ∧ t + nbitsAriForecast s ≤ 8 * N

theorem log2_le {R : Nat} (h1 : 2 ^ 16 ≤ R) (h2 : R < 2 ^ 24) : 16 ≤ Nat.log2 R ∧ Nat.log2 R ≤ 23 := by
  have hne : R ≠ 0 := by intro h0; rw [h0] at h1; norm_num at h1
  refine ⟨(Nat.le_log2 hne).2 h1, ?_⟩
  have := (Nat.log2_lt hne).2 h2
  omega

/-- everything known about the encoder at the start of the residual data -/
structure BodyPost (N : Nat) (σ : ASt) (s : EncSt) (hd : List Nat) : Prop where
  frame : FrameInv N s hd σ.tl
  ac : CInv s.ac hd σ.abs
  fore : nbitsAriForecast s = 8 * σ.abs.S + (25 - Nat.log2 σ.abs.R) + (if s.ac.cache < 0 then 8 else 0)
  fits : σ.tl.length + nbitsAriForecast s ≤ 8 * N

theorem body_post {f : SamplingFrequency} {d : FrameDuration} {p : FrameParams} {q : PulseIdx}
    {buf : List Nat} {stale s : EncSt} {lsbs : List Bool}
    (h : BodyHyp (Lc3Config.new f d) buf.length p q) (hN2 : buf.length < 65536)
    (hb : encodeBody (Lc3Config.new f d).ne p stale buf = .ok (lsbs, s)) (hfit : BodyFits buf.length s) :
    lsbs = pairsLsbs p.lsbMode (p.xq.take p.lastnz) ∧
      ∃ hd, BodyPost buf.length (bodySt (Lc3Config.new f d).ne p) s hd := by
  generalize hne : (Lc3Config.new f d).ne = ne at *
  have hN : 0 < buf.length := by
    by_contra h0
    have : buf.length = 0 := by omega
    unfold encodeBody Writer.new at hb
    rw [this] at hb
    simp [usub] at hb
  obtain ⟨w, e1, f1, e2⟩ := encodeBody_eq (stale := stale) h hN hN2 ne
  rw [e2] at hb
  obtain ⟨s1, e3, e4⟩ := Res.bind_eq_ok.1 hb
  simp only [Res.ok.injEq, Prod.mk.injEq] at e4
  obtain ⟨e4, rfl⟩ := e4
  have hptr0 : PtrInv buf.length (startSt w buf.length) ⟨Abs.init, []⟩ := PtrInv.of_inv f1 CInv.init
  have hptr : PtrInv buf.length s1 (bodySt ne p) := runEv_ptr _ hptr0 (ASt.Ok.init _) (body_valid h ne) e3
  obtain ⟨t, ht1, ht2⟩ := hfit.fits
  have hside := hptr.nbitsSideWritten
  rw [hptr.len, Nat.mul_comm, ht1, Res.ok.injEq] at hside
  subst hside
  have hfore := hptr.forecast
  have hok := bodySt_ok h ne
  obtain ⟨hl1, hl2⟩ := log2_le hok.1 hok.2
  obtain ⟨s2, hd, e5, f2, c2⟩ := runEv_spec (bodyEvs ne p) (s := startSt w buf.length) (hd := [])
    (σ := ⟨Abs.init, []⟩) f1 CInv.init (body_valid h ne)
    (by change 8 * (bodySt ne p).abs.S + (bodySt ne p).tl.length ≤ _; omega)
    (by change (bodySt ne p).tl.length < _; omega)
  rw [e3, Res.ok.injEq] at e5
  subst e5
  exact ⟨e4.symm, hd, f2, c2, hfore, ht2⟩

/-- number of bits the encoder writes after the spectral data -/
def encRoom (N : Nat) (σ : ASt) (s : EncSt) : Nat := 8 * N - (σ.tl.length + nbitsAriForecast s)

/-- the bits written after the spectral data -/
def extraBits (p : FrameParams) (n : Nat) : List Bool :=
  (if p.lsbMode then pairsLsbs p.lsbMode (p.xq.take p.lastnz) else p.residual).take n

theorem frame_post {f : SamplingFrequency} {d : FrameDuration} {p : FrameParams} {q : PulseIdx}
    {buf : List Nat} {stale s : EncSt} {lsbs : List Bool}
    (h : BodyHyp (Lc3Config.new f d) buf.length p q) (hN2 : buf.length < 65536)
    (hb : encodeBody (Lc3Config.new f d).ne p stale buf = .ok (lsbs, s)) (hfit : BodyFits buf.length s) :
    ∃ s' σ K, σ = bodySt (Lc3Config.new f d).ne p ∧
      encodeFrame (Lc3Config.new f d).ne p stale buf = .ok s' ∧
      K = encRoom buf.length σ s ∧
      σ.abs.S + 6 ≤ buf.length ∧
      FinishPost buf.length (nbitsAriForecast s) (σ.tl ++ extraBits p K) σ.abs (finishOver s.ac) s'.buf ∧
      nbitsAriForecast s = 8 * σ.abs.S + (25 - Nat.log2 σ.abs.R) + (if s.ac.cache < 0 then 8 else 0) ∧
      σ.tl.length + nbitsAriForecast s ≤ 8 * buf.length := by
  obtain ⟨e1, hd, hp⟩ := body_post h hN2 hb hfit
  have hok := bodySt_ok h (Lc3Config.new f d).ne
  obtain ⟨hl1, hl2⟩ := log2_le hok.1 hok.2
  have hmin := sideBits_min h.side
  generalize hne : (Lc3Config.new f d).ne = ne at *
  have hT : (sideBits ne p).length ≤ (bodySt ne p).tl.length := by
    have := (ASt.run_mono (ASt.run ⟨Abs.init, []⟩ ((sideBits ne p).map .bit))
      (tnsEvs p.lpcWeighting p.rcOrder p.rcI 0 p.numTns ++
        pairsEv p.lsbMode p.rateFlag ne (p.xq.take p.lastnz) 0 0)).2
    unfold bodySt bodyEvs
    rw [ASt.run_append]
    refine le_trans ?_ this
    rw [ASt.run_bits]; simp
  generalize hσ : bodySt ne p = σ at *
  have hfits := hp.fits
  have hfore := hp.fore
  have hroom : σ.abs.S + 6 ≤ buf.length := by omega
  have hnb : 2 ≤ nbitsAriForecast s := by omega
  have hhd := hp.ac.hd_le
  unfold encodeFrame
  rw [hb]
  simp only [Res.bind_ok]
  unfold encResidual
  rw [hp.frame.nbitsSideWritten]
  simp only [Res.bind_ok]
  have hn : s.buf.length * 8 - (σ.tl.length + nbitsAriForecast s) = encRoom buf.length σ s := by
    rw [hp.frame.len]; unfold encRoom; omega
  have hex : (if p.lsbMode then lsbs else p.residual).take (encRoom buf.length σ s) =
      extraBits p (encRoom buf.length σ s) := by rw [e1]; rfl
  rw [hn, hex]
  have hel : (extraBits p (encRoom buf.length σ s)).length ≤ encRoom buf.length σ s := by
    unfold extraBits; simp
  have hroomdef : encRoom buf.length σ s = 8 * buf.length - (σ.tl.length + nbitsAriForecast s) := rfl
  obtain ⟨s1, b1, b2, b3⟩ := encBools_spec (extraBits p (encRoom buf.length σ s)) hp.frame
    (by omega) (by omega)
  rw [b1]
  simp only [Res.bind_ok]
  have hfs : nbitsAriForecast s1 = nbitsAriForecast s := by
    unfold nbitsAriForecast; rw [b3, b2.bp, hp.frame.bp]
  obtain ⟨s2, g1, g2⟩ := acEncFinish_spec b2 (by rw [b3]; exact hp.ac)
    (by rw [hfs, List.length_append]; omega) (by omega)
  rw [hfs, b3] at g2
  exact ⟨s2, σ, _, rfl, g1, rfl, hroom, g2, hfore, hfits⟩

/-- a decoder sees the events of the frame -/
theorem frame_good {f : SamplingFrequency} {d : FrameDuration} {p : FrameParams} {q : PulseIdx}
    {buf : List Nat} {stale s : EncSt} {lsbs : List Bool}
    (h : BodyHyp (Lc3Config.new f d) buf.length p q) (hN2 : buf.length < 65536)
    (hb : encodeBody (Lc3Config.new f d).ne p stale buf = .ok (lsbs, s)) (hfit : BodyFits buf.length s)
    (hover : finishOver s.ac = false ∨
      8 * ((bodySt (Lc3Config.new f d).ne p).abs.S + 3) + (bodySt (Lc3Config.new f d).ne p).tl.length +
        (extraBits p (encRoom buf.length (bodySt (Lc3Config.new f d).ne p) s)).length ≤ 8 * buf.length) :
    ∃ s', encodeFrame (Lc3Config.new f d).ne p stale buf = .ok s' ∧ s'.buf.length = buf.length ∧
      Good s'.buf ⟨(bodySt (Lc3Config.new f d).ne p).abs, (bodySt (Lc3Config.new f d).ne p).tl ++
        extraBits p (encRoom buf.length (bodySt (Lc3Config.new f d).ne p) s)⟩ := by
  obtain ⟨s', σ, K, hσ, e1, hK, hroom, hpost, hfore, hfits⟩ := frame_post h hN2 hb hfit
  have hok := bodySt_ok h (Lc3Config.new f d).ne
  obtain ⟨hl1, hl2⟩ := log2_le hok.1 hok.2
  rw [← hσ] at hover hok hl1 hl2 ⊢
  rw [← hK] at hover ⊢
  obtain ⟨p1, p2⟩ := hpost.any s'.buf hpost.len hpost.bytes (SameHead.refl _ _ _)
  have hKe : (extraBits p K).length ≤ K := by unfold extraBits; simp
  unfold encRoom at hK
  refine ⟨s', e1, hpost.len, hpost.bytes, hok, ?_, p1, ?_, hpost.tail, ?_⟩
  · show σ.abs.S + 3 ≤ _
    rw [hpost.len]; omega
  · show beVal (s'.buf.take (σ.abs.S + 3)) < _
    rcases hover with ho | ho
    · exact p2 ho
    · exact hpost.hiGap (by rw [List.length_append]; omega)
  · show 8 * σ.abs.S + (σ.tl ++ extraBits p K).length ≤ _
    rw [List.length_append, hpost.len]; omega

end Lc3
