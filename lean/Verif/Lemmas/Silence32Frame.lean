import Verif.Lemmas.Silence32Tns
import Verif.Props.EncoderFrame32
/-!
# Digital silence in binary32: the quantiser and the writer
-/

namespace Lc3
open Scalar Tables Spec
namespace F32

variable {el : Elem}

theorem maxAbs_zero32 {l : List F32} (h : AllZ l) : @maxAbs F32 (scalar el) l = fin 0 := by
  obtain ⟨M, h1, h2, -, h4⟩ := maxAbs_f32 el (xf := l) fun y hy => ⟨0, h y hy⟩
  have : (M : ℝ) ≤ 0 := h4 0 (le_refl _) fun y hy => by
    rw [h y hy]
    show |((0 : ℚ) : ℝ)| ≤ 0
    simp
  have : M ≤ 0 := by exact_mod_cast this
  rw [h1, le_antisymm this h2]

theorem quantLine_zero32 (gg : F32) : @quantLine F32 (scalar el) gg (fin 0) = 0 := by
  letI := scalar el
  unfold quantLine geS
  have h1 : (Scalar.lt (zero : F32) (fin 0) || Scalar.eq (fin 0) (zero : F32)) = true := by
    show (F32.lt (rnd 0) (fin 0) || F32.eq (fin 0) (rnd 0)) = true
    rw [rnd_zero, show F32.eq (fin 0) (fin 0) = true from decide_eq_true (p := (0 : ℚ) = 0) rfl, Bool.or_true]
  rw [h1, if_pos rfl]
  show max (-32768) (min 32767 (F32.toI32 (F32.add (F32.div (fin 0) gg) (rnd (3 / 8))))) = 0
  have : F32.toI32 (F32.add (F32.div (fin 0) gg) (rnd (3 / 8))) = 0 := by
    rcases zn_zero.div gg with e | e <;> rw [e]
    · rw [← rndK_eq, ← addK_eq]
      decide +kernel
    · rfl
  rw [this]
  rfl

/-- bits are counted exactly -/
theorem bits2048_f32 (n : Nat) (h : n < 2 ^ 20) : @bits2048 F32 (scalar el) n = (n + 2047) / 2048 := by
  unfold bits2048
  show F32.toUsize (ceilF (F32.div (rnd (((n : ℕ) : ℤ) : ℚ)) (rnd 2048))) = _
  have i1 : ∀ n : ℕ, n < 2 ^ 20 → rnd (((n : ℤ) : ℚ)) = fin n := fun n hn => by
    rw [show ((n : ℤ) : ℚ) = (n : ℚ) by push_cast; rfl]; exact rnd_nat hn
  have e1 : rnd (2048 : ℚ) = fin 2048 := by have := i1 2048 (by norm_num); simpa using this
  rw [e1, i1 n h]
  have hR : Rep ((n : ℚ) / 2048) := ⟨n, -11, by norm_num; ring, by rw [Nat.abs_cast]; exact_mod_cast (show n < 2 ^ 24 by omega), by norm_num⟩
  have hm' : (n : ℚ) ≤ 2 ^ 20 := by exact_mod_cast h.le
  have e4 : F32.div (fin (n : ℚ)) (fin 2048) = fin ((n : ℚ) / 2048) := by
    simp only [F32.div]
    rw [if_neg (by norm_num), rnd_fin, rndQ_rep hR]
    rw [abs_of_nonneg (by positivity), div_le_iff₀ (by norm_num)]
    exact hm'.trans (by norm_num)
  rw [e4]
  show min 18446744073709551615 ⌊((⌈(n : ℚ) / 2048⌉ : ℤ) : ℚ)⌋.toNat = _
  rw [Int.floor_intCast]
  have : ⌈(n : ℚ) / 2048⌉ = (((n + 2047) / 2048 : ℕ) : ℤ) := by
    generalize hk : (n + 2047) / 2048 = k
    rw [Int.ceil_eq_iff, lt_div_iff₀ (by norm_num), div_le_iff₀ (by norm_num)]
    have k1 : n ≤ k * 2048 := by omega
    have k2 : k * 2048 < n + 2048 := by omega
    have k1' : (n : ℚ) ≤ (k : ℚ) * 2048 := by exact_mod_cast k1
    have k2' : (k : ℚ) * 2048 < (n : ℚ) + 2048 := by exact_mod_cast k2
    push_cast
    constructor <;> linarith
  rw [this]
  omega

theorem bitConsumption_zero32 {ne fsInd nbits nbitsSpec : Nat} {xq : List Int} (h0 : AllZero xq) (hl : xq.length = ne) (hne : ne % 2 = 0)
    (h2 : 2 ≤ ne) : ∃ bc, @bitConsumption F32 (scalar el) ne fsInd nbits nbitsSpec xq = .ok bc ∧ bc.rateFlag = encRateFlag nbits fsInd ∧ bc.lastnz = 2 ∧
      bc.nbitsLsb = 0 ∧ bc.lastnzTrunc = 2 ∧ bc.nbitsEst ≤ 10 ∧ bc.nbitsTrunc = 0 := by
  letI := scalar el
  have hln : lastNz ne (xq.take ne).reverse = 2 := by
    obtain ⟨m, rfl⟩ : ∃ m, ne = 2 * (m + 1) := ⟨ne / 2 - 1, by omega⟩
    refine lastNz_zero m _ (fun v hv => h0 v (List.mem_of_mem_take (List.mem_reverse.1 hv))) ?_
    rw [List.length_reverse, List.length_take]; omega
  obtain ⟨l, rfl⟩ : ∃ l, xq = 0 :: 0 :: l := by
    match xq, h0, hl with
    | [], _, h => simp at h; omega
    | [_], _, h => simp at h; omega
    | a :: b :: l, h, _ => exact ⟨l, by rw [h a (by simp), h b (by simp)]⟩
  have hrf : encRateFlag nbits fsInd = 0 ∨ encRateFlag nbits fsInd = 512 := by
    unfold encRateFlag; split <;> simp
  obtain ⟨pki, row, bits, e1, e2, e3, e4⟩ := zero_pair_bits _ hrf
  unfold bitConsumption
  simp only
  rw [if_neg (by omega), hln]
  simp only [List.take_succ_cons, List.take_zero]
  rw [estPairs]
  have hesc : ∀ t, estEscapes (encModeFlag nbits fsInd) t 16 (Int.natAbs 0) (Int.natAbs 0) 0 0 0 = .ok (0, 0, 0, 0, 0) := by
    intro t
    rw [estEscapes.eq_def]
    rfl
  simp only [hesc, Res.bind_ok, show ¬ (0 > ne / 2) by omega, if_false, Nat.zero_add, Nat.add_zero, Nat.zero_mul, Nat.mul_zero, e1, e2, e3]
  rw [estPairs]
  refine ⟨_, rfl, rfl, rfl, ?_, ?_, ?_, ?_⟩
  · simp
  · simp
  · have := bits2048_f32 (el := el) bits (by omega)
    simp
    rw [this]
    omega
  · simp
    rw [bits2048_f32 (el := el) 0 (by norm_num)]

theorem quantSpectrum_zero32 {ne fsInd nbits nbitsSpec : Nat} {xf : List F32} (h0 : AllZ xf) (hl : xf.length = ne) (hne : ne % 2 = 0)
    (h2 : 2 ≤ ne) (hs : 10 ≤ nbitsSpec) (ggOff ggInd : Int) {q : QuantResult F32}
    (h : @quantSpectrum F32 (scalar el) ne fsInd xf nbits ggOff ggInd nbitsSpec = .ok q) : AllZero q.xq ∧ q.xq.length = ne ∧ q.lsbMode = false ∧
      q.bc.rateFlag = encRateFlag nbits fsInd ∧ q.bc.nbitsLsb = 0 ∧ q.bc.lastnzTrunc = 2 ∧ q.bc.nbitsEst ≤ 10 ∧ q.bc.nbitsTrunc = 0 := by
  letI := scalar el
  have hz : AllZero (xf.map (quantLine (ggValue ggInd ggOff))) := by
    intro v hv
    obtain ⟨y, hy, rfl⟩ := List.mem_map.1 hv
    rw [h0 y hy, quantLine_zero32]
  obtain ⟨bc, e, b1, b2, b3, b4, b5, b6⟩ := bitConsumption_zero32 (fsInd := fsInd) (nbits := nbits) (nbitsSpec := nbitsSpec) hz
    (by rw [List.length_map, hl]) hne h2
  unfold quantSpectrum at h
  simp only at h
  rw [e, Res.bind_ok, if_pos ⟨by omega, by rw [List.length_map]; omega⟩] at h
  cases h
  refine ⟨((hz.take _).append (AllZero.replicate _)).append (hz.drop _), ?_, ?_, b1, b3, b4, b5, b6⟩
  · simp only [List.length_append, List.length_take, List.length_replicate, List.length_drop, List.length_map]
    omega
  · simp only [Bool.and_eq_false_iff, decide_eq_false_iff_not]
    right
    omega

theorem quantRun_zero32 {ne fsInd nbits nbw ntns nltpf : Nat} {s s' : QuantSt F32} {xf : List F32} {o : QuantOut F32} (h0 : AllZ xf)
    (hne : ne % 2 = 0) (h2 : 2 ≤ ne) (hs : nbw + ntns + nltpf + nbitsFixed ne nbits + 10 ≤ nbits)
    (h : @quantRun F32 (scalar el) ne fsInd s xf nbits nbw ntns nltpf = .ok (s', o)) :
    AllZero o.xq ∧ o.xq.length = ne ∧ o.ggInd = 0 ∧ o.lsbMode = false ∧ o.rateFlag = encRateFlag nbits fsInd ∧ o.nbitsLsb = 0 ∧
      o.lastnzTrunc = 2 ∧ o.nbitsTrunc = 0 := by
  letI := scalar el
  obtain ⟨hl, hb, ind0, reset, ggMin, ggInd, q0, q, -, e1, e2, e3, e4, ho⟩ := quantRun_inv h
  have hsp : 10 ≤ o.nbitsSpec := by omega
  have hmin : ggMin = 0 ∧ ggInd = 0 := by
    unfold ggLimit at e1
    obtain ⟨g, g1, e1⟩ := bind_ok_inv e1
    have hz : (zero : F32) = fin 0 := rnd_zero
    have hg : ggMinOf xf (ggOffEnc nbits fsInd) = 0 := by
      unfold ggMinOf
      rw [maxAbs_zero32 h0, hz, show Scalar.lt (fin 0 : F32) (fin 0) = false from decide_eq_false (lt_irrefl (0 : ℚ))]
      rfl
    rw [hg] at g1
    cases g1
    rw [maxAbs_zero32 h0, hz, show Scalar.eq (fin 0 : F32) (fin 0) = true from decide_eq_true (p := (0 : ℚ) = 0) rfl, Bool.or_true, if_pos rfl] at e1
    cases e1
    exact ⟨rfl, rfl⟩
  obtain ⟨rfl, rfl⟩ := hmin
  obtain ⟨-, -, -, -, -, -, c7, -⟩ := quantSpectrum_zero32 h0 hl hne h2 hsp _ _ e2
  have hgg : o.ggInd = 0 := by
    unfold ggAdjust at e3
    obtain ⟨_, -, e3⟩ := bind_ok_inv e3
    obtain ⟨_, -, e3⟩ := bind_ok_inv e3
    obtain ⟨_, -, e3⟩ := bind_ok_inv e3
    simp only at e3
    rw [if_neg (by omega)] at e3
    exact (Res.ok.inj e3).symm
  obtain ⟨c1, c2, c3, c4, c5, c6, -, c8⟩ := quantSpectrum_zero32 h0 hl hne h2 hsp _ _ e4
  refine ⟨?_, ?_, hgg, ?_, ?_, ?_, ?_, ?_⟩ <;> rw [ho] <;> assumption

theorem residualEncLoop_zero32 (gg : F32) (m : Nat) : ∀ (n : Nat) (t : List F32) (xq : List Int), AllZero xq → @residualEncLoop F32 (scalar el) gg m n t xq = .ok [] := by
  letI := scalar el
  intro n t
  induction t generalizing n with
  | nil => intro xq _; rw [residualEncLoop]; simp
  | cons a t ih =>
    intro xq h
    cases xq with
    | nil => rw [residualEncLoop]; simp
    | cons b xq =>
      rw [residualEncLoop]
      split
      · rfl
      · rw [if_neg (by simpa using h b (by simp))]
        exact ih n xq fun v hv => h v (by simp [hv])

theorem snsEncRun_zero32 (he : EncFunctions el) {f : SamplingFrequency} {d : FrameDuration} (hnb : (Lc3Config.new f d).nb = 64) {x eb : List F32} {det : Bool}
    {r : SnsEncResult F32} (h : @snsEncRun F32 (scalar el) (Lc3Config.new f d) x eb det = .ok r) (h0 : AllZ x) : AllZ r.x := by
  letI := scalar el
  have hb := bd_snsEncRun he hnb (fun v hv => ⟨⟨0, h0 v hv⟩, by rw [h0 v hv]; show |((0 : ℚ) : ℝ)| ≤ _; simp⟩) h
  unfold snsEncRun at h
  split at h
  · cases h
  obtain ⟨_, -, h⟩ := bind_ok_inv h
  obtain ⟨⟨_, _, _, _⟩, -, h⟩ := bind_ok_inv h
  simp only at h
  obtain ⟨_, -, h⟩ := bind_ok_inv h
  obtain ⟨_, -, h⟩ := bind_ok_inv h
  obtain ⟨_, -, h⟩ := bind_ok_inv h
  obtain ⟨y, e, h⟩ := bind_ok_inv h
  cases h
  intro v hv
  exact (shapeLoop_zn _ _ _ _ _ h0.zn e v hv).eq_zero (hb v hv).1

theorem AllZ.take {l : List F32} (h : AllZ l) (n : Nat) : AllZ (l.take n) := fun v hv => h v (List.mem_of_mem_take hv)

theorem encodable_silence (he : EncFunctions el) (hlg : LogFunctions el) {f : SamplingFrequency} {d : FrameDuration} {ch : EncChannel F32}
    (hi : ch.Inv (Lc3Config.new f d)) (h0 : AllZero ch.freq) {x : List Int} (hx0 : AllZero x) (nbytes : Nat) :
    Encodable el (Lc3Config.new f d) ch x nbytes := by
  letI := scalar el
  have hnb := nb_of_inv hi
  constructor
  · intro freq out eb nn att det scf lf hf st1 r1 e1 e2 e3 e4
    obtain ⟨-, -, z3, -⟩ := mdctEncRun_silence32 he.toAccurate hi.freq h0 hx0 e1
    have hl := (mdctEncRun_eb e1).2
    obtain ⟨b1, b2⟩ := target_small hlg z3 (by rw [hl, hnb]) hnb e3
    exact small_writable b2 b1 e4
  · intro freq out eb nn bw nbw att det sns e1 e2 e3 e4
    obtain ⟨-, z2, -, -⟩ := mdctEncRun_silence32 he.toAccurate hi.freq h0 hx0 e1
    exact noUnit_zero32 (snsEncRun_zero32 he hnb e4 (AllZ.take z2 _)) _ _ _

theorem isSample_zero {l : List Int} (h : AllZero l) : ∀ v ∈ l, IsSample v := by
  intro v hv
  rw [h v hv]
  constructor <;> norm_num

/-- the analysis of silence -/
theorem encAnalyse_silence32 (he : EncFunctions el) (hlg : LogFunctions el) {f : SamplingFrequency} {d : FrameDuration} {ch : EncChannel F32}
    (hi : ch.Inv (Lc3Config.new f d)) (h0 : AllZero ch.freq) {x : List Int} (hx : x.length = (Lc3Config.new f d).nf) (hx0 : AllZero x) {nbytes : Nat}
    (h20 : 20 ≤ nbytes) (hN : nbytes < 4096) : ∃ a, @encAnalyse F32 (scalar el) (Lc3Config.new f d) ch x nbytes = .ok a ∧ AllZero a.freq ∧
      AllZ a.lines ∧ AllZ a.mdct ∧ SilentParams (Lc3Config.new f d) a.p := by
  letI := scalar el
  have hnb := nb_of_inv hi
  obtain ⟨a, ha, -⟩ := encAnalyse_returns32_short he hi (isSample_zero h0) hx (isSample_zero hx0) h20 hN (encodable_silence he hlg hi h0 hx0 nbytes) (by
    intro freq out eb nn bw nbw att det sns tns e1 e2 e3 e4 e5 _
    obtain ⟨-, z2, -, -⟩ := mdctEncRun_silence32 he.toAccurate hi.freq h0 hx0 e1
    obtain ⟨t1, -, -, -, t5, -⟩ := tnsEncRun_zero32 he (snsEncRun_zero32 he hnb e4 (AllZ.take z2 _)) e5
    omega)
  refine ⟨a, ha, ?_⟩
  obtain ⟨freq, out, eb, nn, bwInd, nbitsBw, attack, det, sns, tns, ltpf, pf, quant, spec, res, nf, e1, e2, e3, e4, e5, e6, e7,
    e8, e9, e10, rfl⟩ := encAnalyse_inv ha
  obtain ⟨z1, z2, -, -⟩ := mdctEncRun_silence32 he.toAccurate hi.freq h0 hx0 e1
  have hs := snsEncRun_zero32 he hnb e5 (AllZ.take z2 _)
  obtain ⟨t1, t2, t3, t4, t5, -⟩ := tnsEncRun_zero32 he hs e6
  have hcfg : (Lc3Config.new f d).ne % 2 = 0 ∧ 2 ≤ (Lc3Config.new f d).ne ∧ clog2 ((Lc3Config.new f d).ne / 2) ≤ 8 ∧
      (Lc3Config.new f d).fsInd ≤ 4 := by
    cases f <;> cases d <;> decide
  obtain ⟨c1, c2, c3, c4⟩ := hcfg
  have hebl : eb.length = 64 := by rw [(mdctEncRun_eb e1).2, hnb]
  have hnbw3 : nbitsBw ≤ 3 := by
    obtain ⟨bw, nbw, g1, -, g2, -⟩ := C34 _ c4 hi.bw hebl
    rw [e3] at g1
    simp only [Res.ok.injEq, Prod.mk.injEq] at g1
    obtain ⟨-, rfl⟩ := g1
    have key : ∀ i ≤ 4, ∀ n, NBITS_BW_TABLE[i]? = some n → n ≤ 3 := by
      intro i hi n hn
      have : i = 0 ∨ i = 1 ∨ i = 2 ∨ i = 3 ∨ i = 4 := by omega
      rcases this with rfl | rfl | rfl | rfl | rfl <;> (simp [NBITS_BW_TABLE] at hn; omega)
    exact key _ c4 _ g2
  have hpf11 : pf.nbitsLtpf ≤ 11 := by
    obtain ⟨s', r, l1, -, -, hpf, -⟩ := C41_run f d ch.ltpf hi.ltpf x hx nn (nbytes * 8)
    rw [e7] at l1
    simp only [Res.ok.injEq, Prod.mk.injEq] at l1
    obtain ⟨-, rfl⟩ := l1
    rw [hpf]; split <;> omega
  have hl0 : AllZ tns.lines := by rw [t4]; exact hs
  obtain ⟨q1, q2, q3, q4, q5, q6, q7, q8⟩ := quantRun_zero32 hl0 c1 c2 (by
    unfold nbitsFixed
    split
    · omega
    · split <;> omega) e8
  have hres : res = [] := by
    unfold residualEncode at e9
    simp only at e9
    split at e9
    · split at e9
      · cases e9
      · rw [residualEncLoop_zero32 _ _ _ _ _ (q1.take _)] at e9
        exact (Res.ok.inj e9).symm
    · exact (Res.ok.inj e9).symm
  refine ⟨z1, hl0, AllZ.take z2 _, ?_⟩
  exact ⟨by rw [← q2]; exact q1.eq, by simp only [q3]; rfl, q7, q4, t2, hres, q6⟩

/-- the frame of silence is written, and the decoder reads it -/
theorem silence_coded32 (he : EncFunctions el) (hlg : LogFunctions el) (checks : Bool) {f : SamplingFrequency} {d : FrameDuration} {ch : EncChannel F32}
    (hi : ch.Inv (Lc3Config.new f d)) (h0 : AllZero ch.freq) {x : List Int} (hx : x.length = (Lc3Config.new f d).nf) (hx0 : AllZero x) {buf : List Nat}
    (h20 : 20 ≤ buf.length) (hN : buf.length < 4096) : ∃ a s t, CodedFrame32 checks el f d ch x buf a s t ∧ AllZero a.freq ∧ AllZ a.lines ∧
      AllZ a.mdct ∧ SilentParams (Lc3Config.new f d) a.p := by
  letI := scalar el
  obtain ⟨a, ha, z1, z2, z3, hp⟩ := encAnalyse_silence32 he hlg hi h0 hx hx0 h20 hN
  have hg : a.p.ggInd < 256 := by rw [hp.gain]; norm_num
  have hin : ∀ v ∈ a.p.xq.take a.p.lastnz, v ≠ -32768 := by
    intro v hv
    have := List.mem_of_mem_take hv
    rw [hp.xq] at this
    rw [List.eq_of_mem_replicate this]
    norm_num
  obtain ⟨q, hs, hd, -⟩ := C96_params el hi hN ha hg hin
  have hne2 : 2 ≤ (Lc3Config.new f d).ne ∧ clog2 ((Lc3Config.new f d).ne / 2) ≤ 8 ∧ (Lc3Config.new f d).fsInd ≤ 4 := by
    cases f <;> cases d <;> decide
  have hx2 : a.p.xq.take a.p.lastnz = [0, 0] := by
    rw [hp.xq, hp.last]
    obtain ⟨n, hn⟩ : ∃ n, (Lc3Config.new f d).ne = n + 2 := ⟨(Lc3Config.new f d).ne - 2, by omega⟩
    rw [hn]
    rfl
  have hplain : plainBits a.p.lsbMode (a.p.xq.take a.p.lastnz) = 0 := by rw [hx2, hp.mode]; decide
  have hb : BodyHyp (Lc3Config.new f d) buf.length a.p q := by
    refine ⟨hs, hd, by rw [hp.nbitsLsb]; omega, ?_⟩
    rw [pairsLsbs_length _ _ hd.range, hp.mode]
    simp
  have hrf : a.p.rateFlag = 0 ∨ a.p.rateFlag = 512 := by rw [hd.rate]; split <;> simp
  obtain ⟨s1, s2⟩ := zero_pair_symbols f d _ hrf
  have hinfo : tnsInfoFrom a.p.lpcWeighting a.p.rcOrder a.p.rcI 0 a.p.numTns +
      symbolInfo a.p.rateFlag (Lc3Config.new f d).ne (a.p.xq.take a.p.lastnz) ≤ (10 : ℕ) := by
    have h1 := symbolInfo_le s1
    rw [s2] at h1
    rw [← frameInfo_eq, hx2]
    unfold frameInfo
    have : ∀ n, ((List.range n).map fun f => filterInfo a.p.lpcWeighting ((a.p.rcI.drop (8 * f)).take (a.p.rcOrder.getD f 0))).sum = 0 := by
      intro n
      refine List.sum_eq_zero ?_
      intro v hv
      obtain ⟨k, -, rfl⟩ := List.mem_map.1 hv
      have : a.p.rcOrder.getD k 0 = 0 := by rw [hp.orders]; rcases k with - | - | k <;> rfl
      rw [this]
      simp [filterInfo]
    rw [this]
    push_cast at h1 ⊢
    linarith
  have hcount : tnsCountFrom a.p.rcOrder a.p.rcI 0 a.p.numTns +
      symbolCount a.p.rateFlag (Lc3Config.new f d).ne (a.p.xq.take a.p.lastnz) ≤ 44 * 1 := by
    rw [← frameSymbols_eq, hx2]
    unfold frameSymbols
    rw [s2]
    have : ∀ n, ((List.range n).map fun f => filterCount ((a.p.rcI.drop (8 * f)).take (a.p.rcOrder.getD f 0))).sum = 0 := by
      intro n
      refine List.sum_eq_zero ?_
      intro v hv
      obtain ⟨k, -, rfl⟩ := List.mem_map.1 hv
      have : a.p.rcOrder.getD k 0 = 0 := by rw [hp.orders]; rcases k with - | - | k <;> rfl
      rw [this]
      simp [filterCount]
    rw [this]
    omega
  have hside : (sideBits (Lc3Config.new f d).ne a.p).length ≤ 74 := by
    rw [sideBits_length hs]
    have h1 : a.p.numTns ≤ 2 := by rw [hs.numTns]; split <;> omega
    have h2 : a.p.nbitsBandwidth ≤ 3 := by
      have key : ∀ i ≤ 4, ∀ n, NBITS_BW_TABLE[i]? = some n → n ≤ 3 := by
        intro i hi n hn
        have : i = 0 ∨ i = 1 ∨ i = 2 ∨ i = 3 ∨ i = 4 := by omega
        rcases this with rfl | rfl | rfl | rfl | rfl <;> (simp [NBITS_BW_TABLE] at hn; omega)
      exact key _ hne2.2.2 _ hs.bwBits
    unfold sideLength
    split <;> omega
  obtain ⟨lsbs, s, e1, e2, e3⟩ := body_fits ch.bits hb (by omega) (X := 10) (le_refl 1) hinfo hcount (by rw [hplain]; omega)
  have hfc : nbitsAriForecast s ≤ 20 := by
    refine e2.trans ?_
    split <;> omega
  rw [hplain] at e3
  refine ⟨a, s, _, ⟨hi, hN, ha, hg, hin, hp.mode, ⟨lsbs, e1⟩, ⟨e3, by omega⟩, Or.inr ?_, Or.inr ?_⟩, z1, z2, z3, hp⟩
  · rw [hp.residual, List.length_nil]; omega
  · rw [hx2]; decide

end F32
end Lc3
