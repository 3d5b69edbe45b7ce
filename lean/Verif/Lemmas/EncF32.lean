import Verif.Lemmas.SnsTiny
import Verif.Props.EncoderFrame
/-! The indices of the encoder's noise shaping in binary32, for all elementary functions. -/

namespace Lc3
open Spec Tables Scalar

section
variable {α : Type} [Scalar α]

/-- shape and gain are in range even if all distances are NaN -/
theorem snsChoose_range (t : List α) (x0 x1 x2 x3 : List α) :
    (snsChoose t x0 x1 x2 x3).shapeJ < 4 ∧ (snsChoose t x0 x1 x2 x3).gind < gainCount (snsChoose t x0 x1 x2 x3).shapeJ := by
  have step : ∀ (s : SnsChoice α) (xq : List α) (j n : Nat), j < 4 → n ≤ gainCount j → s.shapeJ < 4 ∧ s.gind < gainCount s.shapeJ →
      (snsTryGains t xq j ((gainsOf j).take n) 0 s).shapeJ < 4 ∧
        (snsTryGains t xq j ((gainsOf j).take n) 0 s).gind < gainCount (snsTryGains t xq j ((gainsOf j).take n) 0 s).shapeJ := by
    intro s xq j n hj hn h
    rcases snsTryGains_cases t xq j ((gainsOf j).take n) 0 s with e | ⟨k, g, d, h1, h2⟩
    · rw [e]; exact h
    · rw [h2]
      rw [List.getElem?_take] at h1
      split at h1
      · simp only
        exact ⟨hj, by omega⟩
      · cases h1
  unfold snsChoose
  simp only
  refine step _ x3 3 7 (by norm_num) (by decide) ?_
  refine step _ x2 2 3 (by norm_num) (by decide) ?_
  refine step _ x1 1 3 (by norm_num) (by decide) ?_
  exact step _ x0 0 1 (by norm_num) (by decide) ⟨by norm_num, by show 0 < gainCount 0; decide⟩

end

/-- the gain index of the quantiser is an `i16` -/
theorem quantRun_i16 {α : Type} [Scalar α] {ne fsInd nbits nbw ntns nltpf : Nat} {s s' : QuantSt α} {xf : List α} {o : QuantOut α}
    (h : quantRun ne fsInd s xf nbits nbw ntns nltpf = .ok (s', o)) : -32768 ≤ o.ggInd ∧ o.ggInd ≤ 32767 := by
  have hchk : ∀ {x y : Int}, i16Chk x = .ok y → -32768 ≤ y ∧ y ≤ 32767 := by
    intro x y h
    unfold i16Chk at h
    split at h
    · cases h; assumption
    · cases h
  obtain ⟨-, -, ind0, reset, ggMin, ggInd, q0, q, h1, h2, -, h3, -⟩ := quantRun_inv h
  have hs := C26_search (spectralEnergy (ne / 4) xf) (nbitsSpecAdj o.nbitsSpec (nbitsOffset s)) (ggOffEnc nbits fsInd)
  rw [← h1] at hs
  have hl : (-32768 ≤ ggMin ∧ ggMin ≤ 32767) ∧ -32768 ≤ ggInd ∧ ggInd ≤ 32767 := by
    unfold ggLimit at h2
    obtain ⟨g, e1, h2⟩ := Res.bind_eq_ok.1 h2
    have hg := hchk e1
    split at h2
    · simp only [Res.ok.injEq, Prod.mk.injEq] at h2
      omega
    · simp only [Res.ok.injEq, Prod.mk.injEq] at h2
      omega
  unfold ggAdjust at h3
  obtain ⟨t1, -, h3⟩ := Res.bind_eq_ok.1 h3
  obtain ⟨t2, -, h3⟩ := Res.bind_eq_ok.1 h3
  obtain ⟨t3, -, h3⟩ := Res.bind_eq_ok.1 h3
  simp only at h3
  split at h3
  · obtain ⟨g', hg, h3⟩ := Res.bind_eq_ok.1 h3
    simp only [Res.ok.injEq] at h3
    have : -32768 ≤ g' ∧ g' ≤ 32767 := by
      split at hg
      · exact hchk hg
      · split at hg <;> exact hchk hg
    omega
  · simp only [Res.ok.injEq] at h3
    omega

namespace F32

set_option maxRecDepth 100000 in
theorem LFCB_ge : ∀ r ∈ LFCB, ∀ c ∈ r, (1 / 2 ^ 8 : ℚ) ≤ |c| := by
  have h : ∀ r ∈ LFCB_num, ∀ d ∈ r, 5000000000000000 ≤ |d| := by decide +kernel
  intro r hr d hd
  unfold LFCB at hr
  obtain ⟨r', hr', rfl⟩ := List.mem_map.1 hr
  obtain ⟨n, hn, rfl⟩ := List.mem_map.1 hd
  have h2 : ((5000000000000000 : ℤ) : ℚ) ≤ ((|n| : ℤ) : ℚ) := by exact_mod_cast h r' hr' n hn
  rw [Int.cast_abs] at h2
  rw [Rat.mkRat_eq_div, abs_div, le_div_iff₀ (by norm_num [LFCB_den])]
  refine le_trans ?_ h2
  norm_num [LFCB_den]

set_option maxRecDepth 100000 in
theorem HFCB_ge : ∀ r ∈ HFCB, ∀ c ∈ r, (1 / 2 ^ 8 : ℚ) ≤ |c| := by
  have h : ∀ r ∈ HFCB_num, ∀ d ∈ r, 5000000000000000 ≤ |d| := by decide +kernel
  intro r hr d hd
  unfold HFCB at hr
  obtain ⟨r', hr', rfl⟩ := List.mem_map.1 hr
  obtain ⟨n, hn, rfl⟩ := List.mem_map.1 hd
  have h2 : ((5000000000000000 : ℤ) : ℚ) ≤ ((|n| : ℤ) : ℚ) := by exact_mod_cast h r' hr' n hn
  rw [Int.cast_abs] at h2
  rw [Rat.mkRat_eq_div, abs_div, le_div_iff₀ (by norm_num [HFCB_den])]
  refine le_trans ?_ h2
  norm_num [HFCB_den]

theorem Rep.neg {q : ℚ} (h : Rep q) : Rep (-q) := by
  obtain ⟨m, e, h1, h2, h3⟩ := h
  exact ⟨-m, e, by rw [h1]; push_cast; ring, by rwa [abs_neg], h3⟩

theorem Rep.multiple_abs {x : ℚ} (h : Rep x) {k : ℤ} (hk : (2 : ℚ) ^ k ≤ |x|) : ∃ n : ℤ, x = n * 2 ^ (k - 23) := by
  rcases le_total 0 x with h0 | h0
  · rw [abs_of_nonneg h0] at hk
    exact h.multiple hk
  · rw [abs_of_nonpos h0] at hk
    obtain ⟨n, hn⟩ := h.neg.multiple hk
    exact ⟨-n, by push_cast; linarith⟩

/-- the difference of an `f32` and a number that is not small is zero or not small -/
theorem diff_ge {a b : ℚ} (ha : Rep a) (hb : Rep b) (hb1 : (1 / 2 ^ 9 : ℚ) ≤ |b|) : a - b = 0 ∨ 1 / 2 ^ 33 ≤ |a - b| := by
  by_cases h : |a| < 1 / 2 ^ 10
  · right
    have h1 : |b| ≤ |a - b| + |a| := by
      calc |b| = |a - (a - b)| := by ring_nf
        _ ≤ |a| + |a - b| := abs_sub _ _
        _ = _ := add_comm _ _
    have h2 : (1 / 2 ^ 10 : ℚ) ≤ |a - b| := by
      have : (1 / 2 ^ 9 : ℚ) = 2 * (1 / 2 ^ 10) := by norm_num
      linarith
    exact le_trans (by norm_num) h2
  · push Not at h
    have hk : (2 : ℚ) ^ (-10 : ℤ) = 1 / 2 ^ 10 := by norm_num
    obtain ⟨n, hn⟩ := ha.multiple_abs (k := -10) (by rw [hk]; exact h)
    obtain ⟨m, hm⟩ := hb.multiple_abs (k := -10) (by rw [hk]; exact le_trans (by norm_num) hb1)
    have e : a - b = ((n - m : ℤ) : ℚ) * 2 ^ (-33 : ℤ) := by
      rw [hn, hm]
      push_cast
      norm_num
      ring
    rw [e]
    by_cases h0 : n - m = 0
    · left; rw [h0]; simp
    · right
      have h1 : (1 : ℚ) ≤ |((n - m : ℤ) : ℚ)| := by
        have := Int.one_le_abs h0
        exact_mod_cast this
      rw [abs_mul, show (2 : ℚ) ^ (-33 : ℤ) = 1 / 2 ^ 33 by norm_num, abs_of_pos (by positivity : (0 : ℚ) < 1 / 2 ^ 33)]
      calc (1 / 2 ^ 33 : ℚ) = 1 * (1 / 2 ^ 33) := by ring
        _ ≤ _ := mul_le_mul_of_nonneg_right h1 (by positivity)

theorem sub_residual {v : F32} (hv : IsF32 v) {c : ℚ} (hc : (1 / 2 ^ 8 : ℚ) ≤ |c|) :
    ∀ q, F32.sub v (rnd c) = fin q → q = 0 ∨ 1 / 2 ^ 40 ≤ |q| := by
  intro q h
  obtain ⟨a, b', rfl, h2, rfl⟩ := add_eq_fin h
  have hb : ∃ b, rnd c = fin b ∧ b' = -b := by
    revert h2
    cases rnd c with
    | nan => intro h; cases h
    | inf s => intro h; cases h
    | fin b => intro h; injection h with h; exact ⟨b, rfl, h.symm⟩
  obtain ⟨b, hb, rfl⟩ := hb
  have hb' := rnd_eq_fin hb
  have hR : Rep b := by rw [hb']; exact rep_rndQ c
  have hb9 : (1 / 2 ^ 9 : ℚ) ≤ |b| := by
    have h1 := rndQ_err c
    rw [← hb'] at h1
    have h3 : |c| ≤ |b| + |b - c| := by
      calc |c| = |b - (b - c)| := by ring_nf
        _ ≤ _ := abs_sub _ _
    norm_num at hc h1 ⊢
    linarith
  rw [← sub_eq_add_neg]
  rcases diff_ge (hv a rfl) hR hb9 with h0 | h0
  · left; rw [h0, rndQ_zero]
  · right
    have h1 := rndQ_err (a - b)
    have h3 : |a - b| ≤ |rndQ (a - b)| + |rndQ (a - b) - (a - b)| := by
      calc |a - b| = |rndQ (a - b) - (rndQ (a - b) - (a - b))| := by ring_nf
        _ ≤ _ := abs_sub _ _
    norm_num at h0 h1 ⊢
    linarith

/-- first stage: indices and residual -/
theorem snsStage1_f32 (el : Elem) {scf st1 r1 : List F32} {lf hf : Nat} (hs : ∀ v ∈ scf, IsF32 v)
    (h : @snsStage1 F32 (scalar el) scf = .ok (lf, hf, st1, r1)) :
    lf < 32 ∧ hf < 32 ∧ r1.length = 16 ∧ ∀ v ∈ r1, ∀ q, v = fin q → q = 0 ∨ 1 / 2 ^ 40 ≤ |q| := by
  letI := scalar el
  unfold snsStage1 at h
  split at h
  · cases h
  rename_i hlen
  simp only [ne_eq, not_not] at hlen
  obtain ⟨a, ha, h⟩ := bind_ok_inv h
  obtain ⟨b, hb, h⟩ := bind_ok_inv h
  simp only [Res.ok.injEq, Prod.mk.injEq] at h
  obtain ⟨e1, e2, e3, e4⟩ := h
  rw [e1] at ha
  rw [e2] at hb
  have hla : a.length = 8 := LFCB_shape.2 a (idx_mem ha)
  have hlb : b.length = 8 := HFCB_shape.2 b (idx_mem hb)
  refine ⟨?_, ?_, ?_, ?_⟩
  · rw [← LFCB_shape.1]; exact (List.getElem?_eq_some_iff.1 (idx_ok_iff.1 ha)).1
  · rw [← HFCB_shape.1]; exact (List.getElem?_eq_some_iff.1 (idx_ok_iff.1 hb)).1
  · rw [← e4]; simp [hlen, hla, hlb]
  · intro v hv
    rw [← e4] at hv
    obtain ⟨p, hp, rfl⟩ := List.mem_map.1 hv
    obtain ⟨h1, h2⟩ := List.of_mem_zip (show (p.1, p.2) ∈ _ from hp)
    obtain ⟨c, hc, e⟩ := List.mem_map.1 h2
    have hcge : (1 / 2 ^ 8 : ℚ) ≤ |c| := by
      rcases List.mem_append.1 hc with h | h
      · exact LFCB_ge _ (idx_mem ha) _ h
      · exact HFCB_ge _ (idx_mem hb) _ h
    intro q hq
    rw [← e] at hq
    exact sub_residual (hs _ h1) hcge q hq

/-- `C42_f32_partial` with the case without a pulse -/
theorem cands_f32 (el : Elem) {t : List F32} (ht : t.length = 16) (hr : ∀ v ∈ t, IsF32 v)
    (hs : NotTiny ((t.map absF).foldl F32.add (.fin 0))) :
    ∃ c, @snsCands F32 (F32.scalar el) t = .ok c ∧ c.y1.length = 10 ∧ ShapeVector 1 (candidateOf 1 c) ∧
      ShapeVector 2 (candidateOf 2 c) ∧ ShapeVector 3 (candidateOf 3 c) ∧
      (ShapeVector 0 (candidateOf 0 c) ∨ unitPulses (c.y0.drop 10) = 0) := by
  obtain ⟨h0, h5⟩ := snsProject_f32 el (t.map absF) (by simpa using ht) (fun v hv => by
    obtain ⟨w, hw, rfl⟩ := List.mem_map.1 hv
    exact absVal_of_rep (hr w hw)) hs
  obtain ⟨c, e, a1, a2, a3, a4, a5, a6⟩ := @snsCands_of_search F32 (F32.scalar el) t ht h0 (le_trans h5 (by norm_num))
  refine ⟨c, e, a1, a2, a3, a4, ?_⟩
  by_cases hc : ShapeVector 0 (candidateOf 0 c)
  · exact .inl hc
  · right
    rw [a5] at hc
    push Not at hc
    exact a6 fun a ha => by simpa using hc a ha

/-- second stage: the indices fit if it returns -/
theorem snsStage2_f32 (el : Elem) {r1 st1 : List F32} (hl : r1.length = 16)
    (hr : ∀ v ∈ r1, ∀ q, v = fin q → q = 0 ∨ 1 / 2 ^ 40 ≤ |q|) {s2 : SnsStage2 F32} (h : @snsStage2 F32 (scalar el) r1 st1 = .ok s2) :
    ∃ q : PulseIdx, s2.shapeJ < 4 ∧ s2.gind < gainCount s2.shapeJ ∧ (s2.lsInda = 0 ∨ s2.lsInda = 1) ∧
      s2.indexJoint = jointIndex s2.shapeJ s2.gind q.idxa q.idxb q.lsIndb ∧
      q.idxa < (if s2.shapeJ ≤ 1 then 2390004 else if s2.shapeJ = 2 then 15158272 else 774912) ∧
      (s2.shapeJ = 0 → q.idxb < 6 ∧ q.lsIndb ≤ 1) := by
  letI := scalar el
  have hlen : (@snsRotate F32 (scalar el) r1).length = 16 := @snsRotate_length F32 (scalar el) r1
  have hrep : ∀ v ∈ @snsRotate F32 (scalar el) r1, IsF32 v := by
    intro v hv
    unfold snsRotate at hv
    have hne : ∃ l x, r1.zip D = l ++ [x] := by
      have : r1.zip D ≠ [] := by
        intro h0
        have := congrArg List.length h0
        simp [hl, D_length] at this
      exact ⟨_, _, (List.dropLast_append_getLast this).symm⟩
    obtain ⟨l, x, e⟩ := hne
    rw [e, List.foldl_append, List.foldl_cons, List.foldl_nil] at hv
    obtain ⟨p, -, rfl⟩ := List.mem_map.1 hv
    exact isF32_add _ _
  obtain ⟨c, ec, c1, c2, c3, c4, c5⟩ := cands_f32 el hlen hrep (rotate_notTiny el hl hr)
  unfold snsStage2 at h
  simp only at h
  rw [ec, Res.bind_ok] at h
  have hch := snsChoose_range (@snsRotate F32 (scalar el) r1) (snsNormalize c.y0) (snsNormalize c.y1) (snsNormalize c.y2) (snsNormalize c.y3)
  generalize snsChoose (@snsRotate F32 (scalar el) r1) (snsNormalize c.y0) (snsNormalize c.y1) (snsNormalize c.y2) (snsNormalize c.y3) = s at h hch
  obtain ⟨g1, g2⟩ := hch
  obtain ⟨⟨J, lsa, lsb⟩, h3, h⟩ := bind_ok_inv h
  simp only [Res.ok.injEq] at h
  have hv : ShapeVector s.shapeJ (candidateOf s.shapeJ c) := by
    have hsh : s.shapeJ = 0 ∨ s.shapeJ = 1 ∨ s.shapeJ = 2 ∨ s.shapeJ = 3 := by omega
    rcases hsh with e | e | e | e <;> rw [e]
    · rcases c5 with c5 | c5
      · exact c5
      · rw [e] at h3
        exact absurd h3 (snsEnumerate_zero_panics c5)
    · exact c2
    · exact c3
    · exact c4
  obtain ⟨J', lsa', lsb', q, f1, f2, f3, f4, f5, -⟩ := snsEnumerate_vq (gind := s.gind) g1 c1 hv
  rw [h3] at f1
  simp only [Res.ok.injEq, Prod.mk.injEq] at f1
  obtain ⟨rfl, rfl, rfl⟩ := f1
  subst h
  exact ⟨q, g1, g2, f2, f3, f4, f5⟩

theorem snsTarget_f32 (el : Elem) {cfg : Lc3Config} {eb scf : List F32} {attack : Bool}
    (h : @snsTarget F32 (scalar el) cfg eb attack = .ok scf) : ∀ v ∈ scf, IsF32 v := by
  letI := scalar el
  unfold snsTarget at h
  obtain ⟨_, -, h⟩ := bind_ok_inv h
  obtain ⟨_, -, h⟩ := bind_ok_inv h
  simp only [Res.ok.injEq] at h
  subst h
  intro v hv
  unfold snsAttack at hv
  split at hv
  · simp only at hv
    obtain ⟨y, -, rfl⟩ := List.mem_map.1 hv
    exact isF32_mul _ _
  · unfold snsMeanRemoval at hv
    simp only at hv
    obtain ⟨y, -, rfl⟩ := List.mem_map.1 hv
    exact isF32_mul _ _

/-- noise shaping: the indices fit their fields -/
theorem snsEncRun_fits (el : Elem) {cfg : Lc3Config} {x eb : List F32} {attack : Bool} {r : SnsEncResult F32}
    (h : @snsEncRun F32 (scalar el) cfg x eb attack = .ok r) {p : FrameParams} (h1 : p.indLf = r.indLf) (h2 : p.indHf = r.indHf)
    (h3 : p.shapeJ = r.shapeJ) (h4 : p.gind = r.gind) (h5 : p.lsInda = i32AsUsize r.lsInda) (h6 : p.indexJoint = r.indexJoint) :
    ∃ q, SnsFits p q := by
  letI := scalar el
  unfold snsEncRun at h
  split at h
  · cases h
  obtain ⟨scf, e1, h⟩ := bind_ok_inv h
  obtain ⟨⟨lf, hf, st1, r1⟩, e2, h⟩ := bind_ok_inv h
  obtain ⟨s2, e3, h⟩ := bind_ok_inv h
  obtain ⟨fac, -, h⟩ := bind_ok_inv h
  obtain ⟨tab, -, h⟩ := bind_ok_inv h
  obtain ⟨y, -, h⟩ := bind_ok_inv h
  simp only [Res.ok.injEq] at h
  subst h
  simp only at h1 h2 h3 h4 h5 h6
  obtain ⟨a1, a2, a3, a4⟩ := snsStage1_f32 el (snsTarget_f32 el e1) e2
  obtain ⟨q, g3, g4, g5, g6, g7, g8⟩ := snsStage2_f32 el a3 a4 e3
  have hls : i32AsUsize s2.lsInda ≤ 1 := by rcases g5 with e | e <;> rw [e] <;> decide
  exact ⟨q, by rw [h1]; exact a1, by rw [h2]; exact a2, by rw [h3]; exact g3, by rw [h3, h4]; exact g4, by rw [h5]; exact hls,
    by rw [h6, h3, h4]; exact g6, by rw [h3]; exact g7, by rw [h3]; exact g8⟩

/-- the parameters of an analysis in binary32, for all elementary functions -/
theorem encAnalyse_f32 (el : Elem) {f : SamplingFrequency} {d : FrameDuration} {ch : EncChannel F32} (hi : ch.Inv (Lc3Config.new f d))
    {x : List Int} {nbytes : Nat} (hN : nbytes < 4096) {a : EncAnalysis F32}
    (h : @encAnalyse F32 (scalar el) (Lc3Config.new f d) ch x nbytes = .ok a) (hg8 : a.p.ggInd < 256)
    (hne : ∀ v ∈ a.p.xq.take a.p.lastnz, v ≠ -32768) :
    ∃ q : PulseIdx, SideOk (Lc3Config.new f d) a.p q ∧ DataOk (Lc3Config.new f d) nbytes a.p ∧
      a.gg = @globalGainFactor F32 (scalar el) (8 * nbytes) (Lc3Config.new f d).fsInd a.p.ggInd := by
  letI := scalar el
  have hpar := fun q => encAnalyse_params (q := q) hi h (C39_range el)
  obtain ⟨freq, out, eb, nn, bwInd, nbitsBw, attack, det, sns, tns, ltpf, pf, quant, spec, res, nf, e1, e2, e3, e4, e5, e6, e7,
    e8, e9, e10, ha⟩ := encAnalyse_inv h
  obtain ⟨q, hq⟩ := snsEncRun_fits el e5 (p := a.p) (by rw [ha]) (by rw [ha]) (by rw [ha]) (by rw [ha]) (by rw [ha]) (by rw [ha])
  obtain ⟨h1, h2⟩ := hpar q hq
  have hg := quantRun_i16 e8
  have hg8' : i32AsUsize spec.ggInd < 256 := by rw [ha] at hg8; exact hg8
  have hg0 : 0 ≤ spec.ggInd := by
    unfold i32AsUsize at hg8'
    omega
  have hgi : i32AsUsize spec.ggInd = spec.ggInd.toNat := i32AsUsize_of_nonneg hg0 (by omega)
  refine ⟨q, h1 hg8, h2 hne, ?_⟩
  · have := C25_run (by omega) e8 hg0
    rw [ha]
    simp only
    rw [this, hgi, Nat.mul_comm]

end F32
end Lc3
