import Verif.Lemmas.TnsStable
import Verif.Props.Silence
/-!
# C75: the temporal noise shaping of spectra that are not too smooth
-/

namespace Lc3
open Scalar Spec Finset

/-- **C75** In exact arithmetic the temporal noise shaping of the encoder returns, with at most 180 bits and as many lines as before, for
every configuration, every bandwidth, every frame size and every spectrum, unless the spectrum is extremely smooth in one of the
ranges of the filters: as long as no filter of order 8 removes the three parts of a range up to 10⁻¹⁵ of their energy (or one of the
parts is empty), the autocorrelation keeps its definiteness under the lag window of the code, all reflection coefficients have a
magnitude below one and all of their indices are in the tables. -/
theorem C75 {f : SamplingFrequency} {d : FrameDuration} {bw nbits : Nat} {nn : Bool} (hb : bw ≤ (Lc3Config.new f d).fsInd)
    {x : List ℝ} (hx : x.length = (Lc3Config.new f d).ne)
    (hs : ∀ p, tnsParams (Lc3Config.new f d).nMs bw = .ok p → ∀ s ∈ p.subs, (∀ q ∈ s, partEnergy x q ≠ 0) → NotSmooth x s) :
    StableTns (Lc3Config.new f d) x bw nbits nn ∧
    ∃ res, tnsEncRun (Lc3Config.new f d) x bw nbits nn = .ok res ∧ res.nbitsTns ≤ 180 ∧ res.lines.length = x.length := by
  have hst : StableTns (Lc3Config.new f d) x bw nbits nn := by
    intro p hp s hsm r hr
    obtain ⟨p', hp', -, hsub⟩ := tnsParams_returns hb
    rw [hp] at hp'
    simp only [Res.ok.injEq] at hp'
    subst hp'
    have h3 : s.length = 3 := by
      have key : ∀ d, ∀ bw < 5, (match tnsParams d bw with
          | .ok p => decide (∀ s ∈ p.subs, s.length = 3)
          | _ => false) = true := by
        intro d
        cases d <;> decide
      have h5 : bw < 5 := by
        have : (Lc3Config.new f d).fsInd < 5 := by cases f <;> cases d <;> decide
        omega
      have := key (Lc3Config.new f d).nMs bw h5
      rw [hp] at this
      simp only [decide_eq_true_eq] at this
      exact this s hsm
    exact C74 (tnsCorr_nonsingular (by rw [hx]; exact hsub s hsm) h3 (hs p hp s hsm) hr) nn _
  exact ⟨hst, tnsEncRun_returns hb hx hst⟩

/-- C55 with the condition on the spectrum instead of the one on the reflection coefficients -/
theorem C75_frame {f : SamplingFrequency} {d : FrameDuration} {ch : EncChannel ℝ} (hi : ch.Inv (Lc3Config.new f d)) {x : List Int}
    (hx : x.length = (Lc3Config.new f d).nf) {nbytes : Nat} (h32 : 32 ≤ nbytes) (hN : nbytes < 4096)
    (hshape : ∀ freq out eb nn att det scf lf hf st1 r1, mdctEncRun (α := ℝ) (Lc3Config.new f d) ch.freq x = .ok (freq, out, eb, nn) →
      attackRun (Lc3Config.new f d) ch.attack x nbytes = .ok (att, det) → snsTarget (Lc3Config.new f d) eb det = .ok scf →
      snsStage1 scf = .ok (lf, hf, st1, r1) → ∃ a ∈ (snsRotate r1).drop 10, a ≠ 0)
    (hsmooth : ∀ freq out eb nn bw nbw att det sns, mdctEncRun (α := ℝ) (Lc3Config.new f d) ch.freq x = .ok (freq, out, eb, nn) →
      bwRun ch.bw eb = .ok (bw, nbw) → attackRun (Lc3Config.new f d) ch.attack x nbytes = .ok (att, det) →
      snsEncRun (Lc3Config.new f d) (out.take (Lc3Config.new f d).ne) eb det = .ok sns →
      ∀ p, tnsParams (Lc3Config.new f d).nMs bw = .ok p → ∀ s ∈ p.subs, (∀ q ∈ s, partEnergy sns.x q ≠ 0) → NotSmooth sns.x s)
    (hrange : ∀ freq out eb nn bw nbw att det sns tns, mdctEncRun (α := ℝ) (Lc3Config.new f d) ch.freq x = .ok (freq, out, eb, nn) →
      bwRun ch.bw eb = .ok (bw, nbw) → attackRun (Lc3Config.new f d) ch.attack x nbytes = .ok (att, det) →
      snsEncRun (Lc3Config.new f d) (out.take (Lc3Config.new f d).ne) eb det = .ok sns →
      tnsEncRun (Lc3Config.new f d) sns.x bw (nbytes * 8) nn = .ok tns →
      ∀ y ∈ tns.lines, |y| ≤ Spec.maxLine (8 * nbytes) (Lc3Config.new f d).fsInd) :
    ∃ a, encAnalyse (Lc3Config.new f d) ch x nbytes = .ok a := by
  refine C55 hi hx h32 hN ⟨hshape, fun freq out eb nn bw nbw att det sns h1 h2 h3 h4 => ?_, hrange⟩
  obtain ⟨hfreq, hbw, hltpf, hout, heb, hxq⟩ := hi
  have hfs : (Lc3Config.new f d).fsInd ≤ 4 := by cases f <;> cases d <;> decide
  have hnb : (Lc3Config.new f d).nb = 64 := by
    cases f <;> cases d <;> first | rfl | exact absurd hbw (by rw [show (Lc3Config.new .hz8000 .sevenPointFiveMs).fsInd = 0 from rfl, bwNew_zero]; simp)
  obtain ⟨bw', nbw', e2, hle, -⟩ := C34 _ hfs hbw (eb := eb) (by rw [(mdctEncRun_eb h1).2, hnb])
  rw [h2] at e2
  simp only [Res.ok.injEq, Prod.mk.injEq] at e2
  exact (C75 (by rw [e2.1]; exact hle) (snsEncRun_len h4).2 (hsmooth freq out eb nn bw nbw att det sns h1 h2 h3 h4)).1

/-! ## Examples -/

/-- the autocorrelation of a part with one line -/
theorem partCorr_single {x : List ℝ} {p : ℕ × ℕ} {n : ℕ} (h1 : p.1 ≤ n) (h2 : n < p.2)
    (h : ∀ i, p.1 ≤ i → i < p.2 → x.getD i 0 = if i = n then 1 else 0) (k : ℕ) : partCorr x p k = if k = 0 then 1 else 0 := by
  have hf : ∀ s, partFn x p s = if s = n - p.1 then 1 else 0 := by
    intro s
    unfold partFn
    split
    · rw [h _ (by omega) (by omega)]
      by_cases hs : s = n - p.1
      · rw [if_pos hs, if_pos (by omega)]
      · rw [if_neg hs, if_neg (by omega)]
    · rw [if_neg (by omega)]
  unfold partCorr
  rw [Finset.sum_eq_single (n - p.1)]
  · rw [hf, hf, if_pos rfl, one_mul]
    by_cases hk : k = 0
    · rw [if_pos (by omega), if_pos hk]
    · rw [if_neg (by omega), if_neg hk]
  · intro s _ hs
    rw [hf, if_neg hs, zero_mul]
  · intro hs
    simp at hs
    omega

/-- one line in every part: a spectrum of the narrowest band that is not smooth and has no empty part -/
example : ∃ x : List ℝ, x.length = (Lc3Config.new .hz8000 .tenMs).ne ∧ ∀ p, tnsParams (Lc3Config.new .hz8000 .tenMs).nMs 0 = .ok p →
    ∀ s ∈ p.subs, (∀ q ∈ s, partEnergy x q ≠ 0) ∧ NotSmooth x s := by
  refine ⟨(List.range 80).map fun i => if i = 20 ∨ i = 40 ∨ i = 70 then 1 else 0, rfl, fun p hp s hs => ?_⟩
  have hx : ∀ i < 80, ((List.range 80).map fun i => if i = 20 ∨ i = 40 ∨ i = 70 then (1 : ℝ) else 0).getD i 0 =
      if i = 20 ∨ i = 40 ∨ i = 70 then 1 else 0 := by
    intro i hi
    rw [List.getD_eq_getElem?_getD, List.getElem?_map, List.getElem?_range hi]
    rfl
  generalize ((List.range 80).map fun i => if i = 20 ∨ i = 40 ∨ i = 70 then (1 : ℝ) else 0) = x at *
  have hp' : p = ⟨1, [(12, 80)], [[(12, 34), (34, 57), (57, 80)]]⟩ := by
    have : tnsParams (Lc3Config.new .hz8000 .tenMs).nMs 0 = .ok ⟨1, [(12, 80)], [[(12, 34), (34, 57), (57, 80)]]⟩ := rfl
    rw [this] at hp
    simp only [Res.ok.injEq] at hp
    exact hp.symm
  subst hp'
  simp only [List.mem_singleton] at hs
  subst hs
  have c1 := partCorr_single (x := x) (p := (12, 34)) (n := 20) (by norm_num) (by norm_num) (fun i h1 h2 => by
    simp only at h1 h2
    rw [hx i (by omega)]
    by_cases hi : i = 20
    · rw [if_pos (by omega), if_pos hi]
    · rw [if_neg (by omega), if_neg hi])
  have c2 := partCorr_single (x := x) (p := (34, 57)) (n := 40) (by norm_num) (by norm_num) (fun i h1 h2 => by
    simp only at h1 h2
    rw [hx i (by omega)]
    by_cases hi : i = 40
    · rw [if_pos (by omega), if_pos hi]
    · rw [if_neg (by omega), if_neg hi])
  have c3 := partCorr_single (x := x) (p := (57, 80)) (n := 70) (by norm_num) (by norm_num) (fun i h1 h2 => by
    simp only at h1 h2
    rw [hx i (by omega)]
    by_cases hi : i = 70
    · rw [if_pos (by omega), if_pos hi]
    · rw [if_neg (by omega), if_neg hi])
  have en : ∀ q, partEnergy x q = partCorr x q 0 := by
    intro q
    rw [← partFn_sq]
    unfold partCorr
    exact Finset.sum_congr rfl fun s _ => by rw [add_zero, _root_.sq]
  have fe : ∀ b : ℕ → ℝ, filteredEnergy (fun k => if k = 0 then 1 else 0) b = ∑ i ∈ range 9, b i ^ 2 := by
    intro b
    unfold filteredEnergy
    refine Finset.sum_congr rfl fun m hm => ?_
    rw [Finset.sum_eq_single m]
    · show b m * b m * (if lag m m = 0 then 1 else 0) = _
      rw [if_pos (by unfold lag; omega)]
      ring
    · intro n _ hne
      show b m * b n * (if lag m n = 0 then 1 else 0) = 0
      rw [if_neg (by unfold lag; omega), mul_zero]
    · intro hn; exact absurd hm hn
  refine ⟨fun q hq => ?_, fun b => ?_⟩
  · rw [en]
    simp only [List.mem_cons, List.not_mem_nil, or_false] at hq
    rcases hq with rfl | rfl | rfl
    · rw [c1]; norm_num
    · rw [c2]; norm_num
    · rw [c3]; norm_num
  · simp only [List.map_cons, List.map_nil, List.sum_cons, List.sum_nil, partFiltered_eq, en, funext c1, funext c2, funext c3, fe]
    have : 0 ≤ ∑ i ∈ range 9, b i ^ 2 := Finset.sum_nonneg fun i _ => sq_nonneg _
    norm_num
    linarith

end Lc3
