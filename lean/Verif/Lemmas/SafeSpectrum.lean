import Verif.Lemmas.ListM
import Verif.Lemmas.Deenum
import Verif.Lemmas.SafeRead
import Verif.Model.DecSpectrum
/-! The spectral stages of the decoder do not panic and keep the number of lines. -/

namespace Lc3
open Scalar Tables
variable {α : Type} [Scalar α]

theorem residualLoop_length : ∀ (bits : List Bool) (l : List α), (residualLoop bits l).length = l.length
  | bits, [] => by cases bits <;> rfl
  | bits, x :: xs => by
    rw [residualLoop.eq_def]
    simp only
    split
    · split
      · rfl
      · simp [residualLoop_length]
    · simp [residualLoop_length]

theorem residualDecode_length (m : Bool) (bits : List Bool) (l : List α) :
    (residualDecode m bits l).length = l.length := by
  unfold residualDecode; split
  · exact residualLoop_length _ _
  · rfl

theorem safe_noiseNext {s : Nat} (h : s < 65536) : Safe (noiseNext s) (fun v => v < 65536) := by
  unfold noiseNext
  rw [if_neg (by omega)]
  simp only [safe_ok]
  exact lt_of_le_of_lt Nat.and_le_right (by norm_num)

theorem safe_noiseFillLoop {stop start width : Nat} {level : α} {ints : List Int} (hw : width ≤ start)
    (hs : stop ≤ ints.length) : ∀ (lines : List α) (k seed : Nat), seed < 65536 →
    Safe (noiseFillLoop stop start width level ints k seed lines) (fun l => l.length = lines.length)
  | [], _, _, _ => by simp [noiseFillLoop]
  | x :: xs, k, seed, hseed => by
    rw [noiseFillLoop]
    refine Safe.ite ?_ ?_
    · intro _
      refine (safe_noiseFillLoop hw hs xs (k + 1) seed hseed).bind ?_
      intro l hl; simp [hl]
    · intro hk
      refine (safe_usub (by omega)).bind ?_
      intro lo hlo
      refine (safe_usub (by omega)).bind ?_
      intro s1 hs1
      refine Safe.ite (fun hc => absurd hc (by omega)) (fun _ => ?_)
      refine Safe.ite (fun _ => ?_) (fun _ => ?_)
      · refine (safe_noiseNext hseed).bind ?_
        intro s' hs'
        refine (safe_noiseFillLoop hw hs xs (k + 1) s' hs').bind ?_
        intro l hl; simp [hl]
      · refine (safe_noiseFillLoop hw hs xs (k + 1) seed hseed).bind ?_
        intro l hl; simp [hl]

theorem bwStop_le {d : FrameDuration} {bw : Nat} (h : bw ≤ 4) :
    Safe (idx (bwStopTable d) bw) (fun s => s ≤ 400 ∧ 60 ≤ s) := by
  cases d
  · refine (safe_idx_mem (l := bwStopTable .sevenPointFiveMs) (by simp [bwStopTable]; omega)).mono ?_
    simp [bwStopTable]
  · refine (safe_idx_mem (l := bwStopTable .tenMs) (by simp [bwStopTable]; omega)).mono ?_
    simp [bwStopTable]

theorem safe_noiseFilling {z : Bool} {seed bw : Nat} {d : FrameDuration} {nf : Nat} {ints : List Int}
    {lines : List α} (hb : bw ≤ 4) (hseed : seed < 65536) (hi : ints.length = 400) :
    Safe (noiseFilling z seed bw d nf ints lines) (fun l => l.length = lines.length) := by
  unfold noiseFilling
  refine Safe.ite (fun _ => ?_) (fun _ => rfl)
  refine (bwStop_le hb).bind ?_
  intro stop hstop
  exact safe_noiseFillLoop (by cases d <;> simp [nfWidth, nfStart]) (by omega) _ _ _ hseed

theorem globalGain_length (n f g : Nat) (l : List α) : (globalGain n f g l).length = l.length := by
  simp [globalGain]

theorem safe_latticeLoop {rc : List α} {off : Nat} : ∀ (k : Nat) (t : α) (st : List α), k + off ≤ rc.length →
    k < st.length → Safe (latticeLoop rc off k t st) (fun p => p.2.length = st.length)
  | 0, t, st, _, _ => rfl
  | k + 1, t, st, h1, h2 => by
    rw [latticeLoop]
    refine (safe_idx (by omega)).bind ?_
    intro r _
    refine (safe_idx (by omega)).bind ?_
    intro s _
    refine (safe_setIdx _ h2).bind ?_
    intro st' hst'
    refine (safe_latticeLoop k _ st' (by omega) (by subst hst'; simp; omega)).mono ?_
    intro p hp; subst hst'; simpa using hp

theorem safe_latticeLine {rc : List α} {off order : Nat} {x : α} {st : List α} (ho : 1 ≤ order)
    (h1 : order + off ≤ rc.length) (h2 : order ≤ st.length) :
    Safe (latticeLine rc off order x st) (fun p => p.2.length = st.length) := by
  unfold latticeLine
  refine (safe_idx (by omega)).bind ?_
  intro r _
  refine (safe_idx (by omega)).bind ?_
  intro s _
  refine (safe_latticeLoop _ _ _ (by omega) (by omega)).bind ?_
  rintro ⟨t, st1⟩ hl
  simp only at hl ⊢
  refine (safe_setIdx _ (by omega)).bind ?_
  intro st2 hst2
  simp [hst2, hl]

theorem safe_latticeBand {rc : List α} {off order : Nat} (ho : 1 ≤ order)
    (h1 : order + off ≤ rc.length) : ∀ (xs st : List α), order ≤ st.length →
    Safe (latticeBand rc off order xs st) (fun p => p.1.length = xs.length ∧ p.2.length = st.length)
  | [], st, _ => by simp [latticeBand]
  | x :: xs, st, h2 => by
    rw [latticeBand]
    refine (safe_latticeLine ho h1 h2).bind ?_
    rintro ⟨t, st1⟩ hl
    simp only at hl ⊢
    refine (safe_latticeBand ho h1 xs st1 (by omega)).bind ?_
    rintro ⟨l, st2⟩ ⟨e1, e2⟩
    simp only at e1 e2 ⊢
    simp [e1, e2, hl]

theorem safe_tnsLoop {rc : List α} (hrc : rc.length = 16) : ∀ (bands : List (Nat × Nat)) (orders : List Nat)
    (f : Nat) (lines st : List α), f + bands.length ≤ 2 → (∀ p ∈ bands, p.1 ≤ p.2 ∧ p.2 ≤ lines.length) →
    (∀ o ∈ orders, o ≤ 8) → st.length = 8 →
    Safe (tnsLoop rc f bands orders lines st) (fun l => l.length = lines.length)
  | [], orders, f, lines, st, _, _, _, _ => by simp [tnsLoop]
  | (a, b) :: bands, [], f, lines, st, _, _, _, _ => by simp [tnsLoop]
  | (a, b) :: bands, o :: orders, f, lines, st, hf, hb, ho, hst => by
    rw [tnsLoop]
    have hb0 := hb (a, b) (by simp)
    have ho0 := ho o (by simp)
    simp only [List.length_cons] at hf
    refine Safe.ite (fun h => ?_) (fun _ => ?_)
    · refine (safe_latticeBand h (by omega) _ _ (by omega)).bind ?_
      rintro ⟨l, st1⟩ ⟨e1, e2⟩
      simp only at e1 e2 hb0 ⊢
      have hlen : (lines.take a ++ l ++ lines.drop b).length = lines.length := by
        simp only [List.length_append, List.length_take, List.length_drop, e1]; omega
      refine (safe_tnsLoop hrc bands orders (f + 1) _ st1 (by omega) ?_ (fun o h => ho o (by simp [h]))
        (by omega)).mono ?_
      · intro p hp; rw [hlen]; exact hb p (by simp [hp])
      · intro r hr; rw [hr, hlen]
    · exact safe_tnsLoop hrc bands orders (f + 1) lines st (by omega) (fun p hp => hb p (by simp [hp]))
        (fun o h => ho o (by simp [h])) hst

theorem rcQuant_length {ints : List Nat} (h : ints.length = 16) : (rcQuant ints : List α).length = 16 := by
  simp [rcQuant, h]

theorem tnsBands_le {d : FrameDuration} {bw : Nat} : ∀ p ∈ tnsBandsDec d bw, p.1 ≤ p.2 := by
  unfold tnsBandsDec
  split <;> decide

theorem tnsBands_length {d : FrameDuration} {bw : Nat} : (tnsBandsDec d bw).length ≤ 2 := by
  unfold tnsBandsDec
  split <;> decide

theorem safe_tnsDecode {d : FrameDuration} {bw nt : Nat} {orders ints : List Nat} {lines : List α}
    (hb : ∀ p ∈ tnsBandsDec d bw, p.2 ≤ lines.length) (hn : nt ≤ orders.length) (ho : ∀ o ∈ orders, o ≤ 8)
    (hi : ints.length = 16) :
    Safe (tnsDecode d bw nt orders ints lines) (fun l => l.length = lines.length) := by
  unfold tnsDecode
  simp only
  refine Safe.ite (fun h => ?_) (fun _ => ?_)
  · simp only [List.any_eq_true, decide_eq_true_eq] at h
    obtain ⟨p, hp, hlt⟩ := h
    exact absurd (hb p hp) (by omega)
  refine Safe.ite (fun h => absurd h (by omega)) (fun _ => ?_)
  refine safe_tnsLoop (rcQuant_length hi) _ _ _ _ _ (by have := @tnsBands_length d bw; omega) ?_ ?_ (by simp)
  · intro p hp; exact ⟨tnsBands_le p hp, hb p hp⟩
  · intro o h; exact ho o (List.mem_of_mem_take h)

theorem safe_snsPulses {cfg : Lc3Config} {si : SideInfo} (h : SideBounds cfg si) :
    Safe (snsPulses si.snsVq) (fun y => y.length = 16) := by
  have hl := h.lsb
  have hm := h.msb
  have ha := h.idxA
  have hb := h.idxB
  unfold snsPulses
  obtain hl | hl : si.snsVq.submodeLsb = 0 ∨ si.snsVq.submodeLsb = 1 := by omega
  all_goals obtain hm | hm : si.snsVq.submodeMsb = 0 ∨ si.snsVq.submodeMsb = 1 := by omega
  all_goals simp only [hl, hm, Nat.reduceShiftLeft, Nat.reduceAdd, if_true, one_ne_zero, if_false] at ha ⊢
  · obtain ⟨l, e1, e2, -⟩ := mpvqDeenum_ok (dim := 10) (k := 10) (ls := si.snsVq.lsInda) (by omega) (by omega)
      (by rw [mpvqM_10_10]; exact ha)
    obtain ⟨l', e1', e2', -⟩ := mpvqDeenum_ok (dim := 6) (k := 1) (ls := si.snsVq.lsIndb) (by omega) (by omega)
      (by rw [mpvqM_6_1]; exact hb)
    rw [e1, e1']; simp [e2, e2']
  · obtain ⟨l, e1, e2, -⟩ := mpvqDeenum_ok (dim := 16) (k := 8) (ls := si.snsVq.lsInda) (by omega) (by omega)
      (by rw [mpvqM_16_8]; exact ha)
    rw [e1]; simp [e2]
  · obtain ⟨l, e1, e2, -⟩ := mpvqDeenum_ok (dim := 10) (k := 10) (ls := si.snsVq.lsInda) (by omega) (by omega)
      (by rw [mpvqM_10_10]; exact ha)
    rw [e1]; simp [e2]
  · obtain ⟨l, e1, e2, -⟩ := mpvqDeenum_ok (dim := 16) (k := 6) (ls := si.snsVq.lsInda) (by omega) (by omega)
      (by rw [mpvqM_16_6]; exact ha)
    rw [e1]; simp [e2]

theorem safe_snsGain {cfg : Lc3Config} {si : SideInfo} (h : SideBounds cfg si) :
    Safe (snsGain si.snsVq) (fun _ => True) := by
  have hl := h.lsb
  have hm := h.msb
  have hg := h.gain
  unfold snsGain
  obtain hl | hl : si.snsVq.submodeLsb = 0 ∨ si.snsVq.submodeLsb = 1 := by omega
  all_goals obtain hm | hm : si.snsVq.submodeMsb = 0 ∨ si.snsVq.submodeMsb = 1 := by omega
  all_goals simp only [hl, hm, Nat.reduceShiftLeft, Nat.reduceAdd, if_true, one_ne_zero, if_false] at hg ⊢
  all_goals refine (safe_idx ?_).mono (fun _ _ => trivial)
  · have : SNS_VQ_REG_ADJ_GAINS.length = 2 := by decide
    omega
  · have : SNS_VQ_NEAR_ADJ_GAINS.length = 4 := by decide
    omega
  · have : SNS_VQ_REG_LF_ADJ_GAINS.length = 4 := by decide
    omega
  · have : SNS_VQ_FAR_ADJ_GAINS.length = 8 := by decide
    omega

theorem D_length : D.length = 16 := by simp [D]; decide

theorem LFCB_shape : LFCB.length = 32 ∧ ∀ r ∈ LFCB, r.length = 8 := by
  constructor
  · simp [LFCB]; decide
  · intro r hr
    simp only [LFCB, List.mem_map] at hr
    obtain ⟨a, ha, rfl⟩ := hr
    have h : ∀ r ∈ LFCB_num, r.length = 8 := by decide
    simpa using h a ha

theorem HFCB_shape : HFCB.length = 32 ∧ ∀ r ∈ HFCB, r.length = 8 := by
  constructor
  · simp [HFCB]; decide
  · intro r hr
    simp only [HFCB, List.mem_map] at hr
    obtain ⟨a, ha, rfl⟩ := hr
    have h : ∀ r ∈ HFCB_num, r.length = 8 := by decide
    simpa using h a ha

theorem safe_snsScaleFactors {cfg : Lc3Config} {si : SideInfo} (h : SideBounds cfg si) :
    Safe (snsScaleFactors si.snsVq : Res (List α)) (fun l => l.length = 16) := by
  unfold snsScaleFactors
  refine (safe_idx_mem (by rw [LFCB_shape.1]; exact h.lf)).bind ?_
  intro lf hlf
  refine (safe_idx_mem (by rw [HFCB_shape.1]; exact h.hf)).bind ?_
  intro hf hhf
  refine (safe_snsPulses h).bind ?_
  intro y _
  refine (safe_snsGain h).bind ?_
  intro g _
  simp [D_length, LFCB_shape.2 lf hlf, HFCB_shape.2 hf hhf]

theorem interpTail_length : ∀ (p : α) (l : List α), l ≠ [] → (interpTail p l).length = 4 * l.length - 2
  | p, [], h => absurd rfl h
  | p, [a], _ => by simp [interpTail]
  | p, a :: b :: l, _ => by
    rw [interpTail, List.length_append, interpTail_length a (b :: l) (by simp)]
    simp [interp4]; omega

theorem snsInterp_length {l : List α} (h : l.length = 16) : (snsInterp l).length = 64 := by
  cases l with
  | nil => simp at h
  | cons a l =>
    have := interpTail_length a (a :: l) (by simp)
    simp only [snsInterp, List.length_cons] at this h ⊢
    rw [this]; omega

theorem safe_snsReduce {nb : Nat} {f : List α} (h1 : 32 ≤ nb) (h2 : nb ≤ 64) (hf : f.length = 64) :
    Safe (snsReduce nb f) (fun l => nb ≤ l.length) := by
  unfold snsReduce
  refine (safe_usub h2).bind ?_
  intro n2 hn2
  refine Safe.ite (fun _ => ?_) (fun _ => by simp [hf, h2])
  refine (safe_mapM (P := fun _ => True) ?_).bind ?_
  · intro i hi
    simp only [List.mem_range] at hi
    refine (safe_idx (by omega)).bind fun _ _ => ?_
    refine (safe_idx (by omega)).bind fun _ _ => ?_
    trivial
  · intro a ha
    refine (safe_mapM (P := fun _ => True) ?_).bind ?_
    · intro i hi
      simp only [List.mem_range] at hi
      exact (safe_idx (by omega)).mono fun _ _ => trivial
    · intro b hb
      simp only [List.length_range, safe_ok, List.length_append] at *
      omega

theorem safe_snsGains {cfg : Lc3Config} {si : SideInfo} (h : SideBounds cfg si) (h1 : 32 ≤ cfg.nb)
    (h2 : cfg.nb ≤ 64) : Safe (snsGains cfg.nb si.snsVq : Res (List α)) (fun l => l.length = cfg.nb) := by
  unfold snsGains
  refine (safe_snsScaleFactors h).bind ?_
  intro scf hs
  refine (safe_snsReduce h1 h2 (snsInterp_length hs)).bind ?_
  intro f hf
  simp [hf]

/-- structure of a band table with `nb` bands for `ne` lines -/
structure BandTab (tab : List Nat) (nb ne : Nat) : Prop where
  len : tab.length = nb + 1
  first : tab.getD 0 0 = 0
  last : tab.getD nb 0 = ne
  mono : ∀ b < nb, tab.getD b 0 < tab.getD (b + 1) 0
  le : ∀ v ∈ tab, v ≤ ne

theorem bandTable_ok (f : SamplingFrequency) (d : FrameDuration) :
    ∃ tab, bandTable (Lc3Config.new f d).nMs (Lc3Config.new f d).fsInd = .ok tab ∧
      BandTab tab (Lc3Config.new f d).nb (Lc3Config.new f d).ne := by
  cases f <;> cases d <;>
  exact ⟨_, rfl, ⟨by decide +kernel, by decide +kernel, by decide +kernel, by decide +kernel, by decide +kernel⟩⟩

theorem safe_shapeLoop {tab : List Nat} {nb ne : Nat} (ht : BandTab tab nb ne) : ∀ (gs : List α) (b : Nat)
    (lines : List α), b + gs.length ≤ nb → lines.length = ne →
    Safe (shapeLoop tab b gs lines) (fun l => l.length = ne)
  | [], _, lines, _, hl => by simpa [shapeLoop] using hl
  | g :: gs, b, lines, hb, hl => by
    rw [shapeLoop]
    simp only [List.length_cons] at hb
    have hlen := ht.len
    refine (safe_idx (show b < tab.length by omega)).bind ?_
    intro i0 h0
    refine (safe_idx (show b + 1 < tab.length by omega)).bind ?_
    intro i1 h1
    have hm := ht.mono b (by omega)
    rw [List.getD_eq_getElem _ _ (show b < tab.length by omega),
      List.getD_eq_getElem _ _ (show b + 1 < tab.length by omega), ← h0, ← h1] at hm
    have hle : i1 ≤ ne := by rw [h1]; exact ht.le _ (List.getElem_mem _)
    have hs : Safe (scaleRange lines i0 i1 g) (fun l => l.length = ne) := by
      unfold scaleRange
      rw [if_pos ⟨by omega, by omega⟩]
      simp only [safe_ok, List.length_append, List.length_map, List.length_take, List.length_drop]
      omega
    refine hs.bind ?_
    intro l hl'
    exact safe_shapeLoop ht gs (b + 1) l (by omega) hl'

theorem safe_snsDecode {f : SamplingFrequency} {d : FrameDuration} {si : SideInfo}
    (h : SideBounds (Lc3Config.new f d) si) {lines : List α} (hl : lines.length = (Lc3Config.new f d).ne) :
    Safe (snsDecode (Lc3Config.new f d) si.snsVq lines) (fun l => l.length = (Lc3Config.new f d).ne) := by
  unfold snsDecode
  refine (safe_snsGains h (by cases f <;> cases d <;> decide) (by cases f <;> cases d <;> decide)).bind ?_
  intro g hg
  obtain ⟨tab, e, ht⟩ := bandTable_ok f d
  rw [e]
  simp only [Res.bind_ok]
  exact safe_shapeLoop ht g 0 lines (by omega) hl

end Lc3
