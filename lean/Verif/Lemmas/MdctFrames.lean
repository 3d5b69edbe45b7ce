import Verif.Lemmas.Mdct
import Verif.Spec.Overlap
/-! Analysis and synthesis of a sequence of frames in exact arithmetic. -/

namespace Lc3
open Scalar Finset

/-- what the proofs need about a configuration and its window -/
structure MdctOk (cfg : Lc3Config) (h : Nat) (wn : List Rat) : Prop where
  nf : cfg.nf = 2 * h
  fac : ∃ fac, kfFactor h = .ok fac ∧ FacOk fac h
  z : 2 * cfg.z ≤ cfg.nf
  ne : cfg.ne ≤ cfg.nf
  win : windowOf cfg.nMs cfg.nf = .ok wn
  len : wn.length = 4 * h
  tail : ∀ p, 2 * cfg.nf - cfg.z ≤ p → wn.getD p 0 = 0

theorem mdctUpdate_ok {cfg : Lc3Config} {freq x freq' : List Int} (hz : 2 * cfg.z ≤ cfg.nf)
    (hl : freq.length = 2 * cfg.nf) (h : mdctUpdate cfg freq x = .ok freq') :
    x.length = cfg.nf ∧ freq'.length = 2 * cfg.nf ∧ (∀ p, p < cfg.nf - cfg.z → freq'.getD p 0 = freq.getD (cfg.nf + p) 0) ∧
      ∀ p, p < cfg.nf → freq'.getD (cfg.nf - cfg.z + p) 0 = x.getD p 0 := by
  unfold mdctUpdate usub at h
  rw [if_pos (by omega), Res.bind_ok] at h
  split at h
  · cases h
  · rename_i hx
    have hx : x.length = cfg.nf := by omega
    cases h
    refine ⟨hx, ?_, ?_, ?_⟩
    · simp only [List.length_append, List.length_take, List.length_drop]; omega
    · intro p hp
      simp only [List.getD_eq_getElem?_getD]
      rw [List.append_assoc, List.getElem?_append_left (by simp only [List.length_take, List.length_drop]; omega),
        List.getElem?_take_of_lt hp, List.getElem?_drop]
    · intro p hp
      simp only [List.getD_eq_getElem?_getD]
      rw [List.getElem?_append_left (by simp only [List.length_append, List.length_take, List.length_drop]; omega),
        List.getElem?_append_right (by simp only [List.length_take, List.length_drop]; omega)]
      congr 2
      simp only [List.length_take, List.length_drop]
      omega

/-- entry `p` of the synthesised double frame: aliased and windowed -/
noncomputable def aliasAt (n : Nat) (freq : List Int) (wn : List Rat) (p : Nat) : ℝ :=
  (if p < n then wsample freq wn p - wsample freq wn (n - 1 - p)
    else wsample freq wn p + wsample freq wn (3 * n - 1 - p)) * (wn.getD (2 * n - 1 - p) 0 : ℝ)

/-- one frame of the decoder's transform, fed with the encoder's lines of the time buffer `freq` -/
theorem mdctDecRun_ok {cfg : Lc3Config} {h : Nat} {wn : List Rat} (H : MdctOk cfg h wn) {freq : List Int}
    (hl : freq.length = 2 * cfg.nf) {lines : List ℝ} (hlines : mdctApply cfg.nf freq wn = .ok lines)
    (hzero : ∀ v ∈ lines.drop cfg.ne, v = 0) {mem : List ℝ} (hm : mem.length = cfg.nf - cfg.z) :
    mdctDecRun cfg mem (lines.take cfg.ne) = .ok ((List.range (cfg.nf - cfg.z)).map fun j => aliasAt cfg.nf freq wn (cfg.nf + cfg.z + j),
      (List.range cfg.nf).map fun j => (if j < cfg.nf - cfg.z then mem.getD j 0 else 0) + aliasAt cfg.nf freq wn (cfg.z + j)) := by
  obtain ⟨hnf, ⟨fac, hfac, hok⟩, hz, hne, hwin, hwl, htail⟩ := H
  obtain ⟨l, h1, h2, h3⟩ := mdct_roundtrip hfac hok (freq := freq) (wn := wn) (by omega) hwl
  rw [← hnf, hlines] at h1
  cases h1
  have hlen : lines.length = cfg.nf := by rw [h2, hnf]
  have hpad : lines.take cfg.ne ++ List.replicate (cfg.nf - cfg.ne) (zero : ℝ) = lines := by
    have : lines.drop cfg.ne = List.replicate (cfg.nf - cfg.ne) (zero : ℝ) := by
      rw [List.eq_replicate_iff]
      refine ⟨by rw [List.length_drop, hlen], fun v hv => ?_⟩
      rw [hzero v hv]
      show (0 : ℝ) = ((0 : ℚ) : ℝ)
      simp
    rw [← this, List.take_append_drop]
  unfold mdctDecRun
  rw [if_neg (by simp [hlen]; omega), hwin]
  simp only [Res.bind_ok, usub, if_pos hne, if_pos (show cfg.z ≤ cfg.nf by omega), hpad]
  rw [hnf, h3, ← hnf]
  simp only [Res.bind_ok]
  rw [if_neg (by omega)]
  have ht : List.zipWith (fun (x : ℝ) (w : Rat) => x * ofRat w) ((List.range (4 * h)).map fun p =>
        if p < cfg.nf then wsample freq wn p - wsample freq wn (cfg.nf - 1 - p)
        else wsample freq wn p + wsample freq wn (6 * h - 1 - p)) wn.reverse
      = (List.range (2 * cfg.nf)).map (aliasAt cfg.nf freq wn) := by
    refine eq_map_range (by simp [hwl]; omega) fun p hp => ?_
    have hp' : p < 4 * h := by
      rw [List.length_zipWith, List.length_map, List.length_range] at hp; omega
    simp only [List.getElem_zipWith, List.getElem_map, List.getElem_range, List.getElem_reverse]
    unfold aliasAt
    rw [getD_of_lt (by omega), show 3 * cfg.nf - 1 - p = 6 * h - 1 - p by omega]
    congr 1
    show (((wn[_] : Rat) : ℝ)) = _
    congr 2
    omega
  rw [ht]
  congr 2
  · refine eq_map_range (by simp; omega) fun j hj => ?_
    simp
  · refine eq_map_range (by simp [hm]; omega) fun j hj => ?_
    have hj' : j < cfg.nf := by
      simp only [List.length_append, List.length_zipWith, List.length_take, List.length_drop, List.length_map,
        List.length_range] at hj
      omega
    rw [List.getElem_append]
    by_cases hc : j < cfg.nf - cfg.z
    · rw [dif_pos (by simp [hm]; omega), if_pos hc]
      simp only [List.getElem_zipWith, List.getElem_take, List.getElem_drop, List.getElem_map, List.getElem_range]
      rw [getD_of_lt (by omega)]
    · rw [dif_neg (by simp [hm]; omega), if_neg hc]
      simp only [List.getElem_take, List.getElem_drop, List.getElem_map, List.getElem_range, zero_add,
        List.length_zipWith, List.length_take, List.length_drop, List.length_map, List.length_range, hm]
      congr 1
      omega

/-- two overlapping frames: the aliasing cancels -/
theorem alias_cancel {cfg : Lc3Config} {h : Nat} {wn : List Rat} (H : MdctOk cfg h wn) {freq freq' x : List Int}
    (hl : freq.length = 2 * cfg.nf) (hu : mdctUpdate cfg freq x = .ok freq') {j : Nat} (hj : j < cfg.nf) :
    (if j < cfg.nf - cfg.z then aliasAt cfg.nf freq wn (cfg.nf + cfg.z + j) else 0) + aliasAt cfg.nf freq' wn (cfg.z + j)
      = (Overlap.weight wn cfg.nf ((cfg.z + j) % cfg.nf) : ℝ) * (freq'.getD (cfg.z + j) 0 : ℝ) := by
  obtain ⟨hnf, -, hz, hne, hwin, hwl, htail⟩ := H
  obtain ⟨hx, hl', hold, -⟩ := mdctUpdate_ok hz hl hu
  by_cases hc : j < cfg.nf - cfg.z
  · rw [if_pos hc]
    have hn : cfg.z + j < cfg.nf := by omega
    rw [Nat.mod_eq_of_lt hn]
    unfold aliasAt wsample Overlap.weight
    rw [if_neg (by omega), if_pos hn]
    have i1 : 3 * cfg.nf - 1 - (cfg.nf + cfg.z + j) = cfg.nf + (cfg.nf - 1 - (cfg.z + j)) := by omega
    have i2 : 2 * cfg.nf - 1 - (cfg.nf + cfg.z + j) = cfg.nf - 1 - (cfg.z + j) := by omega
    have i3 : cfg.nf + cfg.z + j = cfg.nf + (cfg.z + j) := by omega
    rw [i1, i2, i3, ← hold (cfg.nf - 1 - (cfg.z + j)) (by omega)]
    have i4 : cfg.nf + (cfg.nf - 1 - (cfg.z + j)) = 2 * cfg.nf - 1 - (cfg.z + j) := by omega
    rw [i4]
    by_cases hd : cfg.z + j < cfg.nf - cfg.z
    · rw [← hold (cfg.z + j) hd]
      push_cast
      ring
    · rw [htail (cfg.nf + (cfg.z + j)) (by omega)]
      push_cast
      ring
  · rw [if_neg hc, zero_add]
    obtain ⟨n, hn⟩ : ∃ n, cfg.z + j = cfg.nf + n := ⟨cfg.z + j - cfg.nf, by omega⟩
    have hn' : n < cfg.z := by omega
    rw [hn, Nat.add_mod_left, Nat.mod_eq_of_lt (by omega)]
    unfold aliasAt wsample Overlap.weight
    rw [if_neg (by omega)]
    have i1 : 3 * cfg.nf - 1 - (cfg.nf + n) = 2 * cfg.nf - 1 - n := by omega
    have i2 : 2 * cfg.nf - 1 - (cfg.nf + n) = cfg.nf - 1 - n := by omega
    rw [i1, i2, htail (2 * cfg.nf - 1 - n) (by omega)]
    push_cast
    ring

/-- the new time buffer holds the last frame and the new one, delayed -/
theorem mdctUpdate_stream {cfg : Lc3Config} {freq freq' x past : List Int} (hz : 2 * cfg.z ≤ cfg.nf)
    (hl : freq.length = 2 * cfg.nf) (hp : past.length = cfg.nf)
    (hpast : ∀ p, p < cfg.nf → freq.getD (cfg.nf - cfg.z + p) 0 = past.getD p 0)
    (hu : mdctUpdate cfg freq x = .ok freq') {j : Nat} (hj : j < cfg.nf) (rest : List Int) :
    freq'.getD (cfg.z + j) 0 = (past ++ (x ++ rest)).getD (j + 2 * cfg.z) 0 := by
  obtain ⟨hx, hl', hold, hnew⟩ := mdctUpdate_ok hz hl hu
  by_cases hc : cfg.z + j < cfg.nf - cfg.z
  · rw [hold _ hc]
    have := hpast (j + 2 * cfg.z) (by omega)
    rw [show cfg.nf - cfg.z + (j + 2 * cfg.z) = cfg.nf + (cfg.z + j) by omega] at this
    rw [this]
    simp only [List.getD_eq_getElem?_getD]
    rw [List.getElem?_append_left (by omega)]
  · have := hnew (cfg.z + j - (cfg.nf - cfg.z)) (by omega)
    rw [show cfg.nf - cfg.z + (cfg.z + j - (cfg.nf - cfg.z)) = cfg.z + j by omega] at this
    rw [this]
    simp only [List.getD_eq_getElem?_getD]
    rw [List.getElem?_append_right (by omega), List.getElem?_append_left (by omega)]
    congr 2
    omega

end Lc3
