import Verif.Lemmas.Ltpf
/-! The transitions of the post filter and whole frames. -/

namespace Lc3
open Scalar Tables Spec
variable {α : Type} [Scalar α]

/-- a memory of the right length represents some signal -/
theorem Ring.exists {mem : List α} {ring : Nat} (h : mem.length = ring) (hr : 0 < ring) (lo hi : Int) :
    Ring mem ring (fun t => mem.getD (t % (ring : Int)).toNat zero) lo hi := by
  refine ⟨h, fun t _ _ => ?_⟩
  have a1 := Int.emod_nonneg t (show (ring : Int) ≠ 0 by omega)
  have a2 := Int.emod_lt_of_pos t (show (0 : Int) < ring by omega)
  show mem[(t % (ring : Int)).toNat]? = some (mem.getD (t % (ring : Int)).toNat zero)
  rw [List.getD_eq_getElem _ _ (by omega), List.getElem?_eq_getElem (by omega)]

/-- the numerator taps over the scratch copy -/
theorem firAdd_scratch {scr : List α} {h : Int → α} {A : Int}
    (hs : ∀ j : Nat, j < scr.length → scr[j]? = some (h (A + j))) :
    ∀ (cs : List α) (i : Int) (acc : α), i < scr.length → 0 ≤ i - cs.length + 1 →
    firAdd scr 0 cs i acc = .ok (addTaps h cs (A + i) acc)
  | [], i, acc, _, _ => rfl
  | c :: cs, i, acc, h1, h2 => by
    simp only [List.length_cons, Nat.cast_add, Nat.cast_one] at h2
    have hr : ringRead scr 0 i = .ok (h (A + i)) := by
      unfold ringRead
      rw [if_neg (by omega)]
      rw [idx_ok_iff, hs i.toNat (by omega)]
      congr 2; omega
    rw [firAdd, addTaps, hr]
    simp only [Res.bind_ok]
    rw [firAdd_scratch hs cs (i - 1) _ (by omega) (by omega)]
    congr 2
    omega

theorem ltpfScratch_ok {ring nf N lDen : Nat} (hd : FilterDims ring nf N lDen) {B : Int} (hB : (ring : Int) ∣ B)
    {blk : Nat} (hblk : blk + nf ≤ ring) (hb0 : blk = 0 ∨ nf ≤ blk) {yMem : List α} {y : Int → α}
    (ry : Ring yMem ring y (B + blk + N - ring) (B + blk + N)) :
    ∃ scr, ltpfScratch ring N (lDen - 1 - 1) blk yMem = .ok scr ∧ scr.length = lDen - 2 + N ∧
      ∀ j : Nat, j < scr.length → scr[j]? = some (y (B + blk - (lDen - 2 : Nat) + j)) := by
  have d1 := hd.ringLo; have d2 := hd.quarter; have d3 := hd.taps; have d4 := hd.two
  have hl := ry.1
  unfold ltpfScratch
  have e2 : lDen - 1 - 1 = lDen - 2 := by omega
  rw [e2]
  by_cases hc : blk < lDen - 2
  · have hb : blk = 0 := by omega
    subst hb
    rw [if_pos hc]
    rw [show usub ring (lDen - 2) = .ok (ring - (lDen - 2)) from by unfold usub; rw [if_pos (by omega)]]
    simp only [Res.bind_ok]
    rw [if_neg (by omega)]
    refine ⟨_, rfl, ?_, ?_⟩
    · simp only [List.length_append, List.length_take, List.length_drop]; omega
    · intro j hj
      simp only [List.length_append, List.length_take, List.length_drop] at hj
      have hsig := ry.2 (B + (0 : Nat) - (lDen - 2 : Nat) + j) (by omega) (by omega)
      have e3 : (B + (0 : Nat) - (lDen - 2 : Nat) + j : Int) = B + (j - (lDen - 2 : Nat)) := by
        simp only [Nat.cast_zero]; ring
      rw [e3, ring_emod hB (by omega) (by omega)] at hsig
      rw [e3, ← hsig]
      by_cases hj2 : j < lDen - 2
      · rw [if_pos (by omega), List.getElem?_append_left (by simp; omega), List.getElem?_take_of_lt hj2,
          List.getElem?_drop]
        congr 1
        omega
      · rw [if_neg (by omega), List.getElem?_append_right (by simp; omega)]
        simp only [List.length_take, List.length_drop]
        rw [List.getElem?_take_of_lt (by omega)]
        congr 1
        omega
  · rw [if_neg hc, if_neg (by omega)]
    refine ⟨_, rfl, ?_, ?_⟩
    · simp only [List.length_drop, List.length_take]; omega
    · intro j hj
      simp only [List.length_drop, List.length_take] at hj
      have hsig := ry.2 (B + blk - (lDen - 2 : Nat) + j) (by omega) (by omega)
      have e3 : (B + blk - (lDen - 2 : Nat) + j : Int) = B + (blk - (lDen - 2 : Nat) + j) := by ring
      rw [e3, ring_emod hB (by omega) (by omega)] at hsig
      rw [e3, ← hsig, if_neg (by omega), List.getElem?_drop, List.getElem?_take_of_lt (by omega)]
      congr 1
      omega

/-- The overlap condition of the second fade: the memory still holds the oldest sample the filter needs. -/
def NoOverlap (ring N lDen pitch : Nat) : Prop := pitch + (lDen - lDen / 2) + N ≤ ring

theorem ltpfSampleFromMem_ok {ring nf N lDen : Nat} (hd : FilterDims ring nf N lDen) {cNum cDen scr yMem : List α}
    (hcn : cNum.length = lDen - 1) (hcd : cDen.length = lDen + 1) {pitch : Nat} (hp : LagOk ring lDen pitch)
    {B : Int} (hB : (ring : Int) ∣ B) {blk n : Nat} (hblk : blk + nf ≤ ring) (hn : n < N)
    {y1 y : Int → α} (hsl : scr.length = lDen - 2 + N)
    (hs : ∀ j : Nat, j < scr.length → scr[j]? = some (y1 (B + blk - (lDen - 2 : Nat) + j)))
    (ry : Ring yMem ring y (B + blk + N - ring) (B + blk + N)) :
    ∃ v yMem', ltpfSampleFromMem ring N cNum cDen scr blk pitch (lDen - 1 - 1) n yMem = .ok yMem' ∧
      Ring yMem' ring (put y (B + blk + n) v) (B + blk + N - ring) (B + blk + N) ∧
      (NoOverlap ring N lDen pitch →
        v = y1 (B + blk + n) - ramp N n (filterAt cNum cDen pitch y1 y (B + blk + n))) := by
  have d1 := hd.ringLo; have d2 := hd.quarter; have d3 := hd.taps; have d4 := hd.two
  obtain ⟨p1, p2⟩ := hp
  have e2 : lDen - 1 - 1 = lDen - 2 := by omega
  unfold ltpfSampleFromMem
  rw [e2]
  have hx : idx scr (n + (lDen - 2)) = .ok (y1 (B + blk + n)) := by
    rw [idx_ok_iff, hs _ (by omega)]
    congr 2; push_cast; ring
  rw [hx]
  simp only [Res.bind_ok]
  have hset : setIdx yMem (blk + n) (y1 (B + blk + n)) = .ok (yMem.set (blk + n) (y1 (B + blk + n))) := by
    unfold setIdx; rw [if_pos (by have := ry.1; omega)]
  rw [hset]
  simp only [Res.bind_ok]
  have hl : (yMem.set (blk + n) (y1 (B + blk + n))).length = ring := by simpa using ry.1
  have hf : firAdd scr 0 cNum ((lDen - 2 + n : Nat) : Int) zero = .ok (addTaps y1 cNum (B + blk + n) zero) := by
    rw [firAdd_scratch hs cNum _ _ (by omega) (by rw [hcn]; omega)]
    congr 2; push_cast; ring
  rw [hf]
  simp only [Res.bind_ok]
  have ecast : (B + ((blk + n : Nat) : Int)) = B + blk + n := by push_cast; ring
  have ry1 : Ring (yMem.set (blk + n) (y1 (B + blk + n))) ring
      (put y (B + (blk + n : Nat)) (y1 (B + blk + n))) (B + blk + N - ring) (B + blk + N) := by
    refine Ring.put ry.1 hB (by omega) (by omega) (by push_cast; omega) ?_
    intro t h1 h2 h3
    exact ry.2 t h1 h2
  have hmain : ∃ w, firSub (yMem.set (blk + n) (y1 (B + blk + n))) ring cDen
      (((blk + n : Nat) : Int) - pitch + ((cDen.length : Int) - 1) / 2) (addTaps y1 cNum (B + blk + n) zero) = .ok w ∧
      (NoOverlap ring N lDen pitch → w = filterAt cNum cDen pitch y1 y (B + blk + n)) := by
    by_cases hno : NoOverlap ring N lDen pitch
    · unfold NoOverlap at hno
      refine ⟨_, firSub_ok ry1 hB cDen _ _ (by rw [hcd]; push_cast; omega) (by rw [hcd]; push_cast; omega)
        (by rw [hcd]; push_cast; omega) (by rw [hcd]; push_cast; omega), fun _ => ?_⟩
      unfold filterAt
      have : ∀ (cs : List α) (t : Int) (acc : α), t < B + blk + n →
          subTaps (put y (B + ((blk + n : Nat) : Int)) (y1 (B + blk + n))) cs t acc = subTaps y cs t acc := by
        intro cs
        induction cs with
        | nil => intros; rfl
        | cons c cs ih =>
          intro t acc ht
          rw [subTaps, subTaps, ih (t - 1) _ (by omega)]
          have : t ≠ B + ((blk + n : Nat) : Int) := by rw [ecast]; omega
          simp only [Spec.put, if_neg this]
      rw [this]
      · congr 1; push_cast; ring
      · rw [hcd]; push_cast; omega
    · refine ⟨_, firSub_ok (Ring.exists hl (by omega) (B - ring) (B + ring)) hB cDen _ _
        (by rw [hcd]; push_cast; omega) (by rw [hcd]; push_cast; omega)
        (by rw [hcd]; push_cast; omega) (by rw [hcd]; push_cast; omega), fun h => absurd h hno⟩
  obtain ⟨w, hw, hw2⟩ := hmain
  rw [hw]
  simp only [Res.bind_ok]
  rw [idx_eq_ok (by omega)]
  simp only [Res.bind_ok, List.getElem_set_self]
  refine ⟨y1 (B + blk + n) - fadeIn N n w, _, by unfold setIdx; rw [if_pos (by omega)], ?_, ?_⟩
  · rw [List.set_set, ← ecast]
    refine Ring.put ry.1 hB (by omega) (by omega) (by push_cast; omega) ?_
    intro t h1 h2 h3
    exact ry.2 t h1 h2
  · intro h
    rw [hw2 h]; rfl

theorem fromMemLoop_ok {ring nf N lDen : Nat} (hd : FilterDims ring nf N lDen) {cNum cDen scr : List α}
    (hcn : cNum.length = lDen - 1) (hcd : cDen.length = lDen + 1) {pitch : Nat} (hp : LagOk ring lDen pitch)
    {B : Int} (hB : (ring : Int) ∣ B) {blk : Nat} (hblk : blk + nf ≤ ring)
    {y1 : Int → α} (hsl : scr.length = lDen - 2 + N)
    (hs : ∀ j : Nat, j < scr.length → scr[j]? = some (y1 (B + blk - (lDen - 2 : Nat) + j))) :
    ∀ (count a : Nat) (y : Int → α) (yMem : List α), a + count ≤ N →
    Ring yMem ring y (B + blk + N - ring) (B + blk + N) →
    ∃ y' yMem', forRange (ltpfSampleFromMem ring N cNum cDen scr blk pitch (lDen - 1 - 1)) a count yMem = .ok yMem' ∧
      Ring yMem' ring y' (B + blk + N - ring) (B + blk + N) ∧ (∀ t, t < B + blk → y' t = y t) ∧
      (NoOverlap ring N lDen pitch → y' = filterRange cNum cDen pitch (ramp N) (B + blk) y1 a count y)
  | 0, a, y, yMem, _, ry => ⟨y, yMem, rfl, ry, fun _ _ => rfl, fun _ => rfl⟩
  | n + 1, a, y, yMem, ha, ry => by
    obtain ⟨v, m1, e1, r1, s1⟩ := ltpfSampleFromMem_ok hd hcn hcd hp hB hblk (show a < N by omega) hsl hs ry
    obtain ⟨y', m2, e2, r2, t2, s2⟩ := fromMemLoop_ok hd hcn hcd hp hB hblk hsl hs n (a + 1) _ m1 (by omega) r1
    refine ⟨y', m2, ?_, r2, ?_, ?_⟩
    · rw [forRange, e1]; exact e2
    · intro t ht
      rw [t2 t ht]
      simp only [Spec.put]
      rw [if_neg (by omega)]
    · intro h
      rw [s2 h, s1 h, filterRange]

theorem filterRange_before (cNum cDen : List α) (pitch : Nat) (scale : Nat → α → α) (T : Int) (src : Int → α) :
    ∀ (n a : Nat) (y : Int → α) (t : Int), t < T → filterRange cNum cDen pitch scale T src a n y t = y t
  | 0, _, _, _, _ => rfl
  | n + 1, a, y, t, ht => by
    rw [filterRange, filterRange_before cNum cDen pitch scale T src n (a + 1) _ t ht, Spec.put, if_neg (by omega)]

theorem copyRange_before (T : Int) (src : Int → α) :
    ∀ (n a : Nat) (y : Int → α) (t : Int), t < T → copyRange T src a n y t = y t
  | 0, _, _, _, _ => rfl
  | n + 1, a, y, t, ht => by
    rw [copyRange, copyRange_before T src n (a + 1) _ t ht, Spec.put, if_neg (by omega)]

theorem frameOut_before (N nf : Nat) (old new : Setting α) (T : Int) (x y : Int → α) (t : Int) (ht : t < T) :
    frameOut N nf old new T x y t = y t := by
  unfold frameOut
  cases ho : old.active <;> cases hn : new.active <;> simp only
  · rw [copyRange_before _ _ _ _ _ _ ht]
  · rw [filterRange_before _ _ _ _ _ _ _ _ _ _ ht, filterRange_before _ _ _ _ _ _ _ _ _ _ ht]
  · rw [copyRange_before _ _ _ _ _ _ ht, filterRange_before _ _ _ _ _ _ _ _ _ _ ht]
  · split
    · rw [filterRange_before _ _ _ _ _ _ _ _ _ _ ht]
    · rw [filterRange_before _ _ _ _ _ _ _ _ _ _ ht, filterRange_before _ _ _ _ _ _ _ _ _ _ ht,
        filterRange_before _ _ _ _ _ _ _ _ _ _ ht]

/-- the number of samples in 2.5 ms as computed by `run` -/
def samples2p5 (fs : Nat) : Nat := if fs = 44100 then 48000 / 400 else fs / 400

/-- previous setting stored in the state -/
def Ltpf.setting (s : Ltpf α) : Setting α := ⟨s.activePrev, s.pIntMem, s.pFrMem, s.cNum, s.cDen⟩

/-- the pitch change that makes the second fade read overwritten samples -/
def OverlapFree (ring N lDen : Nat) (old new : Setting α) : Prop :=
  old.active = true → new.active = true → ¬ (new.pitch = old.pitch ∧ new.pitchFr = old.pitchFr) →
    NoOverlap ring N lDen new.pitch

theorem ltpfTransition_ok {cfg : Lc3Config} (hd : FilterDims (ringSize cfg) cfg.nf (ltpfNorm cfg) (lDenOf cfg.fs))
    (hN : samples2p5 cfg.fs = ltpfNorm cfg) {s : Ltpf α} {new : Setting α} {xMem : List α}
    (hcn0 : s.cNum.length = lDenOf cfg.fs - 1) (hcd0 : s.cDen.length = lDenOf cfg.fs + 1)
    (hcn : new.cNum.length = lDenOf cfg.fs - 1) (hcd : new.cDen.length = lDenOf cfg.fs + 1)
    (hp0 : s.activePrev = true → LagOk (ringSize cfg) (lDenOf cfg.fs) s.pIntMem)
    (hp : new.active = true → LagOk (ringSize cfg) (lDenOf cfg.fs) new.pitch)
    {B : Int} (hB : (ringSize cfg : Int) ∣ B) (hblk : s.blockStart + cfg.nf ≤ ringSize cfg)
    (hb0 : s.blockStart = 0 ∨ cfg.nf ≤ s.blockStart) {x y : Int → α}
    (rx : Ring xMem (ringSize cfg) x (B + s.blockStart + cfg.nf - ringSize cfg) (B + s.blockStart + cfg.nf))
    (ry : Ring s.yMem (ringSize cfg) y (B + s.blockStart - ringSize cfg) (B + s.blockStart)) :
    ∃ y' yMem', ltpfTransition cfg s new.active new.pitch new.pitchFr new.cNum new.cDen xMem = .ok yMem' ∧
      Ring yMem' (ringSize cfg) y' (B + s.blockStart + cfg.nf - ringSize cfg) (B + s.blockStart + cfg.nf) ∧
      (∀ t, t < B + s.blockStart → y' t = y t) ∧
      (OverlapFree (ringSize cfg) (ltpfNorm cfg) (lDenOf cfg.fs) s.setting new →
        y' = frameOut (ltpfNorm cfg) cfg.nf s.setting new (B + s.blockStart) x y) := by
  have d1 := hd.ringLo; have d2 := hd.quarter
  have ry0 : Ring s.yMem (ringSize cfg) y (B + s.blockStart + (0 : Nat) - ringSize cfg) (B + s.blockStart + (0 : Nat)) := by
    simpa using ry
  have hs25 : (if cfg.fs = 44100 then 48000 / 400 else cfg.fs / 400) = ltpfNorm cfg := hN
  have eN : ltpfNorm cfg + (cfg.nf - ltpfNorm cfg) = cfg.nf := by omega
  have hbefore := frameOut_before (ltpfNorm cfg) cfg.nf s.setting new (B + s.blockStart) x y
  unfold ltpfTransition
  simp only
  rw [hs25]
  cases ha : new.active <;> cases hs : s.activePrev
  · -- inactive, inactive
    simp only [Bool.not_false, Bool.and_self, if_true]
    obtain ⟨m, e, r⟩ := copyLoop_ok d1 hB hblk rx cfg.nf 0 y s.yMem (by omega) ry0
    rw [Nat.zero_add] at r
    refine ⟨_, m, e, r, ?_, ?_⟩
    · exact fun t ht => copyRange_before _ _ _ _ _ _ ht
    · intro _; simp only [frameOut, Ltpf.setting, ha, hs]
  · -- deactivated
    simp only [Bool.not_false, Bool.not_true, Bool.and_false, Bool.false_and, Bool.and_self, if_true, Bool.false_eq_true, if_false]
    obtain ⟨m, e, r⟩ := filterLoop_ok hd hcn0 hcd0 (hp0 hs) hB hblk (rampDown (ltpfNorm cfg)) rx (ltpfNorm cfg) 0 y s.yMem
      (by omega) ry0
    rw [Nat.zero_add] at r
    obtain ⟨m2, e2, r2⟩ := copyLoop_ok d1 hB hblk rx (cfg.nf - ltpfNorm cfg) (ltpfNorm cfg) _ m (by omega) r
    rw [eN] at r2
    refine ⟨_, m2, ?_, r2, ?_, ?_⟩
    · unfold ltpfDeactivate
      have : forRange (ltpfSample (ringSize cfg) s.cNum s.cDen xMem s.blockStart s.pIntMem (fadeOut (ltpfNorm cfg))) 0
        (ltpfNorm cfg) s.yMem = .ok m := e
      rw [this]; exact e2
    · intro t ht
      rw [copyRange_before _ _ _ _ _ _ ht, filterRange_before _ _ _ _ _ _ _ _ _ _ ht]
    · intro _; simp only [frameOut, Ltpf.setting, ha, hs]
  · -- activated
    simp only [Bool.not_false, Bool.not_true, Bool.and_true, Bool.and_self, if_true, Bool.false_eq_true, if_false]
    obtain ⟨m, e, r⟩ := filterLoop_ok hd hcn hcd (hp ha) hB hblk (ramp (ltpfNorm cfg)) rx (ltpfNorm cfg) 0 y s.yMem
      (by omega) ry0
    rw [Nat.zero_add] at r
    obtain ⟨m2, e2, r2⟩ := filterLoop_ok hd hcn hcd (hp ha) hB hblk full rx (cfg.nf - ltpfNorm cfg) (ltpfNorm cfg) _ m
      (by omega) r
    rw [eN] at r2
    refine ⟨_, m2, ?_, r2, ?_, ?_⟩
    · have : forRange (ltpfSample (ringSize cfg) new.cNum new.cDen xMem s.blockStart new.pitch (fadeIn (ltpfNorm cfg))) 0
        (ltpfNorm cfg) s.yMem = .ok m := e
      rw [this]; exact e2
    · intro t ht
      rw [filterRange_before _ _ _ _ _ _ _ _ _ _ ht, filterRange_before _ _ _ _ _ _ _ _ _ _ ht]
    · intro _; simp only [frameOut, Ltpf.setting, ha, hs]
  · simp only [Bool.not_true, Bool.and_false, Bool.and_true, Bool.false_eq_true, if_false]
    by_cases hpe : new.pitch = s.pIntMem ∧ new.pitchFr = s.pFrMem
    · rw [if_pos hpe]
      obtain ⟨m2, e2, r2⟩ := filterLoop_ok hd hcn hcd (hp ha) hB hblk full rx cfg.nf 0 y s.yMem (by omega) ry0
      rw [Nat.zero_add] at r2
      refine ⟨_, m2, e2, r2, ?_, ?_⟩
      · intro t ht
        rw [filterRange_before _ _ _ _ _ _ _ _ _ _ ht]
      · intro _; simp only [frameOut, Ltpf.setting, ha, hs]; rw [if_pos hpe]
    · rw [if_neg hpe]
      obtain ⟨m, e, r⟩ := filterLoop_ok hd hcn0 hcd0 (hp0 hs) hB hblk (rampDown (ltpfNorm cfg)) rx (ltpfNorm cfg) 0 y s.yMem
        (by omega) ry0
      rw [Nat.zero_add] at r
      obtain ⟨scr, es, hsl, hsj⟩ := ltpfScratch_ok hd hB hblk hb0 r
      obtain ⟨y2, m2, e2, r2, t2, s2⟩ := fromMemLoop_ok hd hcn hcd (hp ha) hB hblk hsl hsj (ltpfNorm cfg) 0 _ m (by omega) r
      obtain ⟨m3, e3, r3⟩ := filterLoop_ok hd hcn hcd (hp ha) hB hblk full rx (cfg.nf - ltpfNorm cfg) (ltpfNorm cfg) y2 m2
        (by omega) r2
      rw [eN] at r3
      refine ⟨_, m3, ?_, r3, ?_, ?_⟩
      · unfold ltpfDeactivate
        have : forRange (ltpfSample (ringSize cfg) s.cNum s.cDen xMem s.blockStart s.pIntMem (fadeOut (ltpfNorm cfg))) 0
          (ltpfNorm cfg) s.yMem = .ok m := e
        rw [this]
        simp only [Res.bind_ok]
        rw [show usub new.cNum.length 1 = .ok (lDenOf cfg.fs - 1 - 1) from by
          unfold usub; rw [if_pos (by have := hd.two; omega), hcn]]
        simp only [Res.bind_ok]
        rw [es]
        simp only [Res.bind_ok]
        rw [e2]
        exact e3
      · intro t ht
        rw [filterRange_before _ _ _ _ _ _ _ _ _ _ ht, t2 t ht, filterRange_before _ _ _ _ _ _ _ _ _ _ ht]
      · intro hov
        have hno := hov hs ha hpe
        rw [s2 hno]
        simp only [frameOut, Ltpf.setting, ha, hs]
        rw [if_neg hpe]

end Lc3
