import Verif.Spec.Ltpf
import Verif.Lemmas.SafeDecoder
import Mathlib.Data.Rat.Defs
import Mathlib.Tactic.Linarith
/-!
# The long term post filter: history and transparency (C21, C22)

The specification (`Verif/Spec/Ltpf.lean`) has no circular memory: it describes the output as a signal over absolute
time, in which a delay of `d` samples is the value at time `t - d`.

C21 is false as stated. When the filter stays active with another lag, the code first fades out the old filter over
2.5 ms *in place*, and then fades in the new filter over the same 2.5 ms. With 10 ms frames the circular memory has two
frames, and for the longest lags (pitch index 506 and above) the first pass has already overwritten samples that the
second pass reads as history. `C21_fails` is a concrete run in exact arithmetic in which an output sample depends on an
*input sample 17 samples later*. `C21_partial` is the positive result: accesses are in bounds for every sequence of
frames, and the history is exact unless such a lag change happens; with 7.5 ms frames it never does.
-/

namespace Lc3
open Scalar Spec

variable {α : Type} [Scalar α]

/-- `run` (decoder/long_term_post_filter.rs 252-343) for a sequence of frames: final state and all output samples -/
def ltpfRunAll (cfg : Lc3Config) : List (LtpfFrame α) → Ltpf α → Res (Ltpf α × List α)
  | [], s => .ok (s, [])
  | fr :: rest, s => do
    let (s, out) ← ltpfRun cfg s fr.info fr.nbits fr.samples
    let (s, outs) ← ltpfRunAll cfg rest s
    .ok (s, out ++ outs)

/-- the frames a decoder of this configuration gives to the filter -/
def FrameOk (f : SamplingFrequency) (d : FrameDuration) (fr : LtpfFrame α) : Prop :=
  fr.info.pitchIndex < 512 ∧ fr.samples.length = (Lc3Config.new f d).nf

theorem frameOut_off (N nf : Nat) {old old' : Setting α} (new : Setting α) (h : old.active = false)
    (h' : old'.active = false) (T : Int) (x y : Int → α) :
    frameOut N nf old new T x y = frameOut N nf old' new T x y := by
  unfold frameOut
  rw [h, h']
  cases new.active <;> rfl

theorem lagQuarters_le {i : Nat} (h : i < 506) : lagQuarters i ≤ 888 := by
  unfold lagQuarters
  split_ifs <;> omega

theorem lagQuarters_le' {i : Nat} (h : i < 512) : lagQuarters i ≤ 912 := by
  unfold lagQuarters
  split_ifs <;> omega

/-- the history of a lag below this is never overwritten early -/
theorem noOverlap_of {f : SamplingFrequency} {d : FrameDuration} {i : Nat}
    (h : i < 506 ∨ (i < 512 ∧ d = .sevenPointFiveMs)) :
    NoOverlap (ringSize (Lc3Config.new f d)) (ltpfNorm (Lc3Config.new f d)) (lDenOf (Lc3Config.new f d).fs)
      (lagOut f i / 4) := by
  have mono : ∀ q qm k : Nat, q ≤ qm → (q * k * 5 + 4) / 8 / 4 ≤ (qm * k * 5 + 4) / 8 / 4 := by
    intro q qm k h
    gcongr
  unfold NoOverlap lagOut
  simp only
  rcases h with h | ⟨h, rfl⟩
  · refine le_trans (Nat.add_le_add_right (Nat.add_le_add_right (mono _ _ _ (lagQuarters_le h)) _) _) ?_
    cases f <;> cases d <;> decide
  · refine le_trans (Nat.add_le_add_right (Nat.add_le_add_right (mono _ _ _ (lagQuarters_le' h)) _) _) ?_
    cases f <;> decide

theorem settingOf_pitch {f : SamplingFrequency} {d : FrameDuration} {info : LtpfInfo} (nbits : Nat)
    (h : info.isActive = true) :
    (settingOf f d info nbits : Setting α).pitch = lagOut f info.pitchIndex / 4 ∧
    (settingOf f d info nbits : Setting α).pitchFr = lagOut f info.pitchIndex % 4 := by
  unfold settingOf
  rw [h]
  exact ⟨rfl, rfl⟩

theorem overlapFree_of {f : SamplingFrequency} {d : FrameDuration} {a b : LtpfFrame α} (hb : b.info.pitchIndex < 512)
    (h : LagChange f a b → d = .sevenPointFiveMs ∨ b.info.pitchIndex < 506) :
    OverlapFree (ringSize (Lc3Config.new f d)) (ltpfNorm (Lc3Config.new f d)) (lDenOf (Lc3Config.new f d).fs)
      (settingOf f d a.info a.nbits) (settingOf f d b.info b.nbits : Setting α) := by
  intro h1 h2 h3
  rw [settingOf_active] at h1 h2
  obtain ⟨p1, p2⟩ := @settingOf_pitch α _ f d b.info b.nbits h2
  obtain ⟨q1, q2⟩ := @settingOf_pitch α _ f d a.info a.nbits h1
  rw [p1]
  apply noOverlap_of
  rcases h ⟨h1, h2, by
    intro e
    apply h3
    rw [p1, p2, q1, q2, e]
    exact ⟨rfl, rfl⟩⟩ with h | h
  · exact Or.inr ⟨hb, h⟩
  · exact Or.inl h

theorem outAfter_before (f : SamplingFrequency) (d : FrameDuration) : ∀ (frames : List (LtpfFrame α)) (old : Setting α)
    (T : Int) (x y : Int → α) (t : Int), t < T → outAfter f d frames old T x y t = y t
  | [], _, _, _, _, _, _ => rfl
  | fr :: rest, old, T, x, y, t, ht => by
    rw [outAfter]
    rw [outAfter_before f d rest _ _ _ _ t (by omega), frameOut_before _ _ _ _ _ _ _ _ ht]

theorem range_append_map (a b : Nat) (g h : Nat → α) (k : Nat → α) (h1 : ∀ n < a, g n = k n)
    (h2 : ∀ n < b, h n = k (a + n)) :
    (List.range a).map g ++ (List.range b).map h = (List.range (a + b)).map k := by
  rw [List.range_add, List.map_append, List.map_map]
  congr 1
  · exact List.map_congr_left fun n hn => h1 n (List.mem_range.mp hn)
  · exact List.map_congr_left fun n hn => h2 n (List.mem_range.mp hn)

theorem quarter_eq (cfg : Lc3Config) : quarter cfg = ltpfNorm cfg := rfl

/-- the sequence theorem from any state that represents a history -/
theorem ltpfRunAll_ok {f : SamplingFrequency} {d : FrameDuration} : ∀ (frames : List (LtpfFrame α)) {s : Ltpf α}
    {T : Int} {x y : Int → α} (old : Setting α), LtpfRel f d s T x y → (∀ fr ∈ frames, FrameOk f d fr) →
    (s.setting = old ∨ (s.activePrev = false ∧ old.active = false)) →
    ∃ s' outs, ltpfRunAll (Lc3Config.new f d) frames s = .ok (s', outs) ∧
      outs.length = frames.length * (Lc3Config.new f d).nf ∧
      (∃ T' x' y', LtpfRel f d s' T' x' y') ∧
      (∀ fr ∈ frames.getLast?, s'.activePrev = fr.info.isActive) ∧
      (frames = [] → s' = s) ∧
      ((∀ b ∈ frames.head?, OverlapFree (ringSize (Lc3Config.new f d)) (ltpfNorm (Lc3Config.new f d))
          (lDenOf (Lc3Config.new f d).fs) old (settingOf f d b.info b.nbits)) →
        frames.IsChain (fun a b => LagChange f a b → d = .sevenPointFiveMs ∨ b.info.pitchIndex < 506) →
        outs = (List.range (frames.length * (Lc3Config.new f d).nf)).map
          fun n => outAfter f d frames old T x y (T + (n : Nat)))
  | [], s, T, x, y, old, h, _, _ => ⟨s, [], rfl, by simp, ⟨_, _, _, h⟩, by simp, fun _ => rfl, by simp⟩
  | fr :: rest, s, T, x, y, old, h, hf, ho => by
    obtain ⟨s1, out, y1, e1, r1, hs1, ho1, hbef, hex⟩ :=
      ltpfRun_ok h (hf fr (by simp)).1 fr.nbits (hf fr (by simp)).2
    obtain ⟨s', outs, e2, hlen, hrel, hlast, hnil, hout⟩ :=
      ltpfRunAll_ok rest (settingOf f d fr.info fr.nbits) r1 (fun q hq => hf q (by simp [hq])) (Or.inl hs1)
    refine ⟨s', out ++ outs, ?_, ?_, hrel, ?_, by simp, ?_⟩
    · rw [ltpfRunAll, e1, Res.bind_ok]
      simp only
      rw [e2, Res.bind_ok]
    · rw [List.length_append, ho1, List.length_map, List.length_range, hlen, List.length_cons]
      ring
    · intro q hq
      cases rest with
      | nil =>
        simp only [List.getLast?_singleton, Option.mem_def, Option.some.injEq] at hq
        subst hq
        rw [hnil rfl]
        have : s1.setting.active = fr.info.isActive := by rw [hs1, settingOf_active]
        exact this
      | cons a l =>
        apply hlast
        rwa [List.getLast?_cons_cons] at hq
    · intro hov hch
      have hov1 := hov fr (by simp)
      have hfree : OverlapFree (ringSize (Lc3Config.new f d)) (ltpfNorm (Lc3Config.new f d))
          (lDenOf (Lc3Config.new f d).fs) s.setting (settingOf f d fr.info fr.nbits) := by
        rcases ho with ho | ⟨ho, _⟩
        · rw [ho]; exact hov1
        · intro ha
          have : s.activePrev = true := ha
          rw [ho] at this
          exact absurd this (by simp)
      have hy1 := hex hfree
      have hy1' : y1 = frameOut (quarter (Lc3Config.new f d)) (Lc3Config.new f d).nf old
          (settingOf f d fr.info fr.nbits) T (appendFrame x T fr.samples) y := by
        rw [hy1, quarter_eq]
        rcases ho with ho | ⟨ho, ho'⟩
        · rw [ho]
        · exact frameOut_off _ _ _ ho ho' _ _ _
      have hrest := hout (by
        intro b hb
        cases rest with
        | nil => simp at hb
        | cons c l =>
          simp only [List.head?_cons, Option.mem_def, Option.some.injEq] at hb
          subst hb
          rw [List.isChain_cons_cons] at hch
          exact overlapFree_of (hf c (by simp)).1 hch.1) (by
        cases rest with
        | nil => simp
        | cons c l =>
          rw [List.isChain_cons_cons] at hch
          exact hch.2)
      rw [ho1, hrest, List.length_cons, show (rest.length + 1) * (Lc3Config.new f d).nf =
        (Lc3Config.new f d).nf + rest.length * (Lc3Config.new f d).nf from by ring]
      refine range_append_map _ _ _ _ _ ?_ ?_
      · intro n hn
        rw [outAfter]
        rw [outAfter_before _ _ _ _ _ _ _ _ (by omega), hy1']
      · intro n hn
        rw [outAfter]
        rw [hy1']
        congr 1
        push_cast
        ring

/-- the buffers of a new filter are the history before time 0, oldest sample first -/
def StartsWith (s : Ltpf α) (ring : Nat) (x y : Int → α) : Prop :=
  ∀ i, i < ring → s.xMem[i]? = some (x ((i : Int) - ring)) ∧ s.yMem[i]? = some (y ((i : Int) - ring))

theorem ltpfNew_inv {f : SamplingFrequency} {d : FrameDuration} {sb sb' : List α} {s : Ltpf α}
    (h : Ltpf.new (Lc3Config.new f d) sb = .ok (s, sb')) :
    LtpfInv f d s ∧ s.activePrev = false ∧ s.blockStart = 0 := by
  have hb : 0 + (Lc3Config.new f d).nf ≤ ringSize (Lc3Config.new f d) := by cases f <;> cases d <;> decide
  obtain ⟨s1, h⟩ := bind_splitAt h
  obtain ⟨s2, h⟩ := bind_splitAt h
  obtain ⟨s3, h⟩ := bind_splitAt h
  obtain ⟨s4, h⟩ := bind_splitAt h
  obtain ⟨s5, h⟩ := bind_splitAt h
  obtain ⟨s6, h⟩ := bind_splitAt h
  obtain ⟨s7, h⟩ := bind_splitAt h
  obtain ⟨s8, h⟩ := bind_splitAt h
  simp only [Res.ok.injEq, Prod.mk.injEq] at h
  obtain ⟨rfl, -⟩ := h
  have hl : 4 ≤ lDenOf (Lc3Config.new f d).fs := by cases f <;> cases d <;> decide
  refine ⟨⟨?_, ?_, by simp, ?_, ?_, ?_, by simp⟩, rfl, rfl⟩
  · simp only [List.length_take, List.length_drop] at *; omega
  · simp only [List.length_take, List.length_drop] at *; omega
  · exact hb
  · simp only [List.length_take, List.length_drop] at *; omega
  · simp only [List.length_take, List.length_drop] at *; omega

theorem ltpfNew_rel {f : SamplingFrequency} {d : FrameDuration} {sb sb' : List α} {s : Ltpf α}
    (h : Ltpf.new (Lc3Config.new f d) sb = .ok (s, sb')) {x y : Int → α}
    (hs : StartsWith s (ringSize (Lc3Config.new f d)) x y) : LtpfRel f d s 0 x y := by
  obtain ⟨hi, -, h0⟩ := ltpfNew_inv h
  have hr := ring_pos f d
  have hm : ∀ t : Int, 0 - (ringSize (Lc3Config.new f d) : Int) ≤ t → t < 0 →
      (t % (ringSize (Lc3Config.new f d) : Int)).toNat < ringSize (Lc3Config.new f d) ∧
      (((t % (ringSize (Lc3Config.new f d) : Int)).toNat : Int) - ringSize (Lc3Config.new f d)) = t := by
    intro t h1 h2
    have : t % (ringSize (Lc3Config.new f d) : Int) = t + ringSize (Lc3Config.new f d) := by
      rw [← Int.add_emod_right]
      exact Int.emod_eq_of_lt (by omega) (by omega)
    rw [this]
    omega
  refine ⟨hi.cn, hi.cd, by rw [h0]; simp, hi.blkDvd, hi.blk, ⟨hi.xl, ?_⟩, ⟨hi.yl, ?_⟩, hi.lag⟩
  · intro t h1 h2
    obtain ⟨a, b⟩ := hm t (by omega) h2
    have := (hs _ a).1
    rwa [b] at this
  · intro t h1 h2
    obtain ⟨a, b⟩ := hm t (by omega) h2
    have := (hs _ a).2
    rwa [b] at this

/-- **C21** as stated: for every sequence of frames after construction, in every scalar arithmetic, the filter does not
panic and its output is the one that reads the exact history. **False**, see `C21_fails`. -/
def C21_statement : Prop :=
  ∀ (α : Type) [Scalar α] (f : SamplingFrequency) (d : FrameDuration) (sb sb' : List α) (s : Ltpf α)
    (frames : List (LtpfFrame α)) (x y : Int → α),
    Ltpf.new (Lc3Config.new f d) sb = .ok (s, sb') → (∀ fr ∈ frames, FrameOk f d fr) →
    StartsWith s (ringSize (Lc3Config.new f d)) x y →
    ∃ s', ltpfRunAll (Lc3Config.new f d) frames s =
      .ok (s', (List.range (frames.length * (Lc3Config.new f d).nf)).map
        fun n => outAfter f d frames off 0 x y (n : Nat))

/-- **C21, the part that holds.** After construction, and for every sequence of frames with transmitted pitch indices
(9 bits), the filter never leaves its buffers. If, in 10 ms mode, no lag change between active frames goes to one of the
six longest pitch indices, the output is exactly the one with the unbounded history. (Missing from the full statement:
those lag changes, for which it is false.) -/
theorem C21_partial {f : SamplingFrequency} {d : FrameDuration} {sb sb' : List α} {s : Ltpf α}
    (hnew : Ltpf.new (Lc3Config.new f d) sb = .ok (s, sb')) {frames : List (LtpfFrame α)}
    (hf : ∀ fr ∈ frames, FrameOk f d fr) :
    ∃ s' outs, ltpfRunAll (Lc3Config.new f d) frames s = .ok (s', outs) ∧
      outs.length = frames.length * (Lc3Config.new f d).nf ∧
      ∀ x y, StartsWith s (ringSize (Lc3Config.new f d)) x y →
        frames.IsChain (fun a b => LagChange f a b → d = .sevenPointFiveMs ∨ b.info.pitchIndex < 506) →
        outs = (List.range (frames.length * (Lc3Config.new f d).nf)).map
          fun n => outAfter f d frames off 0 x y (n : Nat) := by
  obtain ⟨hi, ha, h0⟩ := ltpfNew_inv hnew
  obtain ⟨s', outs, e, hl, -, -, -, -⟩ := ltpfRunAll_ok frames off hi.rel hf (Or.inr ⟨ha, rfl⟩)
  refine ⟨s', outs, e, hl, ?_⟩
  intro x y hs hch
  obtain ⟨s'', outs', e', -, -, -, -, ho⟩ := ltpfRunAll_ok frames off (ltpfNew_rel hnew hs) hf (Or.inr ⟨ha, rfl⟩)
  rw [e] at e'
  simp only [Res.ok.injEq, Prod.mk.injEq] at e'
  obtain ⟨-, rfl⟩ := e'
  have := ho (by intro b _ h; exact absurd h (by simp [off])) hch
  simpa using this

/-- **C21 with 7.5 ms frames** holds without restriction. -/
theorem C21_short_frames {f : SamplingFrequency} {sb sb' : List α} {s : Ltpf α}
    (hnew : Ltpf.new (Lc3Config.new f .sevenPointFiveMs) sb = .ok (s, sb')) {frames : List (LtpfFrame α)}
    (hf : ∀ fr ∈ frames, FrameOk f .sevenPointFiveMs fr) {x y : Int → α}
    (hs : StartsWith s (ringSize (Lc3Config.new f .sevenPointFiveMs)) x y) :
    ∃ s', ltpfRunAll (Lc3Config.new f .sevenPointFiveMs) frames s =
      .ok (s', (List.range (frames.length * (Lc3Config.new f .sevenPointFiveMs).nf)).map
        fun n => outAfter f .sevenPointFiveMs frames off 0 x y (n : Nat)) := by
  obtain ⟨s', outs, e, -, h⟩ := C21_partial hnew hf
  refine ⟨s', ?_⟩
  rw [e, h x y hs]
  have : ∀ l : List (LtpfFrame α), l.IsChain (fun a b => LagChange f a b →
      FrameDuration.sevenPointFiveMs = .sevenPointFiveMs ∨ b.info.pitchIndex < 506) := by
    intro l
    induction l with
    | nil => simp
    | cons a l ih =>
      cases l with
      | nil => simp
      | cons b l => exact List.isChain_cons_cons.mpr ⟨fun _ => Or.inl rfl, ih⟩
  exact this _

theorem frameOut_off_off (N nf : Nat) {old new : Setting α} (ho : old.active = false) (hn : new.active = false) (T : Int)
    (x y : Int → α) {n : Nat} (h : n < nf) : frameOut N nf old new T x y (T + n) = x (T + n) := by
  have key : ∀ (c a : Nat) (y : Int → α), a ≤ n → n < a + c → copyRange T x a c y (T + n) = x (T + n) := by
    intro c
    induction c with
    | zero => intro a y h1 h2; omega
    | succ c ih =>
      intro a y h1 h2
      rw [copyRange]
      by_cases e : a = n
      · subst e
        have : ∀ (c b : Nat) (y : Int → α), a < b → copyRange T x b c y (T + a) = y (T + a) := by
          intro c
          induction c with
          | zero => intros; rfl
          | succ c ih => intro b y hb; rw [copyRange, ih _ _ (by omega), Spec.put, if_neg (by omega)]
        rw [this _ _ _ (by omega), Spec.put, if_pos rfl]
      · exact ih _ _ (by omega) (by omega)
  unfold frameOut
  rw [ho, hn]
  exact key nf 0 y (by omega) (by omega)

/-- **C22.** After any sequence of frames the last of which did not use the filter (or at the start), a frame that does
not use the filter leaves the filter unchanged, bit for bit. -/
theorem C22 {f : SamplingFrequency} {d : FrameDuration} {sb sb' : List α} {s s' : Ltpf α} {outs : List α}
    (hnew : Ltpf.new (Lc3Config.new f d) sb = .ok (s, sb')) {frames : List (LtpfFrame α)}
    (hf : ∀ fr ∈ frames, FrameOk f d fr) (hrun : ltpfRunAll (Lc3Config.new f d) frames s = .ok (s', outs))
    (hprev : ∀ fr ∈ frames.getLast?, fr.info.isActive = false)
    {fr : LtpfFrame α} (hfr : FrameOk f d fr) (hoff : fr.info.isActive = false) :
    ∃ s'', ltpfRun (Lc3Config.new f d) s' fr.info fr.nbits fr.samples = .ok (s'', fr.samples) := by
  obtain ⟨hi, ha, h0⟩ := ltpfNew_inv hnew
  obtain ⟨s1, outs1, e, -, ⟨T, x, y, hrel⟩, hlast, hnil, -⟩ := ltpfRunAll_ok frames off hi.rel hf (Or.inr ⟨ha, rfl⟩)
  rw [hrun] at e
  simp only [Res.ok.injEq, Prod.mk.injEq] at e
  obtain ⟨rfl, rfl⟩ := e
  have hin : s'.activePrev = false := by
    cases hg : frames.getLast? with
    | none =>
      rw [List.getLast?_eq_none_iff] at hg
      rw [hnil hg, ha]
    | some q => rw [hlast q hg, hprev q hg]
  obtain ⟨s'', out, y', e, -, -, hout, -, hex⟩ := ltpfRun_ok hrel hfr.1 fr.nbits hfr.2
  refine ⟨s'', ?_⟩
  have hy' := hex (by
    intro h
    have : s'.activePrev = true := h
    rw [hin] at this
    exact absurd this (by simp))
  have heq : out = fr.samples := by
    rw [hout]
    apply List.ext_getElem
    · rw [List.length_map, List.length_range, hfr.2]
    · intro n h1 h2
      rw [List.getElem_map, List.getElem_range, hy']
      rw [List.length_map, List.length_range] at h1
      rw [frameOut_off_off _ _ hin (by rw [settingOf_active, hoff]) _ _ _ h1]
      unfold appendFrame
      rw [if_neg (by omega), show ((T + (n : Nat)) - T).toNat = n from by omega, List.getD_eq_getElem _ _ h2]
  rw [e, heq]


/-! ## The counterexample -/

/-- exact rational arithmetic for the concrete runs (the filter uses no other operation than `+`, `-`, `*`, `/`) -/
@[reducible] private def ratScalar : Scalar ℚ where
  ofRat q := q
  lt a b := decide (a < b)
  eq a b := decide (a = b)
  sqrt := id
  sin := id
  cosPi := id
  sinPi := id
  piOver17 := 0
  pow10 := id
  exp2Raw := id
  toI32 := Rat.floor
  toUsize q := q.floor.toNat
  absS q := if q < 0 then -q else q
  maxS a b := if a < b then b else a
  minS a b := if a < b then a else b
  floorS q := q.floor
  ceilS q := q.ceil
  log2 := id
  log10 := id
  asin := id
  exp2 := id
  powi q _ := q
  ltInf _ := true

/-- 8 kHz, 10 ms: a silent frame with pitch index 440, then a frame with pitch index 511 in which only sample 18 is not
zero -/
def lagChangeFrames : List (LtpfFrame ℚ) :=
  [⟨⟨true, true, 440⟩, 160, List.replicate 80 0⟩,
   ⟨⟨true, true, 511⟩, 160, List.replicate 18 0 ++ 1 :: List.replicate 61 0⟩]

set_option maxRecDepth 20000 in
/-- **C21 is false**: in the run of `lagChangeFrames` from cleared buffers, output sample 81 (sample 1 of the second
frame) is not zero, although all input up to this time is zero. -/
theorem C21_fails : ¬ C21_statement := by
  intro h
  have h1 := @h ℚ ratScalar .hz8000 .tenMs (List.replicate 400 0)
  obtain ⟨s, sb', hs⟩ : ∃ (s : Ltpf ℚ) (sb' : List ℚ), Ltpf.new (Lc3Config.new .hz8000 .tenMs) (List.replicate 400 0) = .ok (s, sb')
      ∧ s = ⟨false, 0, List.replicate 3 0, List.replicate 5 0, List.replicate 3 0, List.replicate 5 0, 0, 0,
        List.replicate 160 0, List.replicate 160 0⟩ := ⟨_, _, rfl, rfl⟩
  obtain ⟨s', e⟩ := h1 sb' s lagChangeFrames (fun _ => 0) (fun _ => 0) hs.1 (by
    intro fr hfr
    simp only [lagChangeFrames, List.mem_cons, List.not_mem_nil, or_false] at hfr
    rcases hfr with rfl | rfl <;> exact ⟨by decide, by simp; rfl⟩) (by
    intro i hi
    rw [hs.2]
    have : i < 160 := hi
    have hz : (List.replicate 160 (0 : ℚ))[i]? = some 0 := by rw [List.getElem?_replicate, if_pos this]
    exact ⟨hz, hz⟩)
  have e2 : (match @ltpfRunAll ℚ ratScalar (Lc3Config.new .hz8000 .tenMs) lagChangeFrames s with
      | .ok (_, out) => out[81]? | _ => none) = some 0 := by
    rw [e]
    simp only
    rw [List.getElem?_map, List.getElem?_range (by decide)]
    simp only [Option.map_some, Option.some.injEq]
    decide +kernel
  rw [hs.2] at e2
  revert e2
  decide +kernel

/-! ## The hypotheses are satisfiable -/

set_option maxRecDepth 20000 in
/-- `C21_partial` covers an active filter with a changing lag, from buffers that are not cleared -/
example : ∃ (s : Ltpf ℚ) (sb' : List ℚ) (frames : List (LtpfFrame ℚ)),
    Ltpf.new (Lc3Config.new .hz8000 .tenMs) ((List.range 400).map fun (n : Nat) => (n : ℚ)) = .ok (s, sb') ∧
    (∀ fr ∈ frames, FrameOk .hz8000 .tenMs fr) ∧
    (∃ a b, frames = [a, b] ∧ LagChange .hz8000 a b) ∧
    frames.IsChain (fun a b => LagChange .hz8000 a b → FrameDuration.tenMs = .sevenPointFiveMs ∨ b.info.pitchIndex < 506) := by
  refine ⟨_, _, [⟨⟨true, true, 440⟩, 160, List.replicate 80 3⟩, ⟨⟨true, true, 300⟩, 160, List.replicate 80 5⟩], rfl, ?_, ?_, ?_⟩
  · intro fr hfr
    simp only [List.mem_cons, List.not_mem_nil, or_false] at hfr
    rcases hfr with rfl | rfl <;> exact ⟨by decide, by simp; rfl⟩
  · exact ⟨_, _, rfl, rfl, rfl, by decide⟩
  · refine List.isChain_cons_cons.mpr ⟨fun _ => Or.inr (by decide), by simp⟩

set_option maxRecDepth 20000 in
/-- `C22` covers a frame after an active and an inactive one -/
example : ∃ (s s' : Ltpf ℚ) (sb' outs : List ℚ) (frames : List (LtpfFrame ℚ)),
    Ltpf.new (Lc3Config.new .hz8000 .tenMs) ((List.range 400).map fun (n : Nat) => (n : ℚ)) = .ok (s, sb') ∧
    (∀ fr ∈ frames, FrameOk .hz8000 .tenMs fr) ∧
    @ltpfRunAll ℚ ratScalar (Lc3Config.new .hz8000 .tenMs) frames s = .ok (s', outs) ∧
    (∀ fr ∈ frames.getLast?, fr.info.isActive = false) ∧ (∃ fr ∈ frames, fr.info.isActive = true) := by
  have hf : ∀ fr ∈ ([⟨⟨true, true, 440⟩, 160, List.replicate 80 3⟩, ⟨⟨false, false, 0⟩, 160, List.replicate 80 5⟩] :
      List (LtpfFrame ℚ)), FrameOk .hz8000 .tenMs fr := by
    intro fr hfr
    simp only [List.mem_cons, List.not_mem_nil, or_false] at hfr
    rcases hfr with rfl | rfl <;> exact ⟨by decide, by simp; rfl⟩
  obtain ⟨s, sb', hs⟩ : ∃ (s : Ltpf ℚ) (sb' : List ℚ), Ltpf.new (Lc3Config.new .hz8000 .tenMs)
    ((List.range 400).map fun (n : Nat) => (n : ℚ)) = .ok (s, sb') := ⟨_, _, rfl⟩
  obtain ⟨s', outs, e, -⟩ := @C21_partial ℚ ratScalar _ _ _ _ _ hs _ hf
  exact ⟨s, s', sb', outs, _, hs, hf, e, by simp, by simp⟩

end Lc3
