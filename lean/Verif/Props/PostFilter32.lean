import Verif.Lemmas.LtpfPair3
import Verif.Props.FilterStable
import Verif.Props.TimeError32
/-!
# C110: the post filter in binary32 follows the exact filter

`C61` is about exact arithmetic. Here the filter the code runs, with rounded coefficients, rounded products, sums and fades, is
compared with the exact filter. Rounding errors enter a recursive filter: the theorem says that they do not build up, however long the
sequence of frames and whatever the side information.
-/

namespace Lc3
open Scalar Tables Spec
namespace F32
variable {el : Elem}

/-- equally long; the binary32 numbers are finite and at most `E` away from the real numbers -/
def Follows (E : ℝ) (l : List F32) (m : List ℝ) : Prop := List.Forall₂ (fun v w => IsFin v ∧ |val v - w| ≤ E) l m

/-- the same side information, samples at most `E` apart -/
def FrameFollows (E : ℝ) (a : LtpfFrame F32) (b : LtpfFrame ℝ) : Prop :=
  a.info = b.info ∧ a.nbits = b.nbits ∧ Follows E a.samples b.samples

/-- the same side information and number of samples, the values of the samples at most `E` apart -/
def FrameNear (E : ℝ) (a : LtpfFrame F32) (b : LtpfFrame ℝ) : Prop :=
  a.info = b.info ∧ a.nbits = b.nbits ∧ b.samples.length = a.samples.length ∧
    ∀ j, j < a.samples.length → |val (a.samples.getD j (fin 0)) - b.samples.getD j 0| ≤ E

theorem rl_of_follows {E S : ℝ} {l : List F32} {m : List ℝ} (h : Follows E l m) (hs : SizeAtMost S m) : Rl E S l m := by
  intro i v w h1 h2
  have hw := hs w (List.mem_of_getElem? h2)
  unfold Follows at h
  rw [List.forall₂_iff_get] at h
  obtain ⟨hl, h⟩ := h
  obtain ⟨k1, rfl⟩ := List.getElem?_eq_some_iff.1 h1
  obtain ⟨k2, rfl⟩ := List.getElem?_eq_some_iff.1 h2
  obtain ⟨a, b⟩ := h i k1 k2
  exact ⟨a, b, hw⟩

theorem follows_of_rl {E S : ℝ} {l : List F32} {m : List ℝ} (hl : l.length = m.length) (h : Rl E S l m) : Follows E l m ∧ SizeAtMost S m := by
  constructor
  · unfold Follows
    rw [List.forall₂_iff_get]
    refine ⟨hl, fun i h1 h2 => ?_⟩
    obtain ⟨a, b, -⟩ := h i _ _ (List.getElem?_eq_getElem h1) (List.getElem?_eq_getElem h2)
    exact ⟨a, b⟩
  · intro w hw
    obtain ⟨i, hi, rfl⟩ := List.mem_iff_getElem.1 hw
    exact (h i _ _ (List.getElem?_eq_getElem (by omega)) (List.getElem?_eq_getElem hi)).2.2

theorem rl_append {E S : ℝ} {a a' : List F32} {b b' : List ℝ} (hl : a.length = b.length) (h : Rl E S a b) (h' : Rl E S a' b') :
    Rl E S (a ++ a') (b ++ b') := by
  intro i v w h1 h2
  by_cases hi : i < a.length
  · rw [List.getElem?_append_left hi] at h1
    rw [List.getElem?_append_left (by omega)] at h2
    exact h i v w h1 h2
  · rw [List.getElem?_append_right (by omega)] at h1 h2
    rw [hl] at h1
    exact h' _ v w h1 h2

theorem rl_take {E S : ℝ} {l : List F32} {m : List ℝ} (h : Rl E S l m) (n : ℕ) : Rl E S (l.take n) (m.take n) := by
  intro i v w h1 h2
  rw [List.getElem?_take] at h1 h2
  split at h1
  · rename_i hi
    rw [if_pos hi] at h2
    exact h i v w h1 h2
  · cases h1

theorem rl_drop {E S : ℝ} {l : List F32} {m : List ℝ} (h : Rl E S l m) (n : ℕ) : Rl E S (l.drop n) (m.drop n) := by
  intro i v w h1 h2
  rw [List.getElem?_drop] at h1 h2
  exact h _ v w h1 h2

theorem runAll_pair {f : SamplingFrequency} {d : FrameDuration} {X ε : ℝ} (hD : Dims X ε) :
    ∀ (fs : List (LtpfFrame F32)) (gs : List (LtpfFrame ℝ)) {s1 : Ltpf F32} {s2 : Ltpf ℝ}, PairState f d X ε s1 s2 →
    (∀ fr ∈ gs, FrameOk f d fr) →
    List.Forall₂ (fun (a : LtpfFrame F32) (b : LtpfFrame ℝ) => a.info = b.info ∧ a.nbits = b.nbits ∧ a.samples.length = b.samples.length ∧
      Rl ε X a.samples b.samples) fs gs →
    ∃ s1' s2' o1 o2, @ltpfRunAll F32 (scalar el) (Lc3Config.new f d) fs s1 = .ok (s1', o1) ∧
      ltpfRunAll (Lc3Config.new f d) gs s2 = .ok (s2', o2) ∧ PairState f d X ε s1' s2' ∧
      o1.length = gs.length * (Lc3Config.new f d).nf ∧ o2.length = gs.length * (Lc3Config.new f d).nf ∧ Rl (5 * inErr X ε) (5 * X) o1 o2
  | [], _, s1, s2, h, _, hfg => by
    cases hfg
    exact ⟨s1, s2, [], [], rfl, rfl, h, by simp, by simp, by intro i v w h; simp at h⟩
  | fr :: fs, [], _, _, _, _, hfg => by cases hfg
  | fr :: fs, gr :: gs, s1, s2, h, hok, hfg => by
    cases hfg with
    | cons hd htl =>
      obtain ⟨h1, h2, h3, h4⟩ := hd
      obtain ⟨hp, hl⟩ := hok gr (by simp)
      obtain ⟨t1, t2, p1, p2, e1, e2, hn, ho, l1, l2⟩ := run_pair (el := el) hD h hp gr.nbits (h3.trans hl) hl h4
      obtain ⟨s1', s2', o1, o2, e3, e4, hst, m1, m2, ho'⟩ := runAll_pair hD fs gs hn (fun q hq => hok q (by simp [hq])) htl
      refine ⟨s1', s2', p1 ++ o1, p2 ++ o2, ?_, ?_, hst, ?_, ?_, rl_append (l1.trans l2.symm) ho ho'⟩
      · letI := scalar el
        rw [ltpfRunAll, h1, h2, e1, Res.bind_ok]
        simp only
        rw [e3, Res.bind_ok]
      · rw [ltpfRunAll, e2, Res.bind_ok]
        simp only
        rw [e4, Res.bind_ok]
      · rw [List.length_append, l1, m1, List.length_cons]; ring
      · rw [List.length_append, l2, m2, List.length_cons]; ring

theorem ltpfNew_mem32 {cfg : Lc3Config} {sb sb' : List F32} {s : Ltpf F32} (h : Ltpf.new cfg sb = .ok (s, sb')) :
    s.xMem = sb.take (ringSize cfg) ∧ s.yMem = (sb.drop (ringSize cfg)).take (ringSize cfg) := by
  obtain ⟨s1, h⟩ := bind_splitAt h
  obtain ⟨s2, h⟩ := bind_splitAt h
  obtain ⟨s3, h⟩ := bind_splitAt h
  obtain ⟨s4, h⟩ := bind_splitAt h
  obtain ⟨s5, h⟩ := bind_splitAt h
  obtain ⟨s6, h⟩ := bind_splitAt h
  obtain ⟨s7, h⟩ := bind_splitAt h
  obtain ⟨s8, h⟩ := bind_splitAt h
  simp only [Res.ok.injEq, Prod.mk.injEq] at h
  obtain ⟨rfl, -⟩ := h
  exact ⟨rfl, rfl⟩

theorem pairState_new (el : Elem) {f : SamplingFrequency} {d : FrameDuration} {X ε : ℝ} (hD : Dims X ε) {sb1 sb1' : List F32} {sb2 sb2' : List ℝ}
    {s1 : Ltpf F32} {s2 : Ltpf ℝ} (h1 : Ltpf.new (Lc3Config.new f d) sb1 = .ok (s1, sb1'))
    (h2 : Ltpf.new (Lc3Config.new f d) sb2 = .ok (s2, sb2')) (h : Rl ε X sb1 sb2) : PairState f d X ε s1 s2 := by
  obtain ⟨a1, a2, a3⟩ := @ltpfNew_inv F32 (scalar el) _ _ _ _ _ h1
  obtain ⟨b1, b2, b3⟩ := ltpfNew_inv h2
  obtain ⟨c1, c2⟩ := ltpfNew_mem32 h1
  obtain ⟨d1, d2⟩ := ltpfNew_mem h2
  obtain ⟨j0, j1, j2, j3⟩ := hD.inErr_le
  have := hD.one
  refine ⟨a1, b1, a2.trans b2.symm, by rw [a2]; simp, a3.trans b3.symm, by rw [a2]; simp, ?_, ?_⟩
  · rw [c1, d1]; exact rl_take h _
  · rw [c2, d2]
    intro i v w k1 k2
    exact (rl_take (rl_drop h _) _ i v w k1 k2).mono (by linarith) (by linarith)

/-- **C110.** Binary32, every configuration: the filter of the code and the exact filter start from memories at most `ε` apart and run
over frames with the same side information (whatever it is) and samples at most `ε` apart; the exact memory and samples are at most `X` in
size, `1 ≤ X ≤ 2 ^ 104`, `ε ≤ X / 1024`. Both return, every output sample of the code is finite, and is at most `5 ε + X / 8192` away
from the exact output sample (which is at most `5 X` in size), however long the sequence. -/
theorem C110 (el : Elem) {f : SamplingFrequency} {d : FrameDuration} {sb1 sb1' : List F32} {sb2 sb2' : List ℝ} {s1 : Ltpf F32}
    {s2 : Ltpf ℝ} (h1 : Ltpf.new (Lc3Config.new f d) sb1 = .ok (s1, sb1')) (h2 : Ltpf.new (Lc3Config.new f d) sb2 = .ok (s2, sb2'))
    {X ε : ℝ} (hX : 1 ≤ X) (hX' : X ≤ 2 ^ 104) (hε : 0 ≤ ε) (hε' : ε ≤ X / 2 ^ 10) (hs : Follows ε sb1 sb2) (hsz : SizeAtMost X sb2)
    {fs : List (LtpfFrame F32)} {gs : List (LtpfFrame ℝ)} (hf : ∀ fr ∈ gs, FrameOk f d fr) (hx : List.Forall₂ (FrameFollows ε) fs gs)
    (hxz : ∀ fr ∈ gs, SizeAtMost X fr.samples) :
    ∃ s1' s2' o1 o2, @ltpfRunAll F32 (scalar el) (Lc3Config.new f d) fs s1 = .ok (s1', o1) ∧
      ltpfRunAll (Lc3Config.new f d) gs s2 = .ok (s2', o2) ∧ o1.length = gs.length * (Lc3Config.new f d).nf ∧
      Follows (5 * ε + X / 2 ^ 13) o1 o2 ∧ SizeAtMost (5 * X) o2 := by
  have hD : Dims X ε := ⟨hX, hX', hε, hε'⟩
  have hfg : List.Forall₂ (fun (a : LtpfFrame F32) (b : LtpfFrame ℝ) => a.info = b.info ∧ a.nbits = b.nbits ∧
      a.samples.length = b.samples.length ∧ Rl ε X a.samples b.samples) fs gs := by
    rw [List.forall₂_iff_get] at hx ⊢
    refine ⟨hx.1, fun i k1 k2 => ?_⟩
    obtain ⟨a, b, c⟩ := hx.2 i k1 k2
    exact ⟨a, b, c.length_eq, rl_of_follows c (hxz _ (List.get_mem _ _))⟩
  obtain ⟨s1', s2', o1, o2, e1, e2, -, l1, l2, h⟩ := runAll_pair (el := el) hD fs gs (pairState_new el hD h1 h2 (rl_of_follows hs hsz)) hf hfg
  obtain ⟨k1, k2⟩ := follows_of_rl (l1.trans l2.symm) h
  refine ⟨s1', s2', o1, o2, e1, e2, l1, k1.imp fun a b hab => ⟨hab.1, hab.2.trans ?_⟩, k2⟩
  unfold inErr
  norm_num
  linarith


/-! ### The decoder -/

/-- clipping to 16 bits -/
noncomputable def clip16 (v : ℝ) : ℝ := max (-32768) (min 32767 v)

theorem clip16_near (v w : ℝ) : |clip16 v - clip16 w| ≤ |v - w| := by
  unfold clip16
  rcases le_total 32767 v with h1 | h1 <;> rcases le_total 32767 w with h2 | h2 <;> rcases le_total (-32768) v with h3 | h3 <;>
    rcases le_total (-32768) w with h4 | h4 <;> simp only [h1, h2, h3, h4, min_eq_left, min_eq_right, max_eq_left, max_eq_right] <;>
    rcases le_total v w with h5 | h5 <;>
    (try rw [abs_of_nonpos (show v - w ≤ 0 by linarith)]) <;> (try rw [abs_of_nonneg (show 0 ≤ v - w by linarith)]) <;> rw [abs_le] <;>
    constructor <;> (try rw [max_eq_right (by norm_num : (-32768 : ℝ) ≤ 32767)]) <;> linarith

/-- rounding and clipping of one sample in binary32, compared with any real number -/
theorem roundSample32_any (el : Elem) {a : F32} (ha : IsFin a) (hb : |val a| ≤ 2 ^ 110) (w : ℝ) :
    |((@roundSample F32 (scalar el) a : Int) : ℝ) - clip16 w| ≤ 1 / 2 + ((|val a| + 1 / 2) / 2 ^ 24 + 1 / 2 ^ 150) + |val a - w| := by
  have hh : IsFin (rnd (1 / 2)) ∧ val (rnd (1 / 2)) = 1 / 2 := by
    rw [rnd_half]
    exact ⟨⟨_, rfl⟩, by show (((1 / 2 : ℚ)) : ℝ) = _; norm_num⟩
  -- the clipped value
  have key : ∀ t : ℤ, |(t : ℝ) - val a| ≤ 1 / 2 + ((|val a| + 1 / 2) / 2 ^ 24 + 1 / 2 ^ 150) →
      |((max (min (max (-2147483648) (min 2147483647 t)) 32767) (-32768) : Int) : ℝ) - clip16 w| ≤
        1 / 2 + ((|val a| + 1 / 2) / 2 ^ 24 + 1 / 2 ^ 150) + |val a - w| := by
    intro t ht
    have hv : ((max (min (max (-2147483648) (min 2147483647 t)) 32767) (-32768) : Int) : ℝ) = clip16 t := by
      have : max (min (max (-2147483648) (min 2147483647 t)) 32767) (-32768) = max (-32768) (min 32767 t) := by omega
      rw [this]
      unfold clip16
      push_cast
      rfl
    rw [hv]
    refine (clip16_near _ _).trans ?_
    have := abs_sub_le (t : ℝ) (val a) w
    linarith
  have hsz : |val a| + 1 / 2 ≤ 2 ^ 127 := by
    refine le_trans (add_le_add_left hb _) ?_
    norm_num
  have hpos : @pos F32 (scalar el) a = decide (0 < val a) := by
    obtain ⟨q, rfl⟩ := ha
    show F32.lt (rnd 0) (fin q) = decide ((0 : ℝ) < (q : ℝ))
    rw [rnd_zero]
    show decide (0 < q) = _
    congr 1
    rw [eq_iff_iff]
    exact Rat.cast_pos.symm
  unfold roundSample
  rw [hpos]
  by_cases hp : 0 < val a
  · rw [decide_eq_true hp]
    simp only [if_true]
    rw [abs_of_pos hp] at hsz key ⊢
    have e : |val a + val (rnd (1 / 2))| = val a + 1 / 2 := by rw [hh.2, abs_of_nonneg (by linarith)]
    obtain ⟨⟨p, hp'⟩, g2⟩ := add_val ha hh.1 (by rw [e]; exact hsz)
    rw [e, hh.2] at g2
    change |((max (min (F32.toI32 (F32.add a (rnd (1 / 2)))) 32767) (-32768) : Int) : ℝ) - clip16 w| ≤ _
    rw [hp'] at g2 ⊢
    change |(p : ℝ) - _| ≤ _ at g2
    refine key (truncQ p) ?_
    have hp0 : (0 : ℝ) ≤ p := by
      rw [abs_le] at g2
      have := g2.1
      norm_num at this
      linarith
    unfold truncQ
    rw [if_pos (by exact_mod_cast hp0)]
    have f1 := (Rat.cast_le (K := ℝ)).2 (Int.floor_le p)
    have f2 := (Rat.cast_lt (K := ℝ)).2 (Int.lt_floor_add_one p)
    push_cast at f1 f2
    rw [abs_le] at g2 ⊢
    constructor <;> linarith [g2.1, g2.2]
  · rw [decide_eq_false hp]
    simp only [Bool.false_eq_true, if_false]
    have hp := not_lt.1 hp
    rw [abs_of_nonpos hp] at hsz key ⊢
    have e : |val a - val (rnd (1 / 2))| = -val a + 1 / 2 := by rw [hh.2, abs_of_nonpos (by linarith)]; ring
    obtain ⟨⟨p, hp'⟩, g2⟩ := sub_val ha hh.1 (by rw [e]; exact hsz)
    rw [e, hh.2] at g2
    change |((max (min (F32.toI32 (F32.sub a (rnd (1 / 2)))) 32767) (-32768) : Int) : ℝ) - clip16 w| ≤ _
    rw [hp'] at g2 ⊢
    change |(p : ℝ) - _| ≤ _ at g2
    refine key (truncQ p) ?_
    have hp0 : (p : ℝ) < 0 := by
      rw [abs_le] at g2
      have := g2.2
      norm_num at this
      linarith
    unfold truncQ
    rw [if_neg (by rw [not_le]; exact_mod_cast hp0)]
    have f1 := (Rat.cast_le (K := ℝ)).2 (Int.floor_le (-p))
    have f2 := (Rat.cast_lt (K := ℝ)).2 (Int.lt_floor_add_one (-p))
    push_cast at f1 f2 ⊢
    rw [abs_le] at g2 ⊢
    constructor <;> linarith [g2.1, g2.2]

end F32

section
variable {α : Type} [Scalar α]

/-- a channel decodes a list of frames (decoder/lc3_decoder.rs 73-154), each into a buffer of one frame: the final state, the frames that were
given to the post filter (line 148), and all samples written -/
def decodeStream (checks : Bool) (cfg : Lc3Config) : List (List Nat) → DecChannel α → Res (DecChannel α × List (LtpfFrame α) × List Int)
  | [], ch => .ok (ch, [], [])
  | buf :: rest, ch => do
    let (lines, _, info) ← decodeSpectrum checks cfg ch buf
    let (_, time) ← mdctDecRun cfg ch.memOla lines
    let (_, ch, out) ← decodeChannel checks cfg ch 16 buf (List.replicate cfg.nf 0)
    let (ch, frames, outs) ← decodeStream checks cfg rest ch
    .ok (ch, ⟨info, buf.length * 8, time⟩ :: frames, out ++ outs)

/-- every stream of frames whose lengths are not among the few that panic is decoded -/
theorem decodeStream_ok {f : SamplingFrequency} {d : FrameDuration} : ∀ (bufs : List (List Nat)) (ch : DecChannel α), ChInv f d ch →
    (∀ b ∈ bufs, b.length ∉ shortLens f d) → ∃ r, decodeStream false (Lc3Config.new f d) bufs ch = .ok r
  | [], ch, _, _ => ⟨_, rfl⟩
  | buf :: rest, ch, h, hb => by
    have hb0 := hb buf (by simp)
    obtain ⟨⟨lines, plc, info⟩, e1, h1, -⟩ := (safe_decodeSpectrum h hb0).exists_ok (noErr_decodeSpectrum _ _ _ _)
    obtain ⟨⟨m, t⟩, e2, -⟩ := (safe_mdctDecRun h1 h.ola).exists_ok (noErr_mdctDecRun _ _ _)
    obtain ⟨⟨r, ch', o⟩, e3, h3, -⟩ := (safe_decodeChannel (bits := 16) (out := List.replicate (Lc3Config.new f d).nf 0) h hb0).exists_ok
      (noErr_decodeChannel _ _ _ _ _ _)
    obtain ⟨⟨ch2, fr, os⟩, e4⟩ := decodeStream_ok rest ch' h3 (fun b hb' => hb b (by simp [hb']))
    refine ⟨(ch2, ⟨info, buf.length * 8, t⟩ :: fr, o ++ os), ?_⟩
    simp only at e2 e4
    rw [decodeStream, e1, Res.bind_ok]
    simp only
    rw [e2, Res.bind_ok]
    simp only
    rw [e3, Res.bind_ok]
    simp only
    rw [e4, Res.bind_ok]

end

namespace F32
variable {el : Elem}

/-- the frame with the exact values of its samples -/
noncomputable def exactFrame (fr : LtpfFrame F32) : LtpfFrame ℝ := ⟨fr.info, fr.nbits, fr.samples.map val⟩

/-- one frame of the decoder -/
theorem channel_parts {checks : Bool} (he : Tame el) {f : SamplingFrequency} {d : FrameDuration} {ch ch' : DecChannel F32} (h : ChFin f d ch)
    {buf : List ℕ} (hb : buf.length < 2 ^ 28) {lines time mem : List F32} {plc : Plc F32} {info : LtpfInfo} {res : DecResult} {o : List ℤ}
    (e1 : @decodeSpectrum F32 (scalar el) checks (Lc3Config.new f d) ch buf = .ok (lines, plc, info))
    (e2 : @mdctDecRun F32 (scalar el) (Lc3Config.new f d) ch.memOla lines = .ok (mem, time)) {out : List ℤ}
    (e3 : @decodeChannel F32 (scalar el) checks (Lc3Config.new f d) ch 16 buf out = .ok (res, ch', o)) :
    info.pitchIndex < 512 ∧ time.length = (Lc3Config.new f d).nf ∧ AllBd (2 ^ 102) time ∧
      ∃ y, @ltpfRun F32 (scalar el) (Lc3Config.new f d) ch.ltpf info (buf.length * 8) time = .ok (ch'.ltpf, y) ∧
        o = @scaleAndRound F32 (scalar el) y out := by
  letI := scalar el
  have e1' : decodeSpectrum false (Lc3Config.new f d) ch buf = .ok (lines, plc, info) := by
    cases checks with
    | false => exact e1
    | true =>
      rcases decodeSpectrum_checks (Lc3Config.new f d) ch buf with hc | hc
      · rw [hc] at e1; cases e1
      · rw [← hc]; exact e1
  obtain ⟨l1, l2, l3, -, -⟩ := bd_decodeSpectrum he h hb e1'
  obtain ⟨m1, -, m3⟩ := bd_mdctDecRun he.toAccurate f d l1 l3 h.inv.ola h.ola e2
  refine ⟨l2, m1, m3, ?_⟩
  unfold decodeChannel at e3
  rw [if_neg (by simp), e1, Res.bind_ok] at e3
  simp only at e3
  rw [if_neg (by rw [not_not]; exact h.inv.freq), e2, Res.bind_ok] at e3
  simp only at e3
  obtain ⟨⟨s, y⟩, e4, e3⟩ := bind_ok_inv e3
  simp only [Res.ok.injEq, Prod.mk.injEq] at e3
  obtain ⟨-, rfl, rfl⟩ := e3
  exact ⟨y, e4, rfl⟩

theorem round_pair {X ε : ℝ} (hD : Dims X ε) {v : F32} {w : ℝ} (h : Cl (5 * inErr X ε) (5 * X) v w) :
    |((@roundSample F32 (scalar el) v : ℤ) : ℝ) - clip16 w| ≤ 1 / 2 + 5 * ε + X / 2 ^ 13 := by
  obtain ⟨h1, h2, h3⟩ := h
  obtain ⟨j0, j1, j2, j3⟩ := hD.inErr_le
  have hX := hD.one
  have hX' := hD.big
  have hv : |val v| ≤ 51 / 10 * X := by
    have := abs_sub_abs_le_abs_sub (val v) w
    linarith
  have hv' : |val v| ≤ 2 ^ 110 := by
    refine hv.trans ?_
    calc 51 / 10 * X ≤ 51 / 10 * 2 ^ 104 := by gcongr
      _ ≤ 2 ^ 110 := by norm_num
  refine (roundSample32_any el h1 hv' w).trans ?_
  unfold inErr at h2
  generalize |val v| = V at *
  generalize |val v - w| = W at *
  norm_num at h2 ⊢
  linarith

theorem round_all {X ε : ℝ} (hD : Dims X ε) : ∀ {y : List F32} {o2 : List ℝ} {out : List ℤ}, y.length = out.length → o2.length = out.length →
    Rl (5 * inErr X ε) (5 * X) y o2 →
    List.Forall₂ (fun (r : ℤ) (w : ℝ) => |(r : ℝ) - clip16 w| ≤ 1 / 2 + 5 * ε + X / 2 ^ 13) (@scaleAndRound F32 (scalar el) y out) o2
  | [], [], [], _, _, _ => List.Forall₂.nil
  | [], _ :: _, [], _, h, _ => by simp at h
  | [], _, _ :: _, h, _, _ => by simp at h
  | _ :: _, _, [], h, _, _ => by simp at h
  | _ :: _, [], _ :: _, _, h, _ => by simp at h
  | a :: y, b :: o2, c :: out, h1, h2, h => by
    letI := scalar el
    rw [scaleAndRound]
    exact List.Forall₂.cons (round_pair hD (h 0 a b rfl rfl)) (round_all hD (by simpa using h1) (by simpa using h2)
      fun i v w k1 k2 => h (i + 1) v w (by simpa using k1) (by simpa using k2))

theorem stream_pair {checks : Bool} (he : Tame el) {f : SamplingFrequency} {d : FrameDuration} {X ε : ℝ} (hD : Dims X ε) :
    ∀ (bufs : List (List ℕ)) {ch ch' : DecChannel F32} {s2 : Ltpf ℝ} {frames : List (LtpfFrame F32)} {outs : List ℤ} {gs : List (LtpfFrame ℝ)},
    ChFin f d ch → PairState f d X ε ch.ltpf s2 → (∀ b ∈ bufs, b.length < 2 ^ 28) →
    @decodeStream F32 (scalar el) checks (Lc3Config.new f d) bufs ch = .ok (ch', frames, outs) →
    List.Forall₂ (FrameNear ε) frames gs →
    (∀ fr ∈ gs, SizeAtMost X fr.samples) →
    ∃ s2' o2, ltpfRunAll (Lc3Config.new f d) gs s2 = .ok (s2', o2) ∧
      List.Forall₂ (fun (r : ℤ) (w : ℝ) => |(r : ℝ) - clip16 w| ≤ 1 / 2 + 5 * ε + X / 2 ^ 13) outs o2
  | [], ch, ch', s2, frames, outs, gs, _, _, _, e, hfg, _ => by
    letI := scalar el
    rw [decodeStream] at e
    simp only [Res.ok.injEq, Prod.mk.injEq] at e
    obtain ⟨-, rfl, rfl⟩ := e
    cases hfg
    exact ⟨s2, [], rfl, List.Forall₂.nil⟩
  | buf :: rest, ch, ch', s2, frames, outs, gs, hc, hp, hb, e, hfg, hsz => by
    letI := scalar el
    rw [decodeStream] at e
    obtain ⟨⟨lines, plc, info⟩, e1, e⟩ := bind_ok_inv e
    obtain ⟨⟨mem, time⟩, e2, e⟩ := bind_ok_inv e
    obtain ⟨⟨res, ch1, o⟩, e3, e⟩ := bind_ok_inv e
    obtain ⟨⟨ch2, fr, os⟩, e4, e⟩ := bind_ok_inv e
    simp only [Res.ok.injEq, Prod.mk.injEq] at e
    obtain ⟨rfl, rfl, rfl⟩ := e
    have hbl := hb buf (by simp)
    obtain ⟨p1, p2, p3, y, p4, rfl⟩ := channel_parts he hc hbl e1 e2 e3
    have hc1 : ChFin f d ch1 := bd_decodeChannel he hc hbl e3
    cases hfg with
    | @cons _ g _ gs hd htl =>
      obtain ⟨i1, i2, i3, i4⟩ := hd
      have hgs := hsz g (by simp)
      have hrl : Rl ε X time g.samples := by
        intro i v w k1 k2
        obtain ⟨q1, q1'⟩ := List.getElem?_eq_some_iff.1 k1
        obtain ⟨q2, q2'⟩ := List.getElem?_eq_some_iff.1 k2
        have hi := i4 i q1
        simp only at hi
        rw [getD_of_lt q1, getD_of_lt q2, q1', q2'] at hi
        exact ⟨(p3 v (List.mem_of_getElem? k1)).1, hi, hgs w (List.mem_of_getElem? k2)⟩
      simp only at i1 i2 i3
      obtain ⟨t1, t2, o1, o2, r1, r2, r3, r4, r5, r6⟩ := run_pair (el := el) hD hp p1 (buf.length * 8) p2 (i3.trans p2) hrl
      rw [p4] at r1
      simp only [Res.ok.injEq, Prod.mk.injEq] at r1
      obtain ⟨rfl, rfl⟩ := r1
      obtain ⟨s2', o2', g1, g2⟩ := stream_pair he hD rest hc1 r3 (fun b hb' => hb b (by simp [hb'])) e4 htl (fun q hq => hsz q (by simp [hq]))
      refine ⟨s2', o2 ++ o2', ?_, List.rel_append (round_all hD (by simpa using r5) (by simpa using r6) r4) g2⟩
      rw [ltpfRunAll, ← i1, ← i2, r2, Res.bind_ok]
      simp only
      rw [g1, Res.bind_ok]

/-- **C110** (decoder) Binary32, every configuration, any bytes: a channel with a new post filter decodes any list of frames. If `gs` are frames
with the side information of the decoded frames and samples within `ε` of what the transform hands to the post filter (for instance the
delayed input of the encoder, C103 and C108), then the samples written are what the exact post filter makes of `gs`, clipped to 16 bits and
rounded, up to `5 ε + X / 8192`, however long the stream. -/
theorem C110_decoder {checks : Bool} (he : Tame el) {f : SamplingFrequency} {d : FrameDuration} {ch ch' : DecChannel F32} (hc : ChFin f d ch)
    {sb sb' : List F32} (hnew : Ltpf.new (Lc3Config.new f d) sb = .ok (ch.ltpf, sb')) {sb2 sb2' : List ℝ} {s2 : Ltpf ℝ}
    (hnew2 : Ltpf.new (Lc3Config.new f d) sb2 = .ok (s2, sb2')) {X ε : ℝ} (hX : 1 ≤ X) (hX' : X ≤ 2 ^ 104) (hε : 0 ≤ ε) (hε' : ε ≤ X / 2 ^ 10)
    (hs : Follows ε sb sb2) (hsz : SizeAtMost X sb2) {bufs : List (List ℕ)} (hb : ∀ b ∈ bufs, b.length < 2 ^ 28)
    {frames : List (LtpfFrame F32)} {outs : List ℤ}
    (e : @decodeStream F32 (scalar el) checks (Lc3Config.new f d) bufs ch = .ok (ch', frames, outs)) {gs : List (LtpfFrame ℝ)}
    (hx : List.Forall₂ (FrameNear ε) frames gs)
    (hxz : ∀ fr ∈ gs, SizeAtMost X fr.samples) :
    ∃ s2' o2, ltpfRunAll (Lc3Config.new f d) gs s2 = .ok (s2', o2) ∧
      List.Forall₂ (fun (r : ℤ) (w : ℝ) => |(r : ℝ) - clip16 w| ≤ 1 / 2 + 5 * ε + X / 2 ^ 13) outs o2 :=
  stream_pair he ⟨hX, hX', hε, hε'⟩ bufs hc (pairState_new el ⟨hX, hX', hε, hε'⟩ hnew hnew2 (rl_of_follows hs hsz)) hb e hx hxz

/-- the exact filter can be set up on the exact values -/
theorem ltpfNew_exact {cfg : Lc3Config} {sb sb' : List F32} {s : Ltpf F32} (h : Ltpf.new cfg sb = .ok (s, sb')) :
    ∃ s2 sb2', Ltpf.new cfg (sb.map val) = .ok (s2, sb2') := by
  obtain ⟨s1, h⟩ := bind_splitAt h
  obtain ⟨s2, h⟩ := bind_splitAt h
  obtain ⟨s3, h⟩ := bind_splitAt h
  obtain ⟨s4, h⟩ := bind_splitAt h
  obtain ⟨s5, h⟩ := bind_splitAt h
  obtain ⟨s6, h⟩ := bind_splitAt h
  obtain ⟨s7, h⟩ := bind_splitAt h
  obtain ⟨s8, h⟩ := bind_splitAt h
  have split : ∀ {n : ℕ} {l : List F32}, n ≤ l.length → splitAt (l.map val) n = .ok ((l.take n).map val, (l.drop n).map val) := by
    intro n l hn
    unfold splitAt
    rw [if_pos (by simpa using hn), List.map_take, List.map_drop]
  have : ∃ r, Ltpf.new cfg (sb.map val) = .ok r := by
    unfold Ltpf.new
    rw [split s1, Res.bind_ok]; simp only
    rw [split s2, Res.bind_ok]; simp only
    rw [split s3, Res.bind_ok]; simp only
    rw [split s4, Res.bind_ok]; simp only
    rw [split s5, Res.bind_ok]; simp only
    rw [split s6, Res.bind_ok]; simp only
    rw [split s7, Res.bind_ok]; simp only
    rw [split s8, Res.bind_ok]
    exact ⟨_, rfl⟩
  obtain ⟨⟨r1, r2⟩, hr⟩ := this
  exact ⟨r1, r2, hr⟩

theorem follows_self {l : List F32} (h : ∀ v ∈ l, IsFin v) : Follows 0 l (l.map val) := by
  unfold Follows
  rw [List.forall₂_map_right_iff, List.forall₂_same]
  intro v hv
  exact ⟨h v hv, by simp⟩

/-- what the transform hands to the post filter is finite and bounded -/
theorem stream_size {checks : Bool} (he : Tame el) {f : SamplingFrequency} {d : FrameDuration} :
    ∀ (bufs : List (List ℕ)) {ch ch' : DecChannel F32} {frames : List (LtpfFrame F32)} {outs : List ℤ}, ChFin f d ch →
    (∀ b ∈ bufs, b.length < 2 ^ 28) → @decodeStream F32 (scalar el) checks (Lc3Config.new f d) bufs ch = .ok (ch', frames, outs) →
    ∀ fr ∈ frames, AllBd (2 ^ 102) fr.samples
  | [], ch, ch', frames, outs, _, _, e => by
    letI := scalar el
    rw [decodeStream] at e
    simp only [Res.ok.injEq, Prod.mk.injEq] at e
    obtain ⟨-, rfl, -⟩ := e
    simp
  | buf :: rest, ch, ch', frames, outs, hc, hb, e => by
    letI := scalar el
    rw [decodeStream] at e
    obtain ⟨⟨lines, plc, info⟩, e1, e⟩ := bind_ok_inv e
    obtain ⟨⟨mem, time⟩, e2, e⟩ := bind_ok_inv e
    obtain ⟨⟨res, ch1, o⟩, e3, e⟩ := bind_ok_inv e
    obtain ⟨⟨ch2, fr, os⟩, e4, e⟩ := bind_ok_inv e
    simp only [Res.ok.injEq, Prod.mk.injEq] at e
    obtain ⟨rfl, rfl, rfl⟩ := e
    have hbl := hb buf (by simp)
    obtain ⟨-, -, p3, -⟩ := channel_parts he hc hbl e1 e2 e3
    intro q hq
    rcases List.mem_cons.1 hq with rfl | hq
    · exact p3
    · exact stream_size he rest (bd_decodeChannel he hc hbl e3) (fun b hb' => hb b (by simp [hb'])) e4 q hq

theorem channelNew_ltpf {cfg : Lc3Config} {sb sb' : List F32} {cb cb' : List (Cx F32)} {ch : DecChannel F32}
    (e : @decChannelNew F32 (scalar el) cfg sb cb = .ok (ch, sb', cb')) : ∃ sb0 sb1, Ltpf.new cfg sb0 = .ok (ch.ltpf, sb1) ∧ ∀ v ∈ sb0, v ∈ sb := by
  letI := scalar el
  unfold decChannelNew at e
  obtain ⟨⟨l0, sb00⟩, hs0, e⟩ := bind_ok_inv e
  obtain ⟨⟨p, sb1⟩, h1, e⟩ := bind_ok_inv e
  obtain ⟨⟨m, sb2, cb1⟩, h2, e⟩ := bind_ok_inv e
  obtain ⟨⟨l, sb3⟩, h3, e⟩ := bind_ok_inv e
  obtain ⟨⟨l4, sb4⟩, -, eLast⟩ := bind_ok_inv e
  have hs0 := bind_splitAt (k := fun p => Res.ok p) (show (splitAt sb cfg.ne >>= fun p => Res.ok p) = .ok (l0, sb00) by rw [hs0, Res.bind_ok])
  simp only [Res.ok.injEq, Prod.mk.injEq] at hs0
  obtain ⟨-, rfl, rfl⟩ := hs0
  unfold Plc.new at h1
  obtain ⟨-, h1⟩ := bind_splitAt h1
  simp only [Res.ok.injEq, Prod.mk.injEq] at h1
  obtain ⟨rfl, rfl⟩ := h1
  unfold mdctDecNew at h2
  obtain ⟨_, -, h2⟩ := bind_ok_inv h2
  obtain ⟨_, -, h2⟩ := bind_ok_inv h2
  obtain ⟨-, h2⟩ := bind_splitAt h2
  obtain ⟨-, h2⟩ := bind_splitAt h2
  obtain ⟨_, -, h2⟩ := bind_ok_inv h2
  obtain ⟨-, h2⟩ := bind_splitAt h2
  obtain ⟨-, h2⟩ := bind_splitAt h2
  obtain ⟨_, -, h2⟩ := bind_ok_inv h2
  simp only [Res.ok.injEq, Prod.mk.injEq] at h2
  obtain ⟨rfl, rfl, rfl⟩ := h2
  simp only [Res.ok.injEq, Prod.mk.injEq] at eLast
  obtain ⟨rfl, -, -⟩ := eLast
  exact ⟨_, _, h3, fun v hv => by
    have := fun {n : ℕ} {l : List F32} => @List.mem_of_mem_drop F32 v n l
    exact this (this (this (this (this (this hv)))))⟩

/-- **C110** (new decoder) The same for a new channel on any buffers and the decoder's own time samples: the samples written are the exact post
filter applied to them, clipped to 16 bits and rounded, up to `X / 8192`, where `X` is the size of the buffers and of the time samples. -/
theorem C110_new {checks : Bool} (he : Tame el) {f : SamplingFrequency} {d : FrameDuration} {ch ch' : DecChannel F32} {sb sb' : List F32}
    {cb cb' : List (Cx F32)} (hnew : @decChannelNew F32 (scalar el) (Lc3Config.new f d) sb cb = .ok (ch, sb', cb')) (hsb : AllBd (2 ^ 80) sb)
    {bufs : List (List ℕ)} (hb : ∀ b ∈ bufs, b.length < 2 ^ 28) {frames : List (LtpfFrame F32)} {outs : List ℤ}
    (e : @decodeStream F32 (scalar el) checks (Lc3Config.new f d) bufs ch = .ok (ch', frames, outs)) :
    ∃ sb0 sb1 s2 sb2 s2' o2, Ltpf.new (Lc3Config.new f d) sb0 = .ok (ch.ltpf, sb1) ∧
      Ltpf.new (Lc3Config.new f d) (sb0.map val) = .ok (s2, sb2) ∧
      ltpfRunAll (Lc3Config.new f d) (frames.map exactFrame) s2 = .ok (s2', o2) ∧
      ∀ X, 1 ≤ X → X ≤ 2 ^ 104 → (∀ v ∈ sb, |val v| ≤ X) → (∀ fr ∈ frames, ∀ v ∈ fr.samples, |val v| ≤ X) →
        List.Forall₂ (fun (r : ℤ) (w : ℝ) => |(r : ℝ) - clip16 w| ≤ 1 / 2 + X / 2 ^ 13) outs o2 := by
  have hc : ChFin f d ch := (bd_decChannelNew (el := el) hsb hnew).1
  obtain ⟨sb0, sb1, h0, hmem⟩ := channelNew_ltpf hnew
  obtain ⟨s2, sb2, h2⟩ := ltpfNew_exact h0
  have hfol : Follows 0 sb0 (sb0.map val) := follows_self fun v hv => (hsb v (hmem v hv)).1
  have hnear : List.Forall₂ (FrameNear 0) frames (frames.map exactFrame) := by
    rw [List.forall₂_map_right_iff, List.forall₂_same]
    intro fr _
    refine ⟨rfl, rfl, by simp [exactFrame], fun j hj => ?_⟩
    have : (exactFrame fr).samples.getD j 0 = val (fr.samples.getD j (fin 0)) := by
      show (fr.samples.map val).getD j 0 = _
      rw [getD_of_lt (by simpa using hj), List.getElem_map, getD_of_lt hj]
    rw [this]
    simp
  have main : ∀ X, 1 ≤ X → X ≤ 2 ^ 104 → (∀ v ∈ sb, |val v| ≤ X) → (∀ fr ∈ frames, ∀ v ∈ fr.samples, |val v| ≤ X) →
      ∃ s2' o2, ltpfRunAll (Lc3Config.new f d) (frames.map exactFrame) s2 = .ok (s2', o2) ∧
        List.Forall₂ (fun (r : ℤ) (w : ℝ) => |(r : ℝ) - clip16 w| ≤ 1 / 2 + X / 2 ^ 13) outs o2 := by
    intro X x1 x2 x3 x4
    obtain ⟨s2', o2, r1, r2⟩ := C110_decoder he hc h0 h2 x1 x2 le_rfl (by positivity) hfol (by
      intro v hv
      obtain ⟨w, hw, rfl⟩ := List.mem_map.1 hv
      exact x3 w (hmem w hw)) hb e hnear (by
      intro fr hfr v hv
      obtain ⟨g, hg, rfl⟩ := List.mem_map.1 hfr
      obtain ⟨w, hw, rfl⟩ := List.mem_map.1 hv
      exact x4 g hg w hw)
    refine ⟨s2', o2, r1, r2.imp fun a b hab => hab.trans ?_⟩
    linarith
  obtain ⟨s2', o2, r1, -⟩ := main (2 ^ 104) (by norm_num) le_rfl (fun v hv => (hsb v hv).2.trans (by norm_num))
    (fun fr hfr v hv => (stream_size he bufs hc hb e fr hfr v hv).2.trans (by norm_num))
  refine ⟨sb0, sb1, s2, sb2, s2', o2, h0, h2, r1, fun X x1 x2 x3 x4 => ?_⟩
  obtain ⟨s3, o3, r3, r4⟩ := main X x1 x2 x3 x4
  rw [r1] at r3
  simp only [Res.ok.injEq, Prod.mk.injEq] at r3
  rw [r3.2]
  exact r4

/-! ### Concrete cases -/

/-- 80 samples of a square wave of full scale -/
def squareWave32 : List F32 := (List.range 80).map fun n => if n % 2 = 0 then fin 32767 else fin (-32768)

theorem squareWave32_follows : Follows 0 squareWave32 squareWave := by
  unfold Follows squareWave32 squareWave
  rw [List.forall₂_map_left_iff, List.forall₂_map_right_iff, List.forall₂_same]
  intro n _
  split
  · exact ⟨⟨_, rfl⟩, by show |((32767 : ℚ) : ℝ) - 32767| ≤ 0; norm_num⟩
  · exact ⟨⟨_, rfl⟩, by show |((-32768 : ℚ) : ℝ) - -32768| ≤ 0; norm_num⟩

set_option maxRecDepth 20000 in
/-- C110 applies at 8 kHz to a frame with the filter, a frame with another lag and a frame without the filter, repeated any number of times:
no sample is off by more than 4. -/
example (el : Elem) (n : ℕ) : ∃ s1 sb1', Ltpf.new (Lc3Config.new .hz8000 .tenMs) (List.replicate 400 (fin 0)) = .ok (s1, sb1') ∧
    ∃ s2 sb2', Ltpf.new (Lc3Config.new .hz8000 .tenMs) ((List.replicate 400 (fin 0)).map val) = .ok (s2, sb2') ∧
    ∃ s1' s2' o1 o2, @ltpfRunAll F32 (scalar el) (Lc3Config.new .hz8000 .tenMs) ((List.replicate n [(⟨⟨true, true, 100⟩, 160, squareWave32⟩ : LtpfFrame F32),
        ⟨⟨true, true, 511⟩, 160, squareWave32⟩, ⟨⟨false, false, 0⟩, 160, squareWave32⟩]).flatten) s1 = .ok (s1', o1) ∧
      ltpfRunAll (Lc3Config.new .hz8000 .tenMs) (List.replicate n stableFrames).flatten s2 = .ok (s2', o2) ∧ Follows 4 o1 o2 := by
  obtain ⟨s, sb', hs⟩ : ∃ (s : Ltpf F32) (sb' : List F32),
      Ltpf.new (Lc3Config.new .hz8000 .tenMs) (List.replicate 400 (fin 0)) = .ok (s, sb') := ⟨_, _, rfl⟩
  obtain ⟨s2, sb2', hs2⟩ := ltpfNew_exact hs
  have hmem : ∀ fr ∈ (List.replicate n stableFrames).flatten, fr ∈ stableFrames := by
    intro fr hfr
    obtain ⟨l, hl, hfr⟩ := List.mem_flatten.1 hfr
    rw [List.eq_of_mem_replicate hl] at hfr
    exact hfr
  obtain ⟨s1', s2', o1, o2, e1, e2, -, h, -⟩ := C110 el hs hs2 (X := 32768) (ε := 0) (by norm_num) (by norm_num) le_rfl (by norm_num)
    (follows_self (by intro v hv; rw [List.eq_of_mem_replicate hv]; exact ⟨_, rfl⟩))
    (by
      intro v hv
      rw [List.map_replicate] at hv
      rw [List.eq_of_mem_replicate hv]
      show |((0 : ℚ) : ℝ)| ≤ _
      norm_num)
    (fs := (List.replicate n [(⟨⟨true, true, 100⟩, 160, squareWave32⟩ : LtpfFrame F32), ⟨⟨true, true, 511⟩, 160, squareWave32⟩,
      ⟨⟨false, false, 0⟩, 160, squareWave32⟩]).flatten) (gs := (List.replicate n stableFrames).flatten)
    (by
      intro fr hfr
      have hfr := hmem fr hfr
      simp only [stableFrames, List.mem_cons, List.not_mem_nil, or_false] at hfr
      rcases hfr with rfl | rfl | rfl <;> exact ⟨by decide, by simp [squareWave]; rfl⟩)
    (by
      have h3 : List.Forall₂ (FrameFollows 0) [(⟨⟨true, true, 100⟩, 160, squareWave32⟩ : LtpfFrame F32), ⟨⟨true, true, 511⟩, 160, squareWave32⟩,
          ⟨⟨false, false, 0⟩, 160, squareWave32⟩] stableFrames :=
        .cons ⟨rfl, rfl, squareWave32_follows⟩ (.cons ⟨rfl, rfl, squareWave32_follows⟩ (.cons ⟨rfl, rfl, squareWave32_follows⟩ .nil))
      induction n with
      | zero => exact .nil
      | succ n ih =>
        rw [List.replicate_succ, List.flatten_cons, List.replicate_succ, List.flatten_cons]
        refine List.rel_append h3 (ih fun fr hfr => hmem fr ?_)
        rw [List.replicate_succ, List.flatten_cons]
        exact List.mem_append_right _ hfr)
    (by
      intro fr hfr
      have hfr := hmem fr hfr
      simp only [stableFrames, List.mem_cons, List.not_mem_nil, or_false] at hfr
      rcases hfr with rfl | rfl | rfl <;> exact squareWave_size)
  refine ⟨s, sb', hs, s2, sb2', hs2, s1', s2', o1, o2, e1, e2, ?_⟩
  norm_num at h
  exact h

/-- C110 applies to a new decoder on zeroed buffers and to whatever stream of frames of 100 bytes. -/
example (bufs : List (List ℕ)) (hb : ∀ b ∈ bufs, b.length = 100) : ∃ (el : Elem) (ch : DecChannel F32) (sb' : List F32) (cb' : List (Cx F32))
    (ch' : DecChannel F32) (frames : List (LtpfFrame F32)) (outs : List ℤ), Tame el ∧
    @decChannelNew F32 (scalar el) (Lc3Config.new .hz48000 .tenMs) (List.replicate (chanScalars (Lc3Config.new .hz48000 .tenMs)) (fin 0))
      (List.replicate (chanComplex (Lc3Config.new .hz48000 .tenMs)) ⟨fin 0, fin 0⟩) = .ok (ch, sb', cb') ∧
    AllBd (2 ^ 80) (List.replicate (chanScalars (Lc3Config.new .hz48000 .tenMs)) (fin 0)) ∧
    @decodeStream F32 (scalar el) false (Lc3Config.new .hz48000 .tenMs) bufs ch = .ok (ch', frames, outs) := by
  obtain ⟨el, he, -⟩ := exists_logFunctions
  letI := scalar el
  obtain ⟨ch, e, hi⟩ := decChannelNew_ok (α := F32) (f := .hz48000) (d := .tenMs)
    (sb := List.replicate (chanScalars (Lc3Config.new .hz48000 .tenMs)) (fin 0))
    (cb := List.replicate (chanComplex (Lc3Config.new .hz48000 .tenMs)) ⟨fin 0, fin 0⟩)
    (by rw [List.length_replicate]) (by rw [List.length_replicate])
  obtain ⟨⟨ch', frames, outs⟩, e'⟩ := decodeStream_ok (α := F32) bufs ch hi (by
    intro b hb'
    rw [hb b hb']
    decide)
  refine ⟨el, ch, _, _, ch', frames, outs, he.toTame, e, ?_, e'⟩
  intro v hv
  rw [List.eq_of_mem_replicate hv]
  exact ⟨⟨0, rfl⟩, by show |((0 : ℚ) : ℝ)| ≤ _; simp⟩

end F32

end Lc3
