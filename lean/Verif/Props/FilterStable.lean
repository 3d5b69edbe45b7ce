import Verif.Lemmas.LtpfStable
import Verif.Spec.FilterStable
/-! C61: the post filter is stable. -/

namespace Lc3
open Scalar Tables Spec

/-! ### The coefficients -/

/-- sum of absolute values of rationals -/
def ratAbsSum (l : List Rat) : Rat := l.foldr (fun c s => |c| + s) 0

theorem absSum_map {k : ℝ} (hk : 0 ≤ k) : ∀ l : List Rat, absSum (l.map fun c : Rat => k * (c : ℝ)) = k * ((ratAbsSum l : Rat) : ℝ)
  | [] => by simp [absSum, ratAbsSum]
  | c :: l => by
    have ih := absSum_map hk l
    unfold absSum at ih ⊢
    simp only [List.map_cons, List.sum_cons]
    rw [ih, show ratAbsSum (c :: l) = |c| + ratAbsSum l from rfl]
    push_cast
    rw [abs_mul, abs_of_nonneg hk]
    ring

theorem tables_sums (f : SamplingFrequency) : (∀ i < 4, ratAbsSum (((Spec.tables f).1.getD i []).take ((Spec.tables f).2.2 - 2)) ≤ 1041 / 1000) ∧
    (∀ i < 4, ratAbsSum (((Spec.tables f).2.1.getD i []).take (Spec.tables f).2.2) ≤ 1004 / 1000) := by
  cases f <;> exact ⟨by decide +kernel, by decide +kernel⟩

theorem gainOf_range (d : FrameDuration) (k nbits : Nat) : 0 ≤ (gainOf d k nbits).1 ∧ (gainOf d k nbits).1 ≤ 4 / 10 := by
  unfold gainOf
  simp only
  repeat' split
  all_goals norm_num

theorem absSum_replicate (n : Nat) : absSum (List.replicate n (zero : ℝ)) = 0 := by
  unfold absSum
  rw [List.map_replicate, List.sum_replicate, show (zero : ℝ) = 0 from Rat.cast_zero]
  simp

theorem settingOf_sums (f : SamplingFrequency) (d : FrameDuration) (info : LtpfInfo) (nbits : Nat) :
    absSum (settingOf f d info nbits : Setting ℝ).cNum ≤ 36 / 100 ∧ absSum (settingOf f d info nbits : Setting ℝ).cDen ≤ 402 / 1000 := by
  obtain ⟨t1, t2⟩ := tables_sums f
  obtain ⟨g1, g2⟩ := gainOf_range d (Lc3Config.new f d).fsInd nbits
  have hgi := gainOf_lt d (Lc3Config.new f d).fsInd nbits
  unfold settingOf
  cases info.isActive
  · simp only [Bool.false_eq_true, if_false]
    rw [absSum_replicate, absSum_replicate]
    norm_num
  · simp only [if_true]
    have hfr : lagOut f info.pitchIndex % 4 < 4 := Nat.mod_lt _ (by omega)
    have k1 := t1 _ hgi
    have k2 := t2 _ hfr
    generalize gainOf d (Lc3Config.new f d).fsInd nbits = g at *
    have G1 : (0 : ℝ) ≤ (g.1 : ℝ) := by exact_mod_cast g1
    have G2 : (g.1 : ℝ) ≤ 4 / 10 := by
      have := (Rat.cast_le (K := ℝ)).2 g2
      push_cast at this
      linarith
    have K1 := (Rat.cast_le (K := ℝ)).2 k1
    have K2 := (Rat.cast_le (K := ℝ)).2 k2
    push_cast at K1 K2
    have N1 : ∀ l : List Rat, 0 ≤ ((ratAbsSum l : Rat) : ℝ) := by
      intro l
      have := absSum_map (k := 1) zero_le_one l
      rw [one_mul] at this
      rw [← this]
      exact absSum_nonneg _
    constructor
    · have e := absSum_map (k := ((85 / 100 : ℚ) : ℝ) * (g.1 : ℝ)) (by positivity)
        (((Spec.tables f).1.getD g.2 []).take ((Spec.tables f).2.2 - 2))
      refine le_of_eq_of_le e ?_
      have := N1 (((Spec.tables f).1.getD g.2 []).take ((Spec.tables f).2.2 - 2))
      push_cast
      nlinarith
    · have e := absSum_map (k := (g.1 : ℝ)) G1 (((Spec.tables f).2.1.getD (lagOut f info.pitchIndex % 4) []).take (Spec.tables f).2.2)
      refine le_of_eq_of_le e ?_
      have := N1 (((Spec.tables f).2.1.getD (lagOut f info.pitchIndex % 4) []).take (Spec.tables f).2.2)
      nlinarith

/-! ### One frame -/

theorem ltpf_taps_norm (f : SamplingFrequency) (d : FrameDuration) :
    3 * (lDenOf (Lc3Config.new f d).fs - 2) ≤ ltpfNorm (Lc3Config.new f d) ∧ ltpfNorm (Lc3Config.new f d) ≤ (Lc3Config.new f d).nf ∧
    2 ≤ lDenOf (Lc3Config.new f d).fs := by
  cases f <;> cases d <;> decide

/-- the transitions keep the memories near each other -/
theorem transition_near {f : SamplingFrequency} {d : FrameDuration} {κ X M : ℝ} (hX : 0 ≤ X) (hM : 5 * X ≤ M) {s1 s2 : Ltpf ℝ}
    (h1 : LtpfInv f d s1) (p1 : s1.activePrev = s2.activePrev) (hset : s1.activePrev = true → s1.setting = s2.setting) (hblk : s1.blockStart = s2.blockStart)
    (hc : s1.activePrev = true → absSum s1.cNum ≤ 36 / 100 ∧ absSum s1.cDen ≤ 402 / 1000) (hy : Near κ M s1.yMem s2.yMem)
    {active : Bool} {pitch pitchFr : Nat} {cn cd : List ℝ} (hcn : absSum cn ≤ 36 / 100) (hcd : absSum cd ≤ 402 / 1000)
    (hlen : cn.length = lDenOf (Lc3Config.new f d).fs - 1) {x1 x2 y1 y2 : List ℝ} (hx : Near κ X x1 x2)
    (e1 : ltpfTransition (Lc3Config.new f d) s1 active pitch pitchFr cn cd x1 = .ok y1)
    (e2 : ltpfTransition (Lc3Config.new f d) s2 active pitch pitchFr cn cd x2 = .ok y2) : Near κ M y1 y2 := by
  have hXM : X ≤ M := by linarith
  have hM0 : 0 ≤ M := by linarith
  obtain ⟨hn1, hn2, hn3⟩ := ltpf_taps_norm f d
  have hs25 : (if (Lc3Config.new f d).fs = 44100 then 48000 / 400 else (Lc3Config.new f d).fs / 400) = ltpfNorm (Lc3Config.new f d) :=
    ltpf_samples f d
  have hb0 : s1.blockStart = 0 ∨ (Lc3Config.new f d).nf ≤ s1.blockStart := by
    obtain ⟨q, hq⟩ := h1.blkDvd
    rcases Nat.eq_zero_or_pos q with rfl | hq0
    · left; simpa using hq
    · right; rw [hq]; exact Nat.le_mul_of_pos_right _ hq0
  unfold Ltpf.setting at hset
  simp only [Setting.mk.injEq] at hset
  -- the filter with a factor between zero and one
  have hstep : ∀ {c c' : List ℝ}, absSum c ≤ 36 / 100 → absSum c' ≤ 402 / 1000 → ∀ {φ : ℝ}, 0 ≤ φ → φ ≤ 1 →
      X + φ * (absSum c * X + absSum c' * M) ≤ M := by
    intro c c' k1 k2 φ q0 q1
    have t1 := mul_le_mul_of_nonneg_right k1 hX
    have t2 := mul_le_mul_of_nonneg_right k2 hM0
    have t3 : 0 ≤ absSum c * X + absSum c' * M := by
      have := absSum_nonneg c
      have := absSum_nonneg c'
      positivity
    nlinarith
  have hfull : ∀ {a count : Nat} {l r l' r' : List ℝ}, Near κ M l r →
      forRange (ltpfSample (ringSize (Lc3Config.new f d)) cn cd x1 s2.blockStart pitch fun _ f => f) a count l = .ok l' →
      forRange (ltpfSample (ringSize (Lc3Config.new f d)) cn cd x2 s2.blockStart pitch fun _ f => f) a count r = .ok r' →
      Near κ M l' r' := by
    intro a count l r l' r' hl k1 k2
    exact (filt_near hx hXM (φ := fun _ => 1) (fun n f _ _ => (mul_one f).symm) (fun _ _ _ => zero_le_one)
      (fun _ _ _ => hstep hcn hcd zero_le_one le_rfl) hl k1 k2).1
  have hdeact : s1.activePrev = true → ∀ {l' r' : List ℝ},
      ltpfDeactivate (ringSize (Lc3Config.new f d)) (ltpfNorm (Lc3Config.new f d)) s1 x1 s2.blockStart (ltpfNorm (Lc3Config.new f d)) s1.yMem = .ok l' →
      ltpfDeactivate (ringSize (Lc3Config.new f d)) (ltpfNorm (Lc3Config.new f d)) s2 x2 s2.blockStart (ltpfNorm (Lc3Config.new f d)) s2.yMem = .ok r' →
      Near κ M l' r' ∧ ∀ n, n < ltpfNorm (Lc3Config.new f d) → ∀ v w, l'[s2.blockStart + n]? = some v → r'[s2.blockStart + n]? = some w →
        |v - κ * w| ≤ X + (1 - (n : ℝ) / ltpfNorm (Lc3Config.new f d)) * (absSum s1.cNum * X + absSum s1.cDen * M) := by
    intro ha l' r' k1 k2
    obtain ⟨-, p2, p3, p4, p5⟩ := hset ha
    unfold ltpfDeactivate at k1 k2
    rw [← p2, ← p4, ← p5] at k2
    obtain ⟨c1, c2⟩ := hc ha
    have key := filt_near hx hXM (φ := fun n => 1 - (n : ℝ) / ltpfNorm (Lc3Config.new f d)) (fun n f _ _ => fadeOut_real _ n f)
      (fun n _ hn => by have := ramp_mem (N := ltpfNorm (Lc3Config.new f d)) (n := n) (by omega); linarith)
      (fun n _ hn => by
        have := ramp_mem (N := ltpfNorm (Lc3Config.new f d)) (n := n) (by omega)
        exact hstep c1 c2 (by linarith) (by linarith)) hy k1 k2
    exact ⟨key.1, fun n hn => key.2 n (by omega) (by omega)⟩
  unfold ltpfTransition at e1 e2
  simp only [hs25, hblk] at e1 e2
  rw [p1] at e1
  cases hact : active <;> cases hprev : s2.activePrev
  · rw [hact, hprev] at e1 e2
    simp only [Bool.not_false, Bool.and_self, if_true] at e1 e2
    exact copy_near hx hXM hy e1 e2
  · rw [hact, hprev] at e1 e2
    simp only [Bool.not_false, Bool.not_true, Bool.and_false, Bool.and_true, Bool.false_eq_true, if_false, if_true] at e1 e2
    obtain ⟨l, k1, e1⟩ := bind_ok_inv e1
    obtain ⟨r, k2, e2⟩ := bind_ok_inv e2
    exact copy_near hx hXM (hdeact (p1.trans hprev) k1 k2).1 e1 e2
  · rw [hact, hprev] at e1 e2
    simp only [Bool.not_false, Bool.not_true, Bool.and_true, Bool.false_eq_true, if_false, if_true] at e1 e2
    obtain ⟨l, k1, e1⟩ := bind_ok_inv e1
    obtain ⟨r, k2, e2⟩ := bind_ok_inv e2
    have key := filt_near hx hXM (φ := fun n => (n : ℝ) / ltpfNorm (Lc3Config.new f d)) (fun n f _ _ => fadeIn_real _ n f)
      (fun n _ hn => (ramp_mem (by omega)).1)
      (fun n _ hn => by
        have := ramp_mem (N := ltpfNorm (Lc3Config.new f d)) (n := n) (by omega)
        exact hstep hcn hcd this.1 this.2) hy k1 k2
    exact hfull key.1 e1 e2
  · obtain ⟨-, p2, p3, p4, p5⟩ := hset (p1.trans hprev)
    rw [hact, hprev] at e1 e2
    simp only [Bool.not_true, Bool.and_false, Bool.false_and, Bool.false_eq_true, if_false, p2, p3] at e1 e2
    split at e1
    · rename_i hp
      rw [if_pos hp] at e2
      exact hfull hy e1 e2
    · rename_i hp
      rw [if_neg hp] at e2
      obtain ⟨l, k1, e1⟩ := bind_ok_inv e1
      obtain ⟨r, k2, e2⟩ := bind_ok_inv e2
      obtain ⟨ln, k3, e1⟩ := bind_ok_inv e1
      rw [k3, Res.bind_ok] at e2
      obtain ⟨scr1, k4, e1⟩ := bind_ok_inv e1
      obtain ⟨scr2, k5, e2⟩ := bind_ok_inv e2
      obtain ⟨l2, k6, e1⟩ := bind_ok_inv e1
      obtain ⟨r2, k7, e2⟩ := bind_ok_inv e2
      have hln := usub_ok_inv k3
      obtain ⟨c1, c2⟩ := hc (p1.trans hprev)
      obtain ⟨n1, n2⟩ := hdeact (p1.trans hprev) k1 k2
      exact hfull (fromMem_near hX hM hcn hcd c1 c2 (by omega) (by omega) (by omega) n1 n2 k4 k5 k6 k7) e1 e2

/-- two states with the same settings and memories near each other -/
structure NearState (f : SamplingFrequency) (d : FrameDuration) (κ X M : ℝ) (s1 s2 : Ltpf ℝ) : Prop where
  i1 : LtpfInv f d s1
  i2 : LtpfInv f d s2
  act : s1.activePrev = s2.activePrev
  set : s1.activePrev = true → s1.setting = s2.setting
  blk : s1.blockStart = s2.blockStart
  co : s1.activePrev = true → absSum s1.cNum ≤ 36 / 100 ∧ absSum s1.cDen ≤ 402 / 1000
  x : Near κ X s1.xMem s2.xMem
  y : Near κ M s1.yMem s2.yMem

theorem near_splice {κ B : ℝ} {blk nf : Nat} {m1 m2 f1 f2 : List ℝ} (h : Near κ B m1 m2) (hf : Near κ B f1 f2)
    (l1 : blk ≤ m1.length) (l2 : blk ≤ m2.length) (e1 : f1.length = nf) (e2 : f2.length = nf) :
    Near κ B (m1.take blk ++ f1 ++ m1.drop (blk + nf)) (m2.take blk ++ f2 ++ m2.drop (blk + nf)) := by
  have t1 : (m1.take blk).length = blk := by simp; omega
  have t2 : (m2.take blk).length = blk := by simp; omega
  intro i v w h1 h2
  by_cases hc : i < blk
  · rw [List.append_assoc, List.getElem?_append_left (by omega), List.getElem?_take_of_lt hc] at h1 h2
    exact h i v w h1 h2
  · by_cases hc2 : i < blk + nf
    · rw [List.append_assoc, List.getElem?_append_right (by omega), List.getElem?_append_left (by omega)] at h1 h2
      rw [t1] at h1
      rw [t2] at h2
      exact hf _ v w h1 h2
    · rw [List.getElem?_append_right (by simp; omega), List.getElem?_drop] at h1 h2
      have a1 : blk + nf + (i - (m1.take blk ++ f1).length) = i := by simp; omega
      have a2 : blk + nf + (i - (m2.take blk ++ f2).length) = i := by simp; omega
      rw [a1] at h1
      rw [a2] at h2
      exact h _ v w h1 h2

/-- one frame -/
theorem run_near {f : SamplingFrequency} {d : FrameDuration} {κ X M : ℝ} (hX : 0 ≤ X) (hM : 5 * X ≤ M) {s1 s2 : Ltpf ℝ}
    (h : NearState f d κ X M s1 s2) {info : LtpfInfo} (hp : info.pitchIndex < 512) (nbits : Nat) {x1 x2 : List ℝ}
    (l1 : x1.length = (Lc3Config.new f d).nf) (l2 : x2.length = (Lc3Config.new f d).nf) (hx : Near κ X x1 x2) :
    ∃ s1' s2' o1 o2, ltpfRun (Lc3Config.new f d) s1 info nbits x1 = .ok (s1', o1) ∧
      ltpfRun (Lc3Config.new f d) s2 info nbits x2 = .ok (s2', o2) ∧ NearState f d κ X M s1' s2' ∧ Near κ M o1 o2 ∧
      o1.length = (Lc3Config.new f d).nf ∧ o2.length = (Lc3Config.new f d).nf := by
  obtain ⟨s1', o1, yy1, e1, r1, g1, ho1, -, -⟩ := ltpfRun_ok h.i1.rel hp nbits l1
  obtain ⟨s2', o2, yy2, e2, r2, g2, ho2, -, -⟩ := ltpfRun_ok h.i2.rel hp nbits l2
  refine ⟨s1', s2', o1, o2, e1, e2, ?_⟩
  obtain ⟨c1, c2⟩ := settingOf_sums f d info nbits
  obtain ⟨q1, q2⟩ := @settingOf_lengths ℝ _ f d info nbits
  have i1' := r1.inv
  have i2' := r2.inv
  have hpar := @ltpfParams_ok ℝ _ f d info hp nbits
  have hco1 := @ltpfCoeffs_ok ℝ _ f d s1 info nbits h.i1.cn h.i1.cd
  have hco2 := @ltpfCoeffs_ok ℝ _ f d s2 info nbits h.i2.cn h.i2.cd
  have x1l := h.i1.xl
  have x2l := h.i2.xl
  have b1 := h.i1.blk
  have b2 := h.i2.blk
  have ol1 : o1.length = (Lc3Config.new f d).nf := by rw [ho1]; simp
  have ol2 : o2.length = (Lc3Config.new f d).nf := by rw [ho2]; simp
  have m1 := e1
  have m2 := e2
  unfold ltpfRun at m1 m2
  rw [hpar] at m1 m2
  simp only [Res.bind_ok] at m1 m2
  rw [hco1] at m1
  rw [hco2] at m2
  simp only [Res.bind_ok] at m1 m2
  rw [if_neg (by rw [not_or]; exact ⟨by simp [l1], by omega⟩)] at m1
  rw [if_neg (by rw [not_or]; exact ⟨by simp [l2], by omega⟩)] at m2
  obtain ⟨y1, t1, m1⟩ := bind_ok_inv m1
  obtain ⟨y2, t2, m2⟩ := bind_ok_inv m2
  rw [← h.blk] at t2 m2
  have hxm := near_splice (blk := s1.blockStart) h.x hx (by omega) (by omega) l1 l2
  have hy := transition_near hX hM h.i1 h.act h.set h.blk h.co h.y c1 c2 q1 hxm t1 t2
  split at m1
  · cases m1
  split at m2
  · cases m2
  simp only [Res.ok.injEq, Prod.mk.injEq] at m1 m2
  obtain ⟨rfl, rfl⟩ := m1
  obtain ⟨rfl, rfl⟩ := m2
  refine ⟨⟨i1', i2', rfl, fun _ => g1.trans g2.symm, rfl, fun _ => ⟨c1, c2⟩, hxm, hy⟩, ?_, ol1, ol2⟩
  intro i v w k1 k2
  rw [List.getElem?_drop, List.getElem?_take] at k1 k2
  split at k1
  · rename_i hi
    rw [if_pos hi] at k2
    exact hy _ v w k1 k2
  · cases k1

/-! ### Sequences of frames -/

theorem near_append {κ B : ℝ} {a b a' b' : List ℝ} (hl : a.length = b.length) (h : Near κ B a b) (h' : Near κ B a' b') :
    Near κ B (a ++ a') (b ++ b') := by
  intro i v w h1 h2
  by_cases hi : i < a.length
  · rw [List.getElem?_append_left hi] at h1
    rw [List.getElem?_append_left (by omega)] at h2
    exact h i v w h1 h2
  · rw [List.getElem?_append_right (by omega)] at h1 h2
    rw [hl] at h1
    exact h' _ v w h1 h2

theorem runAll_near {f : SamplingFrequency} {d : FrameDuration} {κ X M : ℝ} (hX : 0 ≤ X) (hM : 5 * X ≤ M) :
    ∀ (fs gs : List (LtpfFrame ℝ)) {s1 s2 : Ltpf ℝ}, NearState f d κ X M s1 s2 → (∀ fr ∈ fs, FrameOk f d fr) →
    List.Forall₂ (fun a b : LtpfFrame ℝ => a.info = b.info ∧ a.nbits = b.nbits ∧ b.samples.length = a.samples.length ∧
      Near κ X a.samples b.samples) fs gs →
    ∃ s1' s2' o1 o2, ltpfRunAll (Lc3Config.new f d) fs s1 = .ok (s1', o1) ∧ ltpfRunAll (Lc3Config.new f d) gs s2 = .ok (s2', o2) ∧
      o1.length = o2.length ∧ Near κ M o1 o2
  | [], _, s1, s2, _, _, hfg => by
    cases hfg
    exact ⟨s1, s2, [], [], rfl, rfl, rfl, by intro i v w h; simp at h⟩
  | fr :: fs, [], _, _, _, _, hfg => by cases hfg
  | fr :: fs, gr :: gs, s1, s2, h, hok, hfg => by
    cases hfg with
    | cons hd htl =>
      obtain ⟨h1, h2, h3, h4⟩ := hd
      obtain ⟨hp, hl⟩ := hok fr (by simp)
      obtain ⟨t1, t2, p1, p2, e1, e2, hn, ho, l1, l2⟩ := run_near hX hM h hp fr.nbits hl (h3.trans hl) h4
      obtain ⟨s1', s2', o1, o2, e3, e4, hl', ho'⟩ := runAll_near hX hM fs gs hn (fun q hq => hok q (by simp [hq])) htl
      refine ⟨s1', s2', p1 ++ o1, p2 ++ o2, ?_, ?_, by simp [l1, l2, hl'], near_append (l1.trans l2.symm) ho ho'⟩
      · rw [ltpfRunAll, e1, Res.bind_ok]
        simp only
        rw [e3, Res.bind_ok]
      · rw [ltpfRunAll, ← h1, ← h2, e2, Res.bind_ok]
        simp only
        rw [e4, Res.bind_ok]

theorem near_zero_iff {B : ℝ} {l : List ℝ} : Near 0 B l l ↔ SizeAtMost B l := by
  constructor
  · intro h v hv
    obtain ⟨i, hi, rfl⟩ := List.mem_iff_getElem.1 hv
    have := h i _ _ (List.getElem?_eq_getElem hi) (List.getElem?_eq_getElem hi)
    simpa using this
  · intro h i v w h1 h2
    have := h v (List.mem_of_getElem? h1)
    simpa using this

theorem near_one_of {B : ℝ} {l m : List ℝ} (h : DistAtMost B l m) : Near 1 B l m := by
  intro i v w h1 h2
  rw [one_mul]
  induction h generalizing i with
  | nil => simp at h1
  | cons hd _ ih =>
    cases i with
    | zero =>
      simp only [List.getElem?_cons_zero, Option.some.injEq] at h1 h2
      rw [← h1, ← h2]; exact hd
    | succ i => exact ih i (by simpa using h1) (by simpa using h2)

theorem dist_of_near {B : ℝ} : ∀ {l m : List ℝ}, l.length = m.length → Near 1 B l m → DistAtMost B l m
  | [], [], _, _ => List.Forall₂.nil
  | [], _ :: _, h, _ => by simp at h
  | _ :: _, [], h, _ => by simp at h
  | v :: l, w :: m, h, hn => by
    refine List.Forall₂.cons ?_ (dist_of_near (by simpa using h) fun i a b h1 h2 => hn (i + 1) a b (by simpa using h1) (by simpa using h2))
    have := hn 0 v w rfl rfl
    rwa [one_mul] at this

theorem near_take {κ B : ℝ} {l m : List ℝ} (h : Near κ B l m) (n : Nat) : Near κ B (l.take n) (m.take n) := by
  intro i v w h1 h2
  rw [List.getElem?_take] at h1 h2
  split at h1
  · rename_i hi
    rw [if_pos hi] at h2
    exact h i v w h1 h2
  · cases h1

theorem near_drop {κ B : ℝ} {l m : List ℝ} (h : Near κ B l m) (n : Nat) : Near κ B (l.drop n) (m.drop n) := by
  intro i v w h1 h2
  rw [List.getElem?_drop] at h1 h2
  exact h _ v w h1 h2

theorem ltpfNew_mem {cfg : Lc3Config} {sb sb' : List ℝ} {s : Ltpf ℝ} (h : Ltpf.new cfg sb = .ok (s, sb')) :
    s.xMem = sb.take (ringSize cfg) ∧ s.yMem = (sb.drop (ringSize cfg)).take (ringSize cfg) := by
  obtain ⟨s1, h⟩ := bind_splitAt h
  obtain ⟨s2, h⟩ := bind_splitAt h
  obtain ⟨s3, h⟩ := bind_splitAt h
  obtain ⟨s4, h⟩ := bind_splitAt h
  obtain ⟨s5, h⟩ := bind_splitAt h
  obtain ⟨s6, h⟩ := bind_splitAt h
  obtain ⟨s7, h⟩ := bind_splitAt h
  obtain ⟨s8, h⟩ := bind_splitAt h
  simp only [Res.ok.injEq, Prod.mk.injEq] at h
  obtain ⟨rfl, -⟩ := h
  exact ⟨rfl, rfl⟩

theorem nearState_new {f : SamplingFrequency} {d : FrameDuration} {κ X M : ℝ} (hXM : X ≤ M) {sb1 sb1' sb2 sb2' : List ℝ}
    {s1 s2 : Ltpf ℝ} (h1 : Ltpf.new (Lc3Config.new f d) sb1 = .ok (s1, sb1')) (h2 : Ltpf.new (Lc3Config.new f d) sb2 = .ok (s2, sb2'))
    (h : Near κ X sb1 sb2) : NearState f d κ X M s1 s2 := by
  obtain ⟨a1, a2, a3⟩ := ltpfNew_inv h1
  obtain ⟨b1, b2, b3⟩ := ltpfNew_inv h2
  obtain ⟨c1, c2⟩ := ltpfNew_mem h1
  obtain ⟨d1, d2⟩ := ltpfNew_mem h2
  refine ⟨a1, b1, a2.trans b2.symm, by rw [a2]; simp, a3.trans b3.symm, by rw [a2]; simp, ?_, ?_⟩
  · rw [c1, d1]; exact near_take h _
  · rw [c2, d2]
    intro i v w k1 k2
    exact (near_take (near_drop h _) _ i v w k1 k2).trans hXM

/-- **C61.** The long term post filter is stable: for every sequence of frames with whatever side information (lags, gains,
switching on and off, lag changes), if all input samples and the initial memory are at most `X` in size, then the filter
returns and all output samples, however long the sequence, are at most `5 X` in size (exact arithmetic). -/
theorem C61 {f : SamplingFrequency} {d : FrameDuration} {sb sb' : List ℝ} {s : Ltpf ℝ}
    (hnew : Ltpf.new (Lc3Config.new f d) sb = .ok (s, sb')) {frames : List (LtpfFrame ℝ)} (hf : ∀ fr ∈ frames, FrameOk f d fr)
    {X : ℝ} (hX : 0 ≤ X) (hs : SizeAtMost X sb) (hx : ∀ fr ∈ frames, SizeAtMost X fr.samples) :
    ∃ s' outs, ltpfRunAll (Lc3Config.new f d) frames s = .ok (s', outs) ∧
      outs.length = frames.length * (Lc3Config.new f d).nf ∧ SizeAtMost (5 * X) outs := by
  obtain ⟨s', outs, e, hl, -⟩ := C21_partial hnew hf
  obtain ⟨s1, s2, o1, o2, e1, e2, -, hn⟩ := runAll_near hX (le_refl (5 * X)) frames frames
    (nearState_new (by linarith) hnew hnew (near_zero_iff.2 hs)) hf (by
      rw [List.forall₂_same]
      intro fr hfr
      exact ⟨rfl, rfl, rfl, near_zero_iff.2 (hx fr hfr)⟩)
  rw [e] at e1 e2
  simp only [Res.ok.injEq, Prod.mk.injEq] at e1 e2
  obtain ⟨rfl, rfl⟩ := e1
  obtain ⟨-, rfl⟩ := e2
  exact ⟨_, _, e, hl, near_zero_iff.1 hn⟩

/-- **C61, continuity.** Two filters that start from memories at most `ε` apart and run over frames with the same side
information and samples at most `ε` apart deliver output samples at most `5 ε` apart, however long the sequence. -/
theorem C61_lipschitz {f : SamplingFrequency} {d : FrameDuration} {sb1 sb1' sb2 sb2' : List ℝ} {s1 s2 : Ltpf ℝ}
    (h1 : Ltpf.new (Lc3Config.new f d) sb1 = .ok (s1, sb1')) (h2 : Ltpf.new (Lc3Config.new f d) sb2 = .ok (s2, sb2'))
    {ε : ℝ} (hε : 0 ≤ ε) (hs : DistAtMost ε sb1 sb2) {fs gs : List (LtpfFrame ℝ)} (hf : ∀ fr ∈ fs, FrameOk f d fr)
    (hx : List.Forall₂ (FrameDist ε) fs gs) :
    ∃ s1' s2' o1 o2, ltpfRunAll (Lc3Config.new f d) fs s1 = .ok (s1', o1) ∧ ltpfRunAll (Lc3Config.new f d) gs s2 = .ok (s2', o2) ∧
      DistAtMost (5 * ε) o1 o2 := by
  obtain ⟨s1', s2', o1, o2, e1, e2, hl, hn⟩ := runAll_near hε (le_refl (5 * ε)) fs gs
    (nearState_new (by linarith) h1 h2 (near_one_of hs)) hf (hx.imp fun a b h => ⟨h.1, h.2.1, h.2.2.length_eq.symm, near_one_of h.2.2⟩)
  exact ⟨s1', s2', o1, o2, e1, e2, dist_of_near hl hn⟩

/-! ### A concrete case: a frame with the filter, a frame with another lag, and a frame without the filter -/

/-- 80 samples of a square wave of full scale -/
def squareWave : List ℝ := (List.range 80).map fun n => if n % 2 = 0 then 32767 else -32768

/-- three frames, 8 kHz, 10 ms -/
def stableFrames : List (LtpfFrame ℝ) :=
  [⟨⟨true, true, 100⟩, 160, squareWave⟩, ⟨⟨true, true, 511⟩, 160, squareWave⟩, ⟨⟨false, false, 0⟩, 160, squareWave⟩]

theorem squareWave_size : SizeAtMost 32768 squareWave := by
  intro v hv
  unfold squareWave at hv
  obtain ⟨n, -, rfl⟩ := List.mem_map.1 hv
  split <;> rw [abs_le] <;> norm_num

set_option maxRecDepth 20000 in
example : ∃ s' outs, ∃ s sb', Ltpf.new (Lc3Config.new .hz8000 .tenMs) (List.replicate 400 (0 : ℝ)) = .ok (s, sb') ∧
    ltpfRunAll (Lc3Config.new .hz8000 .tenMs) stableFrames s = .ok (s', outs) ∧ outs.length = 240 ∧
    SizeAtMost (5 * 32768) outs := by
  obtain ⟨s, sb', hs⟩ : ∃ (s : Ltpf ℝ) (sb' : List ℝ),
      Ltpf.new (Lc3Config.new .hz8000 .tenMs) (List.replicate 400 0) = .ok (s, sb') := ⟨_, _, rfl⟩
  obtain ⟨s', outs, e, hl, h⟩ := C61 hs (frames := stableFrames) (by
    intro fr hfr
    simp only [stableFrames, List.mem_cons, List.not_mem_nil, or_false] at hfr
    rcases hfr with rfl | rfl | rfl <;> exact ⟨by decide, by simp [squareWave]; rfl⟩) (X := 32768) (by norm_num) (by
    intro v hv
    rw [(List.mem_replicate.1 hv).2]
    norm_num) (by
    intro fr hfr
    simp only [stableFrames, List.mem_cons, List.not_mem_nil, or_false] at hfr
    rcases hfr with rfl | rfl | rfl <;> exact squareWave_size)
  exact ⟨s', outs, s, sb', hs, e, hl, h⟩

end Lc3
