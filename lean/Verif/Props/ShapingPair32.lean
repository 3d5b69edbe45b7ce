import Verif.Lemmas.ShapeEnc
import Verif.Props.Shaping32
import Verif.Props.EncoderFrame
import Verif.Lemmas.EncReturns32
import Verif.Lemmas.Silence32Frame
/-!
# Properties: noise shaping of encoder and decoder in binary32
-/

namespace Lc3
open Scalar Spec Tables
namespace F32

/-- encoder then decoder, one line -/
theorem pair_bound {δ δ' G v w l u : ℝ} (hδ : 0 ≤ δ) (hδ1 : δ ≤ 1 / 2) (hδ' : 0 ≤ δ') (hδ1' : δ' ≤ 1 / 2) (hG : 0 < G) (hG2 : G ≤ 2 ^ 20)
    (h1 : |w - v / G| ≤ (δ' + 1 / 2 ^ 14) * (|v| / G) + 1 / 2 ^ 150) (h2 : |u - l * G| ≤ (δ + 1 / 2 ^ 14) * (|l| * G) + 1 / 2 ^ 150) :
    |u - v| ≤ (1 + δ + 1 / 2 ^ 14) * (G * |l - w|) + (δ + δ' + δ * δ' + 1 / 2 ^ 12) * |v| + 1 / 2 ^ 120 := by
  have a1 : |w * G - v| ≤ (δ' + 1 / 2 ^ 14) * |v| + 2 ^ 20 / 2 ^ 150 := by
    have e : w * G - v = (w - v / G) * G := by field_simp
    rw [e, abs_mul, abs_of_pos hG]
    calc |w - v / G| * G ≤ ((δ' + 1 / 2 ^ 14) * (|v| / G) + 1 / 2 ^ 150) * G := mul_le_mul_of_nonneg_right h1 hG.le
      _ = (δ' + 1 / 2 ^ 14) * |v| + 1 / 2 ^ 150 * G := by field_simp
      _ ≤ _ := by norm_num at hG2 ⊢; linarith
  have a2 : |l * G - w * G| = G * |l - w| := by rw [← sub_mul, abs_mul, abs_of_pos hG, mul_comm]
  have a3 : |l| * G ≤ G * |l - w| + |v| + |w * G - v| := by
    have e1 : |l| * G = |l * G| := by rw [abs_mul, abs_of_pos hG]
    rw [e1, ← a2]
    have := abs_add_le (l * G - w * G) (w * G)
    rw [sub_add_cancel] at this
    have h3 := abs_add_le (w * G - v) v
    rw [sub_add_cancel] at h3
    linarith
  have a4 : |u - v| ≤ |u - l * G| + (|l * G - w * G| + |w * G - v|) := by
    have e := abs_add_le (u - l * G) ((l * G - w * G) + (w * G - v))
    have e2 := abs_add_le (l * G - w * G) (w * G - v)
    rw [show u - l * G + (l * G - w * G + (w * G - v)) = u - v by ring] at e
    linarith
  rw [a2] at a4
  have hz : 0 ≤ G * |l - w| := by positivity
  have hv : 0 ≤ |v| := abs_nonneg v
  generalize G * |l - w| = z at *
  generalize |w * G - v| = y at *
  generalize |l| * G = m at *
  generalize |u - l * G| = n at *
  generalize |v| = V at *
  have k1 : (δ + 1 / 2 ^ 14) * m ≤ (δ + 1 / 2 ^ 14) * (z + V + ((δ' + 1 / 2 ^ 14) * V + 2 ^ 20 / 2 ^ 150)) :=
    mul_le_mul_of_nonneg_left (by linarith) (by positivity)
  have k2 : (δ + 1 / 2 ^ 14) * (2 ^ 20 / 2 ^ 150) ≤ 1 * (2 ^ 20 / 2 ^ 150) := mul_le_mul_of_nonneg_right (by norm_num; linarith) (by positivity)
  have k3 : δ * V ≤ 1 / 2 * V := mul_le_mul_of_nonneg_right hδ1 hv
  have k4 : δ' * V ≤ 1 / 2 * V := mul_le_mul_of_nonneg_right hδ1' hv
  have e : (δ + 1 / 2 ^ 14) * (z + V + ((δ' + 1 / 2 ^ 14) * V + 2 ^ 20 / 2 ^ 150)) =
      (δ + 1 / 2 ^ 14) * z + (δ * V + 1 / 2 ^ 14 * V) + (δ * δ' * V + 1 / 2 ^ 14 * (δ * V) + 1 / 2 ^ 14 * (δ' * V) + 1 / 2 ^ 28 * V) +
        (δ + 1 / 2 ^ 14) * (2 ^ 20 / 2 ^ 150) := by ring
  rw [e] at k1
  have e3 : (1 + δ + 1 / 2 ^ 14) * z = z + (δ + 1 / 2 ^ 14) * z := by ring
  have e4 : (δ + δ' + δ * δ' + 1 / 2 ^ 12) * V = δ * V + δ' * V + δ * δ' * V + 1 / 2 ^ 12 * V := by ring
  have e5 : (δ' + 1 / 2 ^ 14) * V = δ' * V + 1 / 2 ^ 14 * V := by ring
  rw [e3, e4]
  rw [e5] at a1
  generalize δ * V = p1 at *
  generalize δ' * V = p2 at *
  generalize δ * δ' * V = p3 at *
  generalize (δ + 1 / 2 ^ 14) * z = p4 at *
  generalize (δ + 1 / 2 ^ 14) * m = p5 at *
  generalize (δ + 1 / 2 ^ 14) * (2 ^ 20 / 2 ^ 150) = p6 at *
  norm_num at *
  linarith

/-- **C107.** Binary32, every configuration and spectrum: if the encoder's noise shaping returns, then all its indices fit their fields and
there is a factor per band, at most `2 ^ 20`, such that the encoder divides every line of the band by it and the decoder's noise shaping, run
with the transmitted indices on any lines, multiplies by it, both up to a relative error of `2 ^ -14` plus the error of the power of two. So
what the decoder gets out of lines that are not the shaped ones but `l` is the original line up to the error of `l`, scaled by the factor, plus a
relative error of `δ + δ' + δδ' + 2 ^ -12`. -/
theorem C107 {el : Elem} (he : EncFunctions el) (hl : LogFunctions el) {δ δ' : ℝ} (hp : Powers el δ δ') (hδ : 0 ≤ δ) (hδ1 : δ ≤ 1 / 2)
    (hδ' : 0 ≤ δ') (hδ1' : δ' ≤ 1 / 2) {f : SamplingFrequency} {d : FrameDuration} {x eb : List F32} {attack : Bool} {r : SnsEncResult F32}
    (hx : ∀ v ∈ x, IsFin v ∧ |val v| ≤ 2 ^ 28) (hb : ∀ v ∈ eb, IsFin v ∧ |val v| ≤ 2 ^ 68)
    (h : @snsEncRun F32 (scalar el) (Lc3Config.new f d) x eb attack = .ok r) {p : FrameParams} (h1 : p.indLf = r.indLf) (h2 : p.indHf = r.indHf)
    (h3 : p.shapeJ = r.shapeJ) (h4 : p.gind = r.gind) (h5 : p.lsInda = i32AsUsize r.lsInda) (h6 : p.indexJoint = r.indexJoint) :
    ∃ (q : PulseIdx) (tab : List ℕ) (G : ℕ → ℝ), SnsFits p q ∧ bandTable d (Lc3Config.new f d).fsInd = .ok tab ∧ r.x.length = x.length ∧
      (∀ b < (Lc3Config.new f d).nb, 0 < G b ∧ G b ≤ 2 ^ 20) ∧
      (∀ b k v, b < (Lc3Config.new f d).nb → InBand tab b k → x[k]? = some v →
        ∃ w, r.x[k]? = some w ∧ IsFin w ∧ |val w - val v / G b| ≤ (δ' + 1 / 2 ^ 14) * (|val v| / G b) + 1 / 2 ^ 150) ∧
      ∀ lines z : List F32, (∀ v ∈ lines, IsFin v ∧ |val v| ≤ 2 ^ 71) →
        @snsDecode F32 (scalar el) (Lc3Config.new f d) (expectedSide p q).snsVq lines = .ok z → z.length = lines.length ∧
        ∀ b k v w l, b < (Lc3Config.new f d).nb → InBand tab b k → x[k]? = some v → r.x[k]? = some w → lines[k]? = some l →
          ∃ u, z[k]? = some u ∧ IsFin u ∧ |val u - val l * G b| ≤ (δ + 1 / 2 ^ 14) * (|val l| * G b) + 1 / 2 ^ 150 ∧
            |val u - val v| ≤ (1 + δ + 1 / 2 ^ 14) * (G b * |val l - val w|) + (δ + δ' + δ * δ' + 1 / 2 ^ 12) * |val v| + 1 / 2 ^ 120 := by
  letI := scalar el
  unfold snsEncRun at h
  split at h
  · cases h
  obtain ⟨scf, e1, h⟩ := bind_ok_inv h
  obtain ⟨⟨lf, hf, st1, r1⟩, e2, h⟩ := bind_ok_inv h
  obtain ⟨s2, e3, h⟩ := bind_ok_inv h
  obtain ⟨fac, e4, h⟩ := bind_ok_inv h
  obtain ⟨tab, e5, h⟩ := bind_ok_inv h
  obtain ⟨y, e6, h⟩ := bind_ok_inv h
  simp only [Res.ok.injEq] at h
  subst h
  simp only at h1 h2 h3 h4 h5 h6 ⊢
  obtain ⟨hnb, heb⟩ : (Lc3Config.new f d).nb = 64 ∧ eb.length = 64 := by
    have e1' := e1
    unfold snsTarget at e1'
    obtain ⟨_, _, e1'⟩ := bind_ok_inv e1'
    obtain ⟨_, e1'', -⟩ := bind_ok_inv e1'
    revert e1''
    have hh : (Lc3Config.new f d).nb = 64 ∨ (Lc3Config.new f d).nb = 60 := by cases f <;> cases d <;> decide
    generalize (Lc3Config.new f d).nb = nb at hh
    rcases hh with rfl | rfl
    · intro e
      unfold snsPad at e
      rw [show usub 64 64 = .ok 0 from rfl, Res.bind_ok, if_neg (by norm_num)] at e
      split at e
      · rename_i hh
        exact ⟨rfl, hh⟩
      · cases e
    · unfold snsPad
      intro e
      rw [show usub 64 60 = .ok 4 from rfl, Res.bind_ok, if_pos (by norm_num), if_pos (by omega)] at e
      cases e
  have hscf := bd_snsTarget he.toTame hl hp hb heb hnb e1
  obtain ⟨q, a, b, ys, g, g1, g2, g3, g4, g5, g6, g7, g8, g9, g10, g11, g12, g13, g14, g15, g16⟩ :=
    stage2_ab he.toAccurate (snsTarget_f32 el e1) hscf e2 e3
  have hls : i32AsUsize s2.lsInda = s2.lsInda.toNat := by rcases g5 with e | e <;> rw [e] <;> rfl
  have hls1 : s2.lsInda.toNat ≤ 1 := by rcases g5 with e | e <;> rw [e] <;> decide
  obtain ⟨tab', e, ht⟩ := bandTable_ok f d
  rw [e] at e5
  simp only [Res.ok.injEq] at e5
  subst e5
  rw [hnb] at e4
  obtain ⟨k1, k2⟩ := encGain_ab hp hδ' hδ1' g14 g15 g16 e4
  have hlt := ht.len
  rw [hnb] at hlt
  rw [hlt, List.take_of_length_le (by omega)] at e6
  have hget := shapeLoop_get ht ht.strict (by omega) e6
  obtain ⟨S, hS⟩ : ∃ S, S = shapedFactor (fun n => ((a ++ b).getD n 0 : ℝ)) g (fun i => (ys.getD i 0 : ℝ)) (fun n i => ((D.getD n []).getD i 0 : ℝ)) := ⟨_, rfl⟩
  rw [← hS] at k2
  have hpos : ∀ t : ℝ, 0 < (2 : ℝ) ^ t := fun t => Real.rpow_pos_of_pos (by norm_num) t
  have hinv : ∀ t : ℝ, (2 : ℝ) ^ (-t) = 1 / (2 : ℝ) ^ t := fun t => by rw [Real.rpow_neg (by norm_num), one_div]
  have h0 : @Scalar.zero F32 (scalar el) = fin 0 := zero_eq
  have hvq : (expectedSide p q).snsVq = vqOf lf hf s2.shapeJ s2.gind s2.lsInda.toNat q := by
    rw [vqOf_expected, h1, h2, h3, h4, h5, hls]
  have hbf : ∀ t < 64, |bandFactor 64 S t| ≤ 20 := by
    intro t ht64
    have hr : @snsReduce F32 (scalar el) 64 (@snsInterp F32 (scalar el) s2.scfq) = .ok (snsInterp s2.scfq) := by
      unfold snsReduce
      rw [show usub 64 64 = .ok 0 from rfl, Res.bind_ok, if_neg (by norm_num)]
    obtain ⟨_, -, -, k⟩ := bandFactor_ab (by norm_num) le_rfl g14 g15 g16 hr t ht64
    rw [hS]
    exact k
  have hG20 : ∀ t < 64, (2 : ℝ) ^ bandFactor 64 S t ≤ 2 ^ 20 := by
    intro t ht64
    calc (2 : ℝ) ^ bandFactor 64 S t ≤ (2 : ℝ) ^ (20 : ℝ) :=
          Real.rpow_le_rpow_of_exponent_le (by norm_num) ((le_abs_self _).trans (hbf t ht64))
      _ = 2 ^ 20 := by rw [← Real.rpow_natCast]; norm_num
  have henc : ∀ t k v, t < 64 → InBand tab' t k → x[k]? = some v →
      ∃ w, y[k]? = some w ∧ IsFin w ∧ |val w - val v / (2 : ℝ) ^ bandFactor 64 S t| ≤ (δ' + 1 / 2 ^ 14) * (|val v| / (2 : ℝ) ^ bandFactor 64 S t) + 1 / 2 ^ 150 := by
    intro t k v ht64 hk hxk
    obtain ⟨m1, m2, m3, m4⟩ := k2 t ht64
    have hy := (hget.2 k).1 t (by omega) (by simpa using hk)
    rw [hxk, h0] at hy
    have hv := hx v (List.mem_of_getElem? hxk)
    have := line_gain hδ' hδ1' ⟨hv.1, hv.2.trans (by norm_num)⟩ m1 m2 m3 m4
    refine ⟨_, hy, this.1, ?_⟩
    have h' := this.2
    rw [hinv, mul_one_div, mul_one_div] at h'
    exact h'
  refine ⟨q, tab', fun t => (2 : ℝ) ^ bandFactor 64 S t, ⟨?_, ?_, ?_, ?_, ?_, ?_, ?_, ?_⟩, e, hget.1, ?_, ?_, ?_⟩
  · rw [h1]; exact g1
  · rw [h2]; exact g2
  · rw [h3]; exact g3
  · rw [h3, h4]; exact g4
  · rw [h5, hls]; exact hls1
  · rw [h3, h4, h6]; exact g6
  · rw [h3]; exact g7
  · rw [h3]; exact g8
  · intro t ht64
    rw [hnb] at ht64
    exact ⟨hpos _, hG20 t ht64⟩
  · intro t k v ht64 hk hxk
    rw [hnb] at ht64
    exact henc t k v ht64 hk hxk
  · intro lines z hlines hz
    rw [hvq] at hz
    obtain ⟨tb, lf', hf', y', g', c1, c2, c3, c4, c5, c6, c7, c8, -⟩ := C105 he.toTame hp hδ hδ1 hlines hz
    have c1' := c1
    rw [show bandTable d (Lc3Config.new f d).fsInd = .ok tab' from e] at c1'
    have htb : tb = tab' := by simpa using c1'.symm
    have i1 : lf' = a := by
      have : LFCB[lf]? = some lf' := c2
      rw [g9] at this
      exact (Option.some.inj this).symm
    have i2 : hf' = b := by
      have : HFCB[hf]? = some hf' := c3
      rw [g10] at this
      exact (Option.some.inj this).symm
    have i3 : y' = ys := by
      rw [g12] at c4
      simpa using c4.symm
    have i4 : g' = g := by
      rw [g13] at c6
      simpa using c6.symm
    subst htb i1 i2 i3 i4
    refine ⟨c7, fun t k v w l ht64 hk hxk hwk hlk => ?_⟩
    obtain ⟨u, u1, u2, u3⟩ := c8 t k l _ ht64 hk hlk rfl
    rw [← hS, hnb] at u3
    rw [hnb] at ht64
    refine ⟨u, u1, u2, u3, ?_⟩
    obtain ⟨w', w1, w2, w3⟩ := henc t k v ht64 hk hxk
    rw [hwk] at w1
    cases w1
    exact pair_bound hδ hδ1 hδ' hδ1' (hpos _) (hG20 t ht64) w3 u3

/-- lines of any size under a flat spectrum: the encoder's noise shaping returns -/
example : ∃ el, EncFunctions el ∧ LogFunctions el ∧ Powers el (1 / 1000) (1 / 1000) ∧
    ∀ l : List F32, l.length = (Lc3Config.new .hz48000 .tenMs).ne → (∀ x ∈ l, x = fin 3) → (∀ x ∈ l, IsFin x ∧ |val x| ≤ 2 ^ 28) ∧
      (∀ x ∈ List.replicate 64 (fin 0), IsFin x ∧ |val x| ≤ 2 ^ 68) ∧
      ∃ r, @snsEncRun F32 (scalar el) (Lc3Config.new .hz48000 .tenMs) l (List.replicate 64 (fin 0)) true = .ok r := by
  obtain ⟨el, he, hg, hp⟩ := exists_powers (δ := 1 / 1000) (δ' := 1 / 1000) (by norm_num) (by norm_num) (by norm_num) (by norm_num)
  letI := scalar el
  have hnb : (Lc3Config.new .hz48000 .tenMs).nb = 64 := by decide
  have hz : AllZ (List.replicate 64 (fin 0)) := fun v hv => (List.mem_replicate.1 hv).2
  refine ⟨el, he, hg, hp, fun l hl h3 => ⟨?_, ?_, ?_⟩⟩
  · intro x hx
    rw [h3 x hx]
    refine ⟨⟨3, rfl⟩, ?_⟩
    show |((3 : ℚ) : ℝ)| ≤ _
    norm_num
  · intro x hx
    rw [hz x hx]
    refine ⟨⟨0, rfl⟩, ?_⟩
    show |((0 : ℚ) : ℝ)| ≤ _
    norm_num
  · refine (snsEncRun_iff el hnb hl (by simp)).2 ?_
    intro scf lf hf st1 r1 h1 h2
    obtain ⟨b1, b2⟩ := target_small hg hz.zn (by simp) hnb h1
    exact small_writable b2 b1 h2

end F32
end Lc3
