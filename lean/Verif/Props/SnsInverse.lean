import Verif.Lemmas.SnsInverse
import Verif.Lemmas.TnsCast
/-! # C45: the decoder undoes the spectral shaping of the encoder -/

namespace Lc3
open Spec Tables Scalar

theorem sqFold_real (y : List Int) (s : ℝ) :
    y.foldl (fun s v => if v ≠ 0 then s + (ofInt v : ℝ) * ofInt v else s) s = s + (y.map fun v : Int => (v : ℝ) * v).sum := by
  induction y generalizing s with
  | nil => simp
  | cons v y ih =>
    rw [List.foldl_cons, ih, List.map_cons, List.sum_cons]
    have : (ofInt v : ℝ) = (v : ℝ) := by show (((v : ℤ) : ℚ) : ℝ) = _; push_cast; rfl
    rw [this]
    split
    · ring
    · rename_i h
      simp only [ne_eq, not_not] at h
      subst h; simp

theorem snsNorm_real (y : List Int) : (snsNorm y : ℝ) = Real.sqrt (y.map fun v : Int => (v : ℝ) * v).sum := by
  unfold snsNorm
  show Real.sqrt _ = _
  congr 1
  have : ∀ s : ℝ, y.foldl (fun acc x => acc + (ofInt x : ℝ) * ofInt x) s = s + (y.map fun v : Int => (v : ℝ) * v).sum := by
    intro s
    induction y generalizing s with
    | nil => simp
    | cons v y ih =>
      rw [List.foldl_cons, ih, List.map_cons, List.sum_cons]
      have : (ofInt v : ℝ) = (v : ℝ) := by show (((v : ℤ) : ℚ) : ℝ) = _; push_cast; rfl
      rw [this]; ring
  rw [this]
  show ((0 : ℚ) : ℝ) + _ = _
  push_cast; ring

theorem sq_sum_eq_zero {y : List Int} (h : (y.map fun v : Int => (v : ℝ) * v).sum = 0) : ∀ v ∈ y, v = 0 := by
  have hn : ∀ x ∈ y.map fun v : Int => (v : ℝ) * v, 0 ≤ x := by
    intro x hx
    obtain ⟨v, _, rfl⟩ := List.mem_map.1 hx
    exact mul_self_nonneg _
  intro v hv
  have := List.all_zero_of_le_zero_le_of_sum_eq_zero hn h (List.mem_map_of_mem hv)
  have := mul_self_eq_zero.1 this
  exact_mod_cast this

/-- a normalised candidate: every entry divided by the length -/
theorem snsNormalize_real {y : List Int} : (snsNormalize y : List ℝ) =
    (y ++ List.replicate (16 - y.length) 0).map fun v => ((v : ℤ) : ℝ) / (snsNorm y : ℝ) := by
  unfold snsNormalize
  simp only
  have e : (sqrt (y.foldl (fun s v => if v ≠ 0 then s + (ofInt v : ℝ) * ofInt v else s) zero) : ℝ) = snsNorm y := by
    rw [sqFold_real, snsNorm_real]
    show Real.sqrt (((0 : ℚ) : ℝ) + _) = _
    push_cast
    rw [zero_add]
  rw [e, List.map_append, List.map_replicate]
  have hz : (zero : ℝ) = ((0 : ℤ) : ℝ) / (snsNorm y : ℝ) := by
    show ((0 : ℚ) : ℝ) = _
    push_cast; simp
  rw [hz]
  congr 1
  apply List.map_congr_left
  intro v _
  have : (ofInt v : ℝ) = (v : ℝ) := by show (((v : ℤ) : ℚ) : ℝ) = _; push_cast; rfl
  rw [this]
  split
  · rfl
  · rename_i h
    simp only [ne_eq, not_not] at h
    subst h; simp

theorem snsNorm_pad (y : List Int) (n : Nat) : (snsNorm (y ++ List.replicate n 0) : ℝ) = snsNorm y := by
  rw [snsNorm_real, snsNorm_real]
  simp

/-- one row of the synthesis, encoder and decoder -/
theorem D_rows : ∀ r ∈ D, r.length = 16 := by
  intro r hr
  simp only [D, List.mem_map] at hr
  obtain ⟨a, ha, rfl⟩ := hr
  have h : ∀ r ∈ D_num, r.length = 16 := by decide
  simpa using h a ha

theorem snsRotate_length {α : Type} [Scalar α] (r1 : List α) : (snsRotate r1).length = 16 := by
  unfold snsRotate
  have key : ∀ (l : List (α × List Rat)) (t : List α), (∀ p ∈ l, p.2.length = 16) → t.length = 16 →
      (l.foldl (fun t p => (t.zip p.2).map fun q => q.1 + p.1 * ofRat q.2) t).length = 16 := by
    intro l
    induction l with
    | nil => intro t _ h; exact h
    | cons p l ih =>
      intro t hp ht
      rw [List.foldl_cons]
      exact ih _ (fun x hx => hp x (List.mem_cons_of_mem _ hx)) (by simp [ht, hp p (by simp)])
  exact key _ _ (fun p hp => D_rows _ (List.of_mem_zip hp).2) (by simp)

theorem unitPulses_zero {l : List Int} (h : ∀ v ∈ l, v = 0) : unitPulses l = 0 := by
  rw [List.eq_replicate_iff.2 ⟨rfl, h⟩, unitPulses_eq, pulseSum_replicate]

theorem shapeVector_nonzero {j : Nat} {y : List Int} (h : ShapeVector j y) : ¬ ∀ v ∈ y, v = 0 := by
  intro hz
  obtain ⟨-, h⟩ := h
  have h1 := unitPulses_zero hz
  have h2 : unitPulses (y.take 10) = 0 := unitPulses_zero fun v hv => hz v (List.mem_of_mem_take hv)
  split at h <;> omega

theorem row_real (c : ℝ) (y : List Int) (row : List Rat) (s : ℝ) :
    c * ((y.map fun v => ((v : ℤ) : ℝ) / c).zip row).foldl (fun f q => f + q.1 * (ofRat q.2 : ℝ)) s =
      c * s + if c = 0 then 0 else (y.zip row).foldl (fun acc p => acc + (ofInt p.1 : ℝ) * ofRat p.2) 0 := by
  by_cases hc : c = 0
  · simp [hc]
  rw [if_neg hc]
  have key : ∀ (y : List Int) (row : List Rat) (s t : ℝ),
      c * ((y.map fun v => ((v : ℤ) : ℝ) / c).zip row).foldl (fun f q => f + q.1 * (ofRat q.2 : ℝ)) s + t =
      c * s + (y.zip row).foldl (fun acc p => acc + (ofInt p.1 : ℝ) * ofRat p.2) t := by
    intro y
    induction y with
    | nil => intro row s t; simp
    | cons v y ih =>
      intro row s t
      cases row with
      | nil => simp
      | cons r row =>
        simp only [List.map_cons, List.zip_cons_cons, List.foldl_cons]
        have : (ofInt v : ℝ) = (v : ℝ) := by show (((v : ℤ) : ℚ) : ℝ) = _; push_cast; rfl
        have h1 := ih row (s + (v : ℝ) / c * ofRat r) (t + (v : ℝ) * ofRat r)
        rw [this]
        have h2 : c * (s + (v : ℝ) / c * ofRat r) = c * s + (v : ℝ) * ofRat r := by field_simp
        rw [h2] at h1
        linarith
  have := key y row s 0
  simpa using this

/-- the scale factors in exact arithmetic: the decoder computes from the transmitted indices the scale factors the encoder
used -/
theorem snsStage2_agree {scf r1 st1 : List ℝ} {lf hf : Nat} {s2 : SnsStage2 ℝ} (h1 : snsStage1 scf = .ok (lf, hf, st1, r1))
    (h2 : snsStage2 r1 st1 = .ok s2) :
    ∃ q : PulseIdx, lf < 32 ∧ hf < 32 ∧ s2.shapeJ < 4 ∧ s2.gind < gainCount s2.shapeJ ∧ (s2.lsInda = 0 ∨ s2.lsInda = 1) ∧
      s2.indexJoint = jointIndex s2.shapeJ s2.gind q.idxa q.idxb q.lsIndb ∧
      q.idxa < (if s2.shapeJ ≤ 1 then 2390004 else if s2.shapeJ = 2 then 15158272 else 774912) ∧
      (s2.shapeJ = 0 → q.idxb < 6 ∧ q.lsIndb ≤ 1) ∧ s2.scfq.length = 16 ∧
      snsScaleFactors (vqOf lf hf s2.shapeJ s2.gind s2.lsInda.toNat q) = .ok s2.scfq := by
  unfold snsStage1 at h1
  split at h1
  · cases h1
  rename_i hlen
  simp only [ne_eq, not_not] at hlen
  obtain ⟨a, ha, h1⟩ := bind_ok_inv h1
  obtain ⟨b, hb, h1⟩ := bind_ok_inv h1
  simp only [Res.ok.injEq, Prod.mk.injEq] at h1
  obtain ⟨e1, e2, e3, e4⟩ := h1
  rw [e1] at ha
  rw [e2] at hb
  have hla : a.length = 8 := LFCB_shape.2 a (idx_mem ha)
  have hlb : b.length = 8 := HFCB_shape.2 b (idx_mem hb)
  have hst : st1.length = 16 := by rw [← e3]; simp [hla, hlb]
  have hr1 : r1.length = 16 := by rw [← e4, e3]; simp [hlen, hst]
  have ht : (snsRotate r1).length = 16 := snsRotate_length r1
  unfold snsStage2 at h2
  simp only at h2
  obtain ⟨c, ec, c1, c2, c3, c4, c5, c6⟩ := C42_partial ht
  rw [ec, Res.bind_ok] at h2
  have hch := snsChoose_ok (α := ℝ) (fun _ => rfl) (snsRotate r1)
    (fun j => snsNormalize (match j with | 0 => c.y0 | 1 => c.y1 | 2 => c.y2 | _ => c.y3))
  simp only at hch
  generalize snsChoose (snsRotate r1) (snsNormalize c.y0) (snsNormalize c.y1) (snsNormalize c.y2) (snsNormalize c.y3) = s at h2 hch
  obtain ⟨g1, g2, ⟨g, g3, g4⟩, g5⟩ := hch
  obtain ⟨⟨J, lsa, lsb⟩, h3, h2⟩ := bind_ok_inv h2
  simp only [Res.ok.injEq] at h2
  have hv : ShapeVector s.shapeJ (candidateOf s.shapeJ c) := by
    have hsh : s.shapeJ = 0 ∨ s.shapeJ = 1 ∨ s.shapeJ = 2 ∨ s.shapeJ = 3 := by omega
    rcases hsh with e | e | e | e <;> rw [e]
    · rw [c5]
      by_contra hc
      push Not at hc
      rw [e] at h3
      exact snsEnumerate_zero_panics (c6 hc) h3
    · exact c2
    · exact c3
    · exact c4
  obtain ⟨J', lsa', lsb', q, f1, f2, f3, f4, f5, f6⟩ := snsEnumerate_vq (gind := s.gind) g1 c1 hv
  rw [h3] at f1
  simp only [Res.ok.injEq, Prod.mk.injEq] at f1
  obtain ⟨rfl, rfl, rfl⟩ := f1
  subst h2
  refine ⟨q, ?_, ?_, g1, g2, f2, f3, f4, f5, by simp [hst, D_length], ?_⟩
  · rw [← LFCB_shape.1]; exact (List.getElem?_eq_some_iff.1 (idx_ok_iff.1 ha)).1
  · rw [← HFCB_shape.1]; exact (List.getElem?_eq_some_iff.1 (idx_ok_iff.1 hb)).1
  have hgain : snsGain (vqOf lf hf s.shapeJ s.gind lsa.toNat q) = .ok g := by
    have hi : idx (gainsOf s.shapeJ) s.gind = .ok g := by unfold idx; rw [g3]
    have hsh : s.shapeJ = 0 ∨ s.shapeJ = 1 ∨ s.shapeJ = 2 ∨ s.shapeJ = 3 := by omega
    unfold snsGain vqOf
    rcases hsh with e | e | e | e <;> rw [e] at hi ⊢ <;> exact hi
  have hxq : s.xq = (candidateOf s.shapeJ c).map fun v => ((v : ℤ) : ℝ) / (snsNorm (candidateOf s.shapeJ c) : ℝ) := by
    have hsh : s.shapeJ = 0 ∨ s.shapeJ = 1 ∨ s.shapeJ = 2 ∨ s.shapeJ = 3 := by omega
    have hl := hv.1
    rw [g5]
    rcases hsh with e | e | e | e <;> rw [e] at hl ⊢ <;> simp only [candidateOf] at hl ⊢ <;> rw [snsNormalize_real]
    · rw [hl]; simp
    · rw [snsNorm_pad, c1]
    · rw [hl]; simp
    · rw [hl]; simp
  have hN : (snsNorm (candidateOf s.shapeJ c) : ℝ) ≠ 0 := by
    intro h0
    rw [snsNorm_real, Real.sqrt_eq_zero (List.sum_nonneg (by
      intro x hx
      obtain ⟨v, _, rfl⟩ := List.mem_map.1 hx
      exact mul_self_nonneg _))] at h0
    exact shapeVector_nonzero hv (sq_sum_eq_zero h0)
  unfold snsScaleFactors
  rw [show (vqOf lf hf s.shapeJ s.gind lsa.toNat q).indLf = lf from rfl, ha, Res.bind_ok,
    show (vqOf lf hf s.shapeJ s.gind lsa.toNat q).indHf = hf from rfl, hb, Res.bind_ok, f6, Res.bind_ok]
  simp only
  rw [hgain, Res.bind_ok]
  congr 1
  have heq : Scalar.eq (snsNorm (candidateOf s.shapeJ c) : ℝ) (zero : ℝ) = false := by
    show (open Classical in decide ((snsNorm (candidateOf s.shapeJ c) : ℝ) = ((0 : ℚ) : ℝ))) = false
    rw [decide_eq_false_iff_not]
    push_cast
    exact hN
  simp only [heq, Bool.not_false, if_true]
  rw [← e3, List.zip_map_left, List.map_map]
  apply List.map_congr_left
  intro p _
  simp only [Function.comp, Prod.map, id]
  rw [g4, hxq]
  have hr := row_real (snsNorm (candidateOf s.shapeJ c)) (candidateOf s.shapeJ c) p.2 (zero : ℝ)
  rw [if_neg hN] at hr
  have hz : (zero : ℝ) = 0 := by show ((0 : ℚ) : ℝ) = 0; push_cast; rfl
  unfold snsRow
  rw [hz] at hr ⊢
  rw [mul_zero, zero_add] at hr
  rw [← hr]
  field_simp

/-! ## Shaping -/

theorem scaleRange_exists {l l' r : List ℝ} {a b : Nat} {g g' : ℝ} (h : scaleRange l a b g = .ok r) (hl : l'.length = l.length) :
    ∃ r', scaleRange l' a b g' = .ok r' ∧ r'.length = r.length := by
  unfold scaleRange at h ⊢
  split at h
  · rename_i hab
    rw [if_pos (by rw [hl]; exact hab)]
    simp only [Res.ok.injEq] at h
    subst h
    exact ⟨_, rfl, by simp [hl]⟩
  · cases h

/-- whether the loop returns depends on lengths only -/
theorem shapeLoop_exists {tab : List Nat} : ∀ {gs gs' l l' r : List ℝ} {b : Nat}, shapeLoop tab b gs l = .ok r →
    gs'.length = gs.length → l'.length = l.length → ∃ r', shapeLoop tab b gs' l' = .ok r'
  | [], gs', l, l', r, b, _, hg, hl => by
    rw [List.length_eq_zero_iff.1 hg]
    exact ⟨l', rfl⟩
  | g :: gs, [], l, l', r, b, _, hg, _ => by simp at hg
  | g :: gs, g' :: gs', l, l', r, b, h, hg, hl => by
    rw [shapeLoop] at h ⊢
    obtain ⟨i0, e0, h⟩ := bind_ok_inv h
    obtain ⟨i1, e1, h⟩ := bind_ok_inv h
    obtain ⟨m, e2, h⟩ := bind_ok_inv h
    obtain ⟨m', e3, e4⟩ := scaleRange_exists (g' := g') e2 hl
    rw [e0, Res.bind_ok, e1, Res.bind_ok, e3, Res.bind_ok]
    exact shapeLoop_exists h (by simpa using hg) e4

/-- scaling the bands by `f` and then by `g` with `f i * g i = 1` changes nothing -/
theorem shapeLoop_inverse {tab : List Nat} {nb ne : Nat} (ht : BandTab tab nb ne) {f g x y : List ℝ} (hf : f.length = nb)
    (hg : g.length = nb) (hfg : ∀ i, i < nb → f.getD i 0 * g.getD i 0 = 1) (h : shapeLoop tab 0 f x = .ok y) :
    shapeLoop tab 0 g y = .ok x := by
  obtain ⟨a1, a2⟩ := shapeLoop_get ht ht.strict (by omega) h
  obtain ⟨z, hz⟩ := shapeLoop_exists (gs' := g) (l' := y) h (by omega) a1
  obtain ⟨b1, b2⟩ := shapeLoop_get ht ht.strict (by omega) hz
  rw [hz]
  congr 1
  apply List.ext_getElem?
  intro k
  have hz0 : (zero : ℝ) = 0 := by show ((0 : ℚ) : ℝ) = 0; push_cast; rfl
  by_cases hk : ∃ j, j < nb ∧ InBand tab j k
  · obtain ⟨j, hj, hb⟩ := hk
    rw [(b2 k).1 j (by omega) (by simpa using hb), (a2 k).1 j (by omega) (by simpa using hb), Option.map_map, hz0]
    have : ((fun v : ℝ => v * g.getD j 0) ∘ fun v : ℝ => v * f.getD j 0) = id := by
      funext v
      simp only [Function.comp, id]
      rw [mul_assoc, hfg j hj, mul_one]
    rw [this]
    simp
  · rw [(b2 k).2 fun j hj hb => hk ⟨j, by omega, by simpa using hb⟩,
      (a2 k).2 fun j hj hb => hk ⟨j, by omega, by simpa using hb⟩]

/-- **C45** In exact arithmetic, for every configuration and every spectrum: if the encoder's noise shaping returns, then all indices
fit their fields, and the decoder's shaping stage, run with these indices on the shaped lines, restores the lines. -/
theorem C45 {f : SamplingFrequency} {d : FrameDuration} {x eb : List ℝ} {attack : Bool} {r : SnsEncResult ℝ}
    (h : snsEncRun (Lc3Config.new f d) x eb attack = .ok r) {p : FrameParams} (h1 : p.indLf = r.indLf) (h2 : p.indHf = r.indHf)
    (h3 : p.shapeJ = r.shapeJ) (h4 : p.gind = r.gind) (h5 : p.lsInda = i32AsUsize r.lsInda) (h6 : p.indexJoint = r.indexJoint) :
    ∃ q : PulseIdx, p.indLf < 32 ∧ p.indHf < 32 ∧ p.shapeJ < 4 ∧ p.gind < gainCount p.shapeJ ∧ p.lsInda ≤ 1 ∧
      p.indexJoint = jointIndex p.shapeJ p.gind q.idxa q.idxb q.lsIndb ∧
      q.idxa < (if p.shapeJ ≤ 1 then 2390004 else if p.shapeJ = 2 then 15158272 else 774912) ∧
      (p.shapeJ = 0 → q.idxb < 6 ∧ q.lsIndb ≤ 1) ∧ r.x.length = x.length ∧
      snsDecode (Lc3Config.new f d) (expectedSide p q).snsVq r.x = .ok x := by
  unfold snsEncRun at h
  split at h
  · cases h
  obtain ⟨scf, e1, h⟩ := bind_ok_inv h
  obtain ⟨⟨lf, hf, st1, r1⟩, e2, h⟩ := bind_ok_inv h
  obtain ⟨s2, e3, h⟩ := bind_ok_inv h
  obtain ⟨fac, e4, h⟩ := bind_ok_inv h
  obtain ⟨tab, e5, h⟩ := bind_ok_inv h
  obtain ⟨y, e6, h⟩ := bind_ok_inv h
  simp only [Res.ok.injEq] at h
  subst h
  simp only at h1 h2 h3 h4 h5 h6 ⊢
  obtain ⟨q, g1, g2, g3, g4, g5, g6, g7, g8, g9, g10⟩ := snsStage2_agree e2 e3
  have hnb : (Lc3Config.new f d).nb = 64 := by
    unfold snsTarget at e1
    obtain ⟨_, _, e1⟩ := bind_ok_inv e1
    obtain ⟨_, e1', -⟩ := bind_ok_inv e1
    revert e1'
    have hh : (Lc3Config.new f d).nb = 64 ∨ (Lc3Config.new f d).nb = 60 := by cases f <;> cases d <;> decide
    generalize (Lc3Config.new f d).nb = nb at hh
    rcases hh with rfl | rfl
    · intro _; rfl
    · unfold snsPad
      intro e1'
      rw [show usub 64 60 = .ok 4 from rfl, Res.bind_ok, if_pos (by norm_num), if_pos (by omega)] at e1'
      cases e1'
  have hls : i32AsUsize s2.lsInda = s2.lsInda.toNat := by rcases g5 with e | e <;> rw [e] <;> rfl
  have hls1 : s2.lsInda.toNat ≤ 1 := by rcases g5 with e | e <;> rw [e] <;> decide
  obtain ⟨tab', e, ht⟩ := bandTable_ok f d
  rw [e] at e5
  simp only [Res.ok.injEq] at e5
  subst e5
  simp only [vqOf_expected, h1, h2, h3, h4, h5, h6, hls]
  have hI : (snsInterp s2.scfq).length = 64 := snsInterp_length g9
  unfold snsEncFactors at e4
  obtain ⟨fr, e7, e4⟩ := bind_ok_inv e4
  rw [hnb] at e7
  have hfr : fr = snsInterp s2.scfq := by
    unfold snsReduceEnc at e7
    rw [show usub 64 64 = .ok 0 from rfl, Res.bind_ok, if_neg (by norm_num)] at e7
    simpa using e7.symm
  simp only [Res.ok.injEq] at e4
  have hlt := ht.len
  rw [hnb] at hlt
  have hfl : fac.length = 64 := by rw [← e4, hfr, List.length_map, hI]
  rw [hlt, List.take_of_length_le (by omega)] at e6
  have hgains : snsGains (α := ℝ) (Lc3Config.new f d).nb (vqOf lf hf s2.shapeJ s2.gind s2.lsInda.toNat q) =
      .ok ((snsInterp s2.scfq).map exp2Raw) := by
    unfold snsGains
    rw [g10, Res.bind_ok, hnb]
    unfold snsReduce
    rw [show usub 64 64 = .ok 0 from rfl, Res.bind_ok, if_neg (by norm_num), Res.bind_ok, List.take_of_length_le (by omega)]
  refine ⟨q, g1, g2, g3, g4, hls1, g6, g7, g8, ?_, ?_⟩
  · rw [hnb] at ht
    exact (shapeLoop_get ht ht.strict (by omega) e6).1
  · unfold snsDecode
    rw [hgains, Res.bind_ok, e, Res.bind_ok]
    refine shapeLoop_inverse ht (by rw [hfl, hnb]) (by rw [List.length_map, hI, hnb]) ?_ e6
    intro i hi
    rw [hnb] at hi
    rw [← e4, hfr]
    rw [List.getD_eq_getElem _ _ (by rw [List.length_map, hI]; exact hi), List.getD_eq_getElem _ _ (by rw [List.length_map, hI]; exact hi),
      List.getElem_map, List.getElem_map]
    show (2 : ℝ) ^ (-_) * (2 : ℝ) ^ _ = 1
    rw [← Real.rpow_add (by norm_num), neg_add_cancel, Real.rpow_zero]

/-! ## When the encoder's shaping returns -/

section
variable {α : Type} [Scalar α]

theorem snsNearest_lt (x : List α) : ∀ (cs : List (List Rat)) (i best : Nat) (m : Option α), best < i + cs.length →
    snsNearest x cs i best m < i + cs.length
  | [], i, best, m, h => by simpa [snsNearest] using h
  | c :: cs, i, best, m, h => by
    rw [List.length_cons] at h ⊢
    have e : i + (cs.length + 1) = i + 1 + cs.length := by omega
    have key : ∀ b : Bool, (if b = true then snsNearest x cs (i + 1) i (some (snsDmse x c)) else snsNearest x cs (i + 1) best m) <
        i + 1 + cs.length := by
      intro b
      cases b
      · exact snsNearest_lt x cs (i + 1) best _ (by omega)
      · exact snsNearest_lt x cs (i + 1) i _ (by omega)
    rw [e]
    exact key _

theorem snsStage1_ok {scf : List α} (h : scf.length = 16) : ∃ lf hf a b, LFCB[lf]? = some a ∧ HFCB[hf]? = some b ∧
    snsStage1 scf = .ok (lf, hf, (a ++ b).map ofRat, (scf.zip ((a ++ b).map ofRat)).map fun p => p.1 - p.2) := by
  have h1 := snsNearest_lt (scf.take 8) LFCB 0 0 none (by rw [LFCB_shape.1]; omega)
  have h2 := snsNearest_lt (scf.drop 8) HFCB 0 0 none (by rw [HFCB_shape.1]; omega)
  rw [Nat.zero_add] at h1 h2
  refine ⟨_, _, _, _, List.getElem?_eq_getElem h1, List.getElem?_eq_getElem h2, ?_⟩
  unfold snsStage1
  rw [if_neg (by omega)]
  simp only
  rw [idx_eq_ok h1, Res.bind_ok, idx_eq_ok h2, Res.bind_ok]

theorem snsTarget_ok {cfg : Lc3Config} (h1 : cfg.nb = 64) (h2 : cfg.fsInd < 5) {eb : List α} (h3 : eb.length = 64) (attack : Bool) :
    ∃ scf, snsTarget cfg eb attack = .ok scf ∧ scf.length = 16 := by
  unfold snsTarget
  rw [idx_eq_ok (show cfg.fsInd < G_TILT.length from h2), Res.bind_ok]
  have hp : snsPad cfg.nb eb = .ok eb := by
    unfold snsPad
    rw [h1, show usub 64 64 = .ok 0 from rfl, Res.bind_ok, if_neg (by norm_num), if_pos h3]
  rw [hp, Res.bind_ok]
  refine ⟨_, rfl, ?_⟩
  unfold snsAttack
  have : ∀ e : List α, (snsMeanRemoval (snsDownsample e)).length = 16 := by
    intro e; simp [snsMeanRemoval, snsDownsample]
  split
  · simp
  · exact this _

end

/-- **C45** When it returns: with 64 bands and inputs of the lengths the encoder uses, shaping returns if the rotated residual of the
first stage has a non-zero entry among the last six. -/
theorem C45_returns {f : SamplingFrequency} {d : FrameDuration} (hnb : (Lc3Config.new f d).nb = 64) {x eb : List ℝ}
    (hx : x.length = (Lc3Config.new f d).ne) (he : eb.length = 64) {attack : Bool}
    (ht : ∀ scf lf hf st1 r1, snsTarget (Lc3Config.new f d) eb attack = .ok scf → snsStage1 scf = .ok (lf, hf, st1, r1) →
      ∃ a ∈ (snsRotate r1).drop 10, a ≠ 0) : ∃ r, snsEncRun (Lc3Config.new f d) x eb attack = .ok r := by
  unfold snsEncRun
  rw [if_neg (by simpa using hx)]
  obtain ⟨scf, e1, l1⟩ := snsTarget_ok hnb (by cases f <;> cases d <;> decide) he attack
  rw [e1, Res.bind_ok]
  obtain ⟨lf, hf, a, b, ha, hb, e2⟩ := snsStage1_ok l1
  have ht' := ht _ _ _ _ _ e1 e2
  rw [e2, Res.bind_ok]
  simp only
  generalize hr1 : ((scf.zip ((a ++ b).map ofRat)).map fun p => p.1 - p.2 : List ℝ) = r1 at ht'
  generalize hst : ((a ++ b).map ofRat : List ℝ) = st1
  obtain ⟨c, ec, c1, c2, c3, c4, c5, -⟩ := C42_partial (snsRotate_length r1)
  have hch := snsChoose_ok (α := ℝ) (fun _ => rfl) (snsRotate r1)
    (fun j => snsNormalize (match j with | 0 => c.y0 | 1 => c.y1 | 2 => c.y2 | _ => c.y3))
  simp only at hch
  unfold snsStage2
  simp only
  rw [ec, Res.bind_ok]
  generalize snsChoose (snsRotate r1) (snsNormalize c.y0) (snsNormalize c.y1) (snsNormalize c.y2) (snsNormalize c.y3) = s at hch ⊢
  have hv : ShapeVector s.shapeJ (candidateOf s.shapeJ c) := by
    have hsh : s.shapeJ = 0 ∨ s.shapeJ = 1 ∨ s.shapeJ = 2 ∨ s.shapeJ = 3 := by have := hch.1; omega
    rcases hsh with e | e | e | e <;> rw [e]
    · exact c5.2 ht'
    · exact c2
    · exact c3
    · exact c4
  obtain ⟨J, lsa, lsb, q, f1, -⟩ := snsEnumerate_vq (gind := s.gind) hch.1 c1 hv
  rw [f1, Res.bind_ok]
  simp only [Res.bind_ok]
  unfold snsEncFactors snsReduceEnc
  rw [hnb, show usub 64 64 = .ok 0 from rfl, Res.bind_ok, if_neg (by norm_num), Res.bind_ok, Res.bind_ok]
  obtain ⟨tab, e, htab⟩ := bandTable_ok f d
  rw [e, Res.bind_ok]
  obtain ⟨r, e6, -⟩ := (safe_shapeLoop htab ((((snsInterp ((st1.zip D).map fun p => p.1 + s.gain *
    (s.xq.zip p.2).foldl (fun f q => f + q.1 * ofRat q.2) zero)).map fun x => exp2 (-x)).take (tab.length - 1) : List ℝ)) 0 x
    (by have := htab.len; rw [List.length_take]; omega) hx).exists_ok (noErr_shapeLoop _ _ _ _)
  exact ⟨_, by rw [e6]; rfl⟩

/-! ## Silence -/

theorem rotateFold_get (j : Nat) : ∀ (l : List (ℝ × List Rat)) (t : List ℝ), j < t.length → (∀ p ∈ l, j < p.2.length) →
    (l.foldl (fun t p => (t.zip p.2).map fun q => q.1 + p.1 * ofRat q.2) t)[j]? =
      some (l.foldl (fun s p => s + p.1 * (((p.2.getD j 0 : ℚ)) : ℝ)) (t.getD j 0))
  | [], t, ht, _ => by simp [ht]
  | p :: l, t, ht, h => by
    have hp := h p (by simp)
    rw [List.foldl_cons, rotateFold_get j l _ (by simp; omega) (fun q hq => h q (by simp [hq])), List.foldl_cons]
    congr 1
    congr 1
    simp [ht, hp]
    exact .inl rfl

theorem rotate_cast (q : List ℚ) (j : Nat) (hj : j < 16) :
    (snsRotate (castL q))[j]? = some (((q.zip D).foldl (fun s p => s + p.1 * p.2.getD j 0) 0 : ℚ) : ℝ) := by
  unfold snsRotate
  rw [rotateFold_get j _ _ (by simpa using hj)]
  · congr 1
    have key : ∀ (q : List ℚ) (rows : List (List Rat)) (s : ℚ),
        ((castL q).zip rows).foldl (fun s p => s + p.1 * (((p.2.getD j 0 : ℚ)) : ℝ)) (s : ℝ) =
          (((q.zip rows).foldl (fun s p => s + p.1 * p.2.getD j 0) s : ℚ) : ℝ) := by
      intro q
      induction q with
      | nil => intro rows s; simp [castL]
      | cons x q ih =>
        intro rows s
        cases rows with
        | nil => simp
        | cons r rows =>
          have := ih rows (s + x * r.getD j 0)
          push_cast at this
          simpa [castL] using this
    have h0 : (List.replicate 16 (zero : ℝ)).getD j 0 = ((0 : ℚ) : ℝ) := by
      rw [List.getD_eq_getElem _ _ (by simpa using hj), List.getElem_replicate]; rfl
    rw [h0, key]
  · intro p hp
    have h1 := D_rows p.2 (List.of_mem_zip hp).2
    omega

set_option maxRecDepth 100000 in
theorem silence_col : (LFCB.all fun a => HFCB.all fun b =>
    (((a ++ b).map fun q : ℚ => -q).zip D).foldl (fun s p => s + p.1 * p.2.getD 10 0) 0 ≠ 0) = true := by decide +kernel

theorem snsSmooth_zero : snsSmooth (List.replicate 64 (0 : ℝ)) = List.replicate 64 0 := by
  rw [List.eq_replicate_iff]
  constructor
  · simp [snsSmooth]
  · have hat : ∀ i, at0 (List.replicate 64 (0 : ℝ)) i = 0 := by
      intro i
      have hz : (zero : ℝ) = 0 := Rat.cast_zero
      unfold at0
      rw [List.getD_eq_getElem?_getD, List.getElem?_replicate]
      split <;> simp [hz]
    intro x hx
    simp only [snsSmooth, hat, mul_zero, add_zero] at hx
    simpa using hx

theorem snsDownsample_const (c : ℝ) : snsDownsample (List.replicate 64 c) = List.replicate 16 c := by
  have hr : ∀ q : ℚ, (ofRat q : ℝ) = (q : ℝ) := fun _ => rfl
  have hz : (zero : ℝ) = 0 := Rat.cast_zero
  have hmid : ∀ i < 14, ((WEIGHTING : List ℝ).zip ((List.replicate 64 c).drop (4 * (i + 1) - 1))).foldl (fun s p => s + p.1 * p.2) zero =
      c := by
    intro i hi
    have e : (List.replicate 64 c).drop (4 * (i + 1) - 1) = c :: c :: c :: c :: c :: c :: List.replicate (64 - (4 * (i + 1) - 1) - 6) c := by
      rw [List.drop_replicate]
      conv_lhs => rw [show 64 - (4 * (i + 1) - 1) = 64 - (4 * (i + 1) - 1) - 6 + 1 + 1 + 1 + 1 + 1 + 1 by omega]
      simp only [List.replicate_succ]
    rw [e]
    simp only [WEIGHTING, List.zip_cons_cons, List.zip_nil_left, List.foldl_cons, List.foldl_nil, hr, hz]
    push_cast
    ring
  rw [List.eq_replicate_iff]
  constructor
  · simp [snsDownsample]
  · intro x hx
    simp only [snsDownsample, List.cons_append, List.mem_cons, List.mem_append, List.mem_map, List.mem_range, List.not_mem_nil, or_false] at hx
    rcases hx with rfl | ⟨i, hi, rfl⟩ | rfl
    · simp [List.range_succ, at0, WEIGHTING, hr, hz]
      ring
    · exact hmid i hi
    · simp [List.range_succ, at0, WEIGHTING, hr, hz]
      ring

theorem snsMeanRemoval_const (c : ℝ) : snsMeanRemoval (List.replicate 16 c) = List.replicate 16 0 := by
  have hr : ∀ q : ℚ, (ofRat q : ℝ) = (q : ℝ) := fun _ => rfl
  have hz : (zero : ℝ) = 0 := Rat.cast_zero
  rw [List.eq_replicate_iff]
  constructor
  · simp [snsMeanRemoval]
  · intro x hx
    simp only [snsMeanRemoval, List.mem_map, sumS, List.replicate, List.foldl_cons,
      List.foldl_nil, hz] at hx
    obtain ⟨y, hy, rfl⟩ := hx
    have : y = c := by simpa using hy
    subst this
    have : (ofInt ((16 : Nat) : Int) : ℝ) = 16 := by
      unfold ofInt; rw [hr]; norm_num
    change ofRat (17 / 20) * (y - _ / (ofInt ((16 : Nat) : Int) : ℝ)) = 0
    rw [this]
    ring

/-- the target of silence -/
theorem snsTarget_silence {cfg : Lc3Config} (h1 : cfg.nb = 64) (h2 : cfg.fsInd < 5) :
    snsTarget cfg (List.replicate 64 (0 : ℝ)) false = .ok (List.replicate 16 0) := by
  unfold snsTarget
  obtain ⟨tilt, ht⟩ : ∃ t, idx G_TILT cfg.fsInd = .ok t := ⟨_, idx_eq_ok (show cfg.fsInd < G_TILT.length from h2)⟩
  rw [ht, Res.bind_ok]
  have hp : snsPad cfg.nb (List.replicate 64 (0 : ℝ)) = .ok (List.replicate 64 0) := by
    unfold snsPad
    rw [h1, show usub 64 64 = .ok 0 from rfl, Res.bind_ok, if_neg (by norm_num), if_pos (by simp)]
  rw [hp, Res.bind_ok, snsSmooth_zero]
  simp only
  have e0 : ∀ g : Nat → ℝ, (List.replicate 64 (0 : ℝ)).zipIdx.map (fun p => p.1 * g p.2) = List.replicate 64 0 := by
    intro g
    rw [List.eq_replicate_iff]
    refine ⟨by simp, fun x hx => ?_⟩
    obtain ⟨p, hp, rfl⟩ := List.mem_map.1 hx
    have := List.eq_of_mem_replicate (List.fst_mem_of_mem_zipIdx hp)
    rw [this, zero_mul]
  rw [e0 fun i => pow10 (ofInt i * (ofInt ((tilt : Nat) : Int) / ofRat 630)), List.map_replicate, snsDownsample_const,
    snsMeanRemoval_const]
  rfl

/-- non-vacuity: the encoder shapes silence -/
theorem C45_silence {f : SamplingFrequency} {d : FrameDuration} (hnb : (Lc3Config.new f d).nb = 64) {x : List ℝ}
    (hx : x.length = (Lc3Config.new f d).ne) : ∃ r, snsEncRun (Lc3Config.new f d) x (List.replicate 64 0) false = .ok r := by
  refine C45_returns hnb hx (by simp) ?_
  intro scf lf hf st1 r1 e1 e2
  rw [snsTarget_silence hnb (by cases f <;> cases d <;> decide)] at e1
  obtain rfl := Res.ok.inj e1
  obtain ⟨lf', hf', a, b, ha, hb, e3⟩ := snsStage1_ok (scf := List.replicate 16 (0 : ℝ)) (by simp)
  rw [e3] at e2
  have e4 := congrArg (fun p => p.2.2.2) (Res.ok.inj e2)
  simp only at e4
  subst e4
  have hl : (a ++ b).length = 16 := by
    rw [List.length_append, LFCB_shape.2 a (List.mem_of_getElem? ha), HFCB_shape.2 b (List.mem_of_getElem? hb)]
  have er : ((List.replicate 16 (0 : ℝ)).zip ((a ++ b).map ofRat)).map (fun p => p.1 - p.2) = castL ((a ++ b).map fun q : ℚ => -q) := by
    have key : ∀ z : List ℝ, z.length = 16 → (∀ v ∈ z, v = 0) →
        (z.zip ((a ++ b).map ofRat)).map (fun p => p.1 - p.2) = castL ((a ++ b).map fun q : ℚ => -q) := by
      intro z hz h0
      apply List.ext_getElem
      · rw [List.length_append] at hl; simp [castL]; omega
      · intro i h1 h2
        simp only [castL, List.getElem_map, List.getElem_zip]
        rw [h0 _ (List.getElem_mem _), Rat.cast_neg]
        exact zero_sub _
    exact key _ (by simp) (fun v hv => List.eq_of_mem_replicate hv)
  have hs := silence_col
  rw [List.all_eq_true] at hs
  have hs := hs a (List.mem_of_getElem? ha)
  rw [List.all_eq_true] at hs
  have hs := hs b (List.mem_of_getElem? hb)
  have hg := rotate_cast ((a ++ b).map fun q : ℚ => -q) 10 (by omega)
  rw [← er] at hg
  refine ⟨_, List.mem_iff_getElem?.2 ⟨0, (List.getElem?_drop).trans hg⟩, ?_⟩
  rw [Ne, Rat.cast_eq_zero]
  exact of_decide_eq_true hs

example (x : List ℝ) (hx : x.length = 400) : ∃ r, snsEncRun (Lc3Config.new .hz48000 .tenMs) x (List.replicate 64 0) false = .ok r :=
  C45_silence (by decide) (by rw [hx]; decide)

end Lc3
