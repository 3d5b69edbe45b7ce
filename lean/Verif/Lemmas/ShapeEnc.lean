import Verif.Lemmas.ShapeGain
import Verif.Lemmas.TargetBd
/-!
# The encoder's quantised scale factors in binary32

They are near the scale factors of exact arithmetic that belong to the transmitted indices.
-/

namespace Lc3
open Scalar Tables Spec

/-- shape and gain are chosen properly, or the first distance is not below infinity and shape 0 stays chosen -/
theorem snsChoose_first {α : Type} [Scalar α] (t : List α) (xs : Nat → List α) : ∃ g, SNS_VQ_REG_ADJ_GAINS.take 1 = [g] ∧
    (ChoiceOk xs (snsChoose t (xs 0) (xs 1) (xs 2) (xs 3)) ∨
      ((snsChoose t (xs 0) (xs 1) (xs 2) (xs 3)).shapeJ = 0 ∧ ltInf (snsDist t (xs 0) (ofRat g)) = false)) := by
  obtain ⟨g, hg⟩ : ∃ g, SNS_VQ_REG_ADJ_GAINS.take 1 = [g] := ⟨_, rfl⟩
  refine ⟨g, hg, ?_⟩
  obtain ⟨s0, hs0⟩ : ∃ s0 : SnsChoice α, s0 = ⟨0, 0, zero, xs 0, none⟩ := ⟨_, rfl⟩
  cases hd : ltInf (snsDist t (xs 0) (ofRat g)) with
  | true =>
    left
    unfold snsChoose
    simp only
    refine choiceOk_step xs (j := 3) (by norm_num) t (n := 7) (by decide) ?_
    refine choiceOk_step xs (j := 2) (by norm_num) t (n := 3) (by decide) ?_
    refine choiceOk_step xs (j := 1) (by norm_num) t (n := 3) (by decide) ?_
    rw [hg, snsTryGains, snsTryGains]
    simp only [hd, if_true]
    refine ⟨by norm_num, show 0 < gainCount 0 by decide, ⟨g, ?_, rfl⟩, rfl⟩
    have : (SNS_VQ_REG_ADJ_GAINS.take 1)[0]? = some g := by rw [hg]; rfl
    rw [List.getElem?_take] at this
    simpa [gainsOf] using this
  | false =>
    have step : ∀ {j n : ℕ} {s : SnsChoice α}, j < 4 → n ≤ gainCount j → (ChoiceOk xs s ∨ s = s0) →
        (ChoiceOk xs (snsTryGains t (xs j) j ((gainsOf j).take n) 0 s) ∨ snsTryGains t (xs j) j ((gainsOf j).take n) 0 s = s0) := by
      intro j n s hj hn hs
      rcases hs with hs | rfl
      · exact .inl (choiceOk_step xs hj t hn hs)
      · rcases snsTryGains_cases t (xs j) j ((gainsOf j).take n) 0 s with e | ⟨k, g, d, h1, h2⟩
        · exact .inr e
        · left
          rw [h2]
          rw [List.getElem?_take] at h1
          split at h1
          · rename_i hk
            exact ⟨hj, by simp only; omega, ⟨g, by simpa using h1, rfl⟩, rfl⟩
          · cases h1
    have : ChoiceOk xs (snsChoose t (xs 0) (xs 1) (xs 2) (xs 3)) ∨ snsChoose t (xs 0) (xs 1) (xs 2) (xs 3) = s0 := by
      unfold snsChoose
      simp only
      rw [← hs0]
      refine step (j := 3) (n := 7) (by norm_num) (by decide) ?_
      refine step (j := 2) (n := 3) (by norm_num) (by decide) ?_
      refine step (j := 1) (n := 3) (by norm_num) (by decide) ?_
      exact step (j := 0) (n := 1) (by norm_num) (by decide) (.inr rfl)
    rcases this with h | h
    · exact .inl h
    · right
      rw [h, hs0]
      exact ⟨rfl, rfl⟩

namespace F32

variable {el : Elem}

theorem bd_rotate {r1 : List F32} (hl : r1.length = 16) (h : AllBd (2 ^ 40) r1) : AllBd (2 ^ 46) (@snsRotate F32 (scalar el) r1) := by
  letI := scalar el
  intro v hv
  obtain ⟨j, hj, rfl⟩ := List.mem_iff_getElem.1 hv
  have hlen : (@snsRotate F32 (scalar el) r1).length = 16 := @snsRotate_length F32 (scalar el) r1
  have hj16 : j < 16 := by omega
  have hz : (zero : F32) = fin 0 := zero_eq
  have hrl : ∀ row ∈ D, row.length = 16 := D_rows
  have e := rotateFold_get32 j (r1.zip D) (List.replicate 16 (fin 0)) (by simpa using hj16) (fun p hp => by
    rw [hrl _ (List.of_mem_zip hp).2]; exact hj16)
  have e2 : (@snsRotate F32 (scalar el) r1)[j]? = some ((r1.zip D).foldl (fun s p => F32.add s (F32.mul p.1 (rnd (p.2.getD j 0)))) (fin 0)) := by
    unfold snsRotate
    rw [hz]
    rw [show (List.replicate 16 (fin 0)).getD j (fin 0) = fin 0 by
      rw [getD_of_lt (by simpa using hj16), List.getElem_replicate]] at e
    exact e
  rw [List.getElem?_eq_getElem hj] at e2
  rw [Option.some.inj e2]
  refine bd_fold0 (n := 41) (m := 4) (by norm_num) ?_ (by rw [List.length_zip, hl, D_length]; norm_num) (by norm_num)
  intro p hp
  obtain ⟨h1, h2⟩ := List.of_mem_zip hp
  refine bd2_mul (h _ h1) (bd_const ?_) (by norm_num)
  have hm : p.2.getD j 0 ∈ p.2 := by
    rw [getD_of_lt (by rw [hrl _ h2]; exact hj16)]
    exact List.getElem_mem _
  have hd := d_le _ h2 _ hm
  have : ((|p.2.getD j 0| : ℚ) : ℝ) ≤ ((352 / 1000 : ℚ) : ℝ) := by exact_mod_cast hd
  push_cast at this
  exact this.trans (by norm_num)

theorem dist_finite {t x : List F32} (ht : AllBd (2 ^ 46) t) (hx : AllBd (2 ^ 4) x) (hl : x.length ≤ 16) {g : ℚ} (hg : |(g : ℝ)| ≤ 6) :
    @Scalar.ltInf F32 (scalar el) (@snsDist F32 (scalar el) t x (@ofRat F32 (scalar el) g)) = true := by
  letI := scalar el
  have hz : (zero : F32) = fin 0 := zero_eq
  have hr : Bd (2 ^ 3) (rnd g) := (ab_rnd hg (by norm_num)).bd (by norm_num at *; linarith)
  have h : Bd (2 ^ 102) (@snsDist F32 (scalar el) t x (@ofRat F32 (scalar el) g)) := by
    unfold snsDist
    rw [hz]
    refine bd_fold0 (n := 97) (m := 4) (l := x.zip t) (g := fun p : F32 × F32 => F32.mul (F32.sub p.2 (F32.mul (rnd g) p.1)) (F32.sub p.2 (F32.mul (rnd g) p.1))) (by norm_num) ?_
      (by rw [List.length_zip]; omega) (by norm_num)
    intro p hp
    obtain ⟨h1, h2⟩ := List.of_mem_zip hp
    have b1 := bd2_mul hr (hx _ h1) (by norm_num)
    have b2 := bd2_sub (ht _ h2) (bd2_mono b1 (by norm_num : _ ≤ 46)) (by norm_num)
    exact bd2_mul b2 b2 (by norm_num)
  obtain ⟨q, hq⟩ := h.1
  rw [hq]
  rfl

theorem sqSum_pad (y : List ℤ) (n : ℕ) : sqSum (y ++ List.replicate n 0) = sqSum y := by
  induction y with
  | nil =>
    induction n with
    | zero => rfl
    | succ n ih =>
      rw [List.nil_append] at ih ⊢
      rw [List.replicate_succ]
      simp only [sqSum, List.map_cons, List.sum_cons] at ih ⊢
      simpa using ih
  | cons v y ih =>
    simp only [sqSum, List.cons_append, List.map_cons, List.sum_cons] at ih ⊢
    omega

/-- one entry of the normalised vector -/
theorem normEntry_ab {r : ℚ} {N : ℝ} (h1 : 1 ≤ N) (hr : |(r : ℝ) - N| ≤ N / 2 ^ 24) {v : ℤ} (hv : v.natAbs ≤ 11) :
    Ab ((v : ℝ) * (1 / N)) (v.natAbs * (1 / N) / 2 ^ 22 + 1 / 2 ^ 140) (normEntry r v) := by
  have hrnd : rnd (v : ℚ) = fin v := rnd_int (by rw [abs_le]; omega)
  have hm : |(v : ℝ)| = v.natAbs := by
    rw [← Int.cast_abs, Int.abs_eq_natAbs]
    rfl
  unfold normEntry
  rw [hrnd]
  split
  · have ha : Ab (v : ℝ) (|(v : ℝ)| / 2 ^ 24 + 1 / 2 ^ 150) (fin (v : ℚ)) := by
      refine ⟨⟨_, rfl⟩, ?_⟩
      show |((v : ℚ) : ℝ) - v| ≤ _
      rw [Rat.cast_intCast, sub_self, abs_zero]
      positivity
    have h11 : (v.natAbs : ℝ) ≤ 11 := by exact_mod_cast hv
    have := div_ab ha (n := fin r) ⟨r, rfl⟩ hr h1 (by rw [hm]; norm_num; linarith)
    rw [hm] at this
    rw [mul_one_div, mul_one_div]
    exact this
  · rename_i h0
    have : v = 0 := by simpa using h0
    subst this
    refine ⟨⟨_, rfl⟩, ?_⟩
    show |(((0 : ℤ) : ℚ) : ℝ) - _| ≤ _
    simp

/-- a scale factor of the encoder -/
theorem encScale_ab (he : Accurate el) {j : ℕ} {y : List ℤ} {g : ℚ} (hl : y.length ≤ 16)
    (hv : ShapeVector j (y ++ List.replicate (16 - y.length) 0)) (hg : g ∈ gainsOf j) {row : List ℚ} (hrow : row ∈ D) {c : ℚ} (hc : |(c : ℝ)| ≤ 5) :
    Ab ((c : ℝ) + (g : ℝ) / Real.sqrt ((sqSum (y ++ List.replicate (16 - y.length) 0) : ℚ) : ℝ) * rowSum ((y ++ List.replicate (16 - y.length) 0).zip row))
      (1 / 2 ^ 16) (F32.add (rnd c) (F32.mul (rnd g) (((@snsNormalize F32 (scalar el) y).zip row).foldl (fun f q => F32.add f (F32.mul q.1 (rnd q.2))) (fin 0)))) ∧
    AllBd (2 ^ 4) (@snsNormalize F32 (scalar el) y) := by
  obtain ⟨hg6, hS1, hS11, hgS⟩ := shape_gain hv hg
  have hlen16 := hv.1
  have hps : pulseSum (y ++ List.replicate (16 - y.length) 0) = pulseSum y := by rw [pulseSum_append, pulseSum_zeros]; omega
  rw [hps] at hS1 hS11 hgS
  obtain ⟨r, hr, hre⟩ := normalize_eq he hl hS11
  obtain ⟨n1, n2, -⟩ := norm_facts hS11 hS1 hgS hre
  rw [sqSum_pad]
  obtain ⟨Y, hY⟩ : ∃ Y, Y = y ++ List.replicate (16 - y.length) 0 := ⟨_, rfl⟩
  rw [← hY] at hr hlen16 hps ⊢
  have hNS : Real.sqrt ((sqSum y : ℚ) : ℝ) ≤ pulseSum y := by
    refine Real.sqrt_le_iff.2 ⟨by positivity, ?_⟩
    have := sqSum_le y
    push_cast
    rw [sq]
    exact_mod_cast this
  generalize Real.sqrt ((sqSum y : ℚ) : ℝ) = N at *
  have hN0 : 0 < N := by linarith
  have hS11' : (pulseSum y : ℝ) ≤ 11 := by exact_mod_cast hS11
  have hd := d_le row hrow
  have hrl := D_rows row hrow
  have hfst : (Y.zip row).map Prod.fst = Y := List.map_fst_zip (by omega)
  have hz : (Y.zip row).length = 16 := by rw [List.length_zip]; omega
  have hdz : ∀ x ∈ Y.zip row, |x.2| ≤ (352 / 1000 : ℚ) := fun x hx => hd _ (List.of_mem_zip hx).2
  have hfx : ∀ v : ℤ, v.natAbs ≤ 11 → Ab ((v : ℝ) * (1 / N)) (v.natAbs * (1 / N) / 2 ^ 22 + 1 / 2 ^ 140) (normEntry r v) :=
    fun v hv => normEntry_ab n1 hre hv
  have hu1 : 1 / N ≤ 1 := by rw [div_le_one hN0]; exact n1
  have hs1 : 1 ≤ pulseSum y / N := by rw [le_div_iff₀ hN0]; linarith
  have hs11 : pulseSum y / N ≤ 11 := by rw [div_le_iff₀ hN0]; nlinarith
  refine ⟨?_, ?_⟩
  · have hb := row_ab0 (u := 1 / N) (s := pulseSum y / N) (by positivity) hu1 hfx hz hdz (by rw [hfst, hps]; exact hS11)
      (by rw [hfst, hps, mul_one_div]) hs1 hs11
    rw [mul_one_div] at hb
    have hfold : ((@snsNormalize F32 (scalar el) y).zip row).foldl (fun f q => F32.add f (F32.mul q.1 (rnd q.2))) (fin 0) =
        (Y.zip row).foldl (fun acc (x : ℤ × ℚ) => F32.add acc (F32.mul (normEntry r x.1) (rnd x.2))) (fin 0) := by
      rw [hr, List.zip_map_left, List.foldl_map]
      rfl
    rw [hfold]
    have hg' : |(g : ℝ)| ≤ 6 := by
      have : ((|g| : ℚ) : ℝ) ≤ ((6 : ℚ) : ℝ) := by exact_mod_cast hg6
      push_cast at this
      exact this
    have hrs := rowSum_le _ hdz
    rw [hfst, hps] at hrs
    refine encFactor_ab (S := pulseSum y / N) (ab_rnd hc (by norm_num)) hc (ab_rnd' (hg'.trans (by norm_num))) hs11 ?_ ?_ hb
    · rw [← mul_div_assoc, mul_div_right_comm]
      exact n2
    · rw [abs_div, abs_of_pos hN0, ← mul_div_assoc]
      exact div_le_div_of_nonneg_right hrs hN0.le
  · rw [hr]
    intro a ha
    obtain ⟨v, hv, rfl⟩ := List.mem_map.1 ha
    have h11 : v.natAbs ≤ 11 := by
      have := List.single_le_sum (l := Y.map Int.natAbs) (by simp) v.natAbs (List.mem_map_of_mem hv)
      have e : (Y.map Int.natAbs).sum = pulseSum Y := rfl
      omega
    have hn11 : (v.natAbs : ℝ) ≤ 11 := by exact_mod_cast h11
    have hva : |(v : ℝ)| = v.natAbs := by
      rw [← Int.cast_abs, Int.abs_eq_natAbs]
      rfl
    refine (hfx v h11).bd ?_
    rw [abs_mul, hva, abs_of_pos (by positivity : 0 < 1 / N)]
    have h0 : (v.natAbs : ℝ) * (1 / N) ≤ 11 := by
      calc (v.natAbs : ℝ) * (1 / N) ≤ v.natAbs * 1 := mul_le_mul_of_nonneg_left hu1 (by positivity)
        _ ≤ 11 := by linarith
    generalize (v.natAbs : ℝ) * (1 / N) = w at *
    norm_num
    linarith

/-- the quantised scale factors of the encoder and the decoder's view of the transmitted indices -/
theorem stage2_ab (he : Accurate el) {scf r1 st1 : List F32} {lf hf : Nat} {s2 : SnsStage2 F32} (hs : ∀ v ∈ scf, IsF32 v) (hb : AllBd (2 ^ 38) scf)
    (h1 : @snsStage1 F32 (scalar el) scf = .ok (lf, hf, st1, r1)) (h2 : @snsStage2 F32 (scalar el) r1 st1 = .ok s2) :
    ∃ (q : PulseIdx) (a b : List ℚ) (y : List ℤ) (g : ℚ), lf < 32 ∧ hf < 32 ∧ s2.shapeJ < 4 ∧ s2.gind < gainCount s2.shapeJ ∧ (s2.lsInda = 0 ∨ s2.lsInda = 1) ∧
      s2.indexJoint = jointIndex s2.shapeJ s2.gind q.idxa q.idxb q.lsIndb ∧
      q.idxa < (if s2.shapeJ ≤ 1 then 2390004 else if s2.shapeJ = 2 then 15158272 else 774912) ∧
      (s2.shapeJ = 0 → q.idxb < 6 ∧ q.lsIndb ≤ 1) ∧ LFCB[lf]? = some a ∧ HFCB[hf]? = some b ∧ y.length = 16 ∧
      snsPulses (vqOf lf hf s2.shapeJ s2.gind s2.lsInda.toNat q) = .ok y ∧ snsGain (vqOf lf hf s2.shapeJ s2.gind s2.lsInda.toNat q) = .ok g ∧
      s2.scfq.length = 16 ∧ AllBd 11 s2.scfq ∧ ∀ n < 16, Ab
        (shapedFactor (fun n => ((a ++ b).getD n 0 : ℝ)) g (fun i => (y.getD i 0 : ℝ)) (fun n i => ((D.getD n []).getD i 0 : ℝ)) n)
        (1 / 2 ^ 16) (s2.scfq.getD n (fin 0)) := by
  letI := scalar el
  obtain ⟨k1, k2, k3, k4⟩ := snsStage1_f32 el hs h1
  unfold snsStage1 at h1
  split at h1
  · cases h1
  rename_i hlen
  simp only [ne_eq, not_not] at hlen
  obtain ⟨a, ha, h1⟩ := bind_ok_inv h1
  obtain ⟨b, hb', h1⟩ := bind_ok_inv h1
  simp only [Res.ok.injEq, Prod.mk.injEq] at h1
  obtain ⟨e1, e2, e3, e4⟩ := h1
  rw [e1] at ha
  rw [e2] at hb'
  have hla : a.length = 8 := LFCB_shape.2 a (idx_mem ha)
  have hlb : b.length = 8 := HFCB_shape.2 b (idx_mem hb')
  have hab : (a ++ b).length = 16 := by simp [hla, hlb]
  have hc5 : ∀ c ∈ a ++ b, |(c : ℝ)| ≤ 5 := by
    intro c hc
    have hc5 : |c| ≤ (5 : ℚ) := by
      rcases List.mem_append.1 hc with hc | hc
      · exact lfcb_le a (idx_mem ha) c hc
      · exact hfcb_le b (idx_mem hb') c hc
    have : ((|c| : ℚ) : ℝ) ≤ ((5 : ℚ) : ℝ) := by exact_mod_cast hc5
    push_cast at this
    exact this
  have hst : AllBd (501 / 100) st1 := by
    rw [← e3]
    intro v hv
    obtain ⟨c, hc, rfl⟩ := List.mem_map.1 hv
    exact (bd_rnd (hc5 c hc) (by norm_num) (by norm_num)).mono (by norm_num)
  have hr1 : AllBd (2 ^ 40) r1 := by
    rw [← e4]
    intro v hv
    obtain ⟨⟨x, w⟩, hp, rfl⟩ := List.mem_map.1 hv
    obtain ⟨p1, p2⟩ := List.of_mem_zip hp
    rw [e3] at p2
    exact bd2_sub (hb _ p1) ((hst _ p2).mono (by norm_num)) (by norm_num)
  have hrot : AllBd (2 ^ 46) (@snsRotate F32 (scalar el) r1) := bd_rotate k3 hr1
  have hbd := bd_snsStage2 he k3 k4 hst h2
  have hlen' : (@snsRotate F32 (scalar el) r1).length = 16 := @snsRotate_length F32 (scalar el) r1
  have hrep : ∀ v ∈ @snsRotate F32 (scalar el) r1, IsF32 v := rotate_rep el k3
  obtain ⟨c, ec, c1, c2, c3, c4, c5⟩ := cands_f32 el hlen' hrep (rotate_notTiny el k3 k4)
  unfold snsStage2 at h2
  simp only at h2
  rw [ec, Res.bind_ok] at h2
  obtain ⟨ys, hys⟩ : ∃ ys : ℕ → List ℤ, ys = fun j => match j with | 0 => c.y0 | 1 => c.y1 | 2 => c.y2 | _ => c.y3 := ⟨_, rfl⟩
  have y0 : ys 0 = c.y0 := congrFun hys 0
  have y1 : ys 1 = c.y1 := congrFun hys 1
  have y2 : ys 2 = c.y2 := congrFun hys 2
  have y3 : ys 3 = c.y3 := congrFun hys 3
  obtain ⟨g0, hg0, hch⟩ := snsChoose_first (@snsRotate F32 (scalar el) r1) (fun j => (snsNormalize (ys j) : List F32))
  rw [y0, y1, y2, y3] at hch
  have hrange := snsChoose_range (@snsRotate F32 (scalar el) r1) (snsNormalize c.y0) (snsNormalize c.y1) (snsNormalize c.y2) (snsNormalize c.y3)
  generalize snsChoose (@snsRotate F32 (scalar el) r1) (snsNormalize c.y0) (snsNormalize c.y1) (snsNormalize c.y2) (snsNormalize c.y3) = s at h2 hch hrange
  obtain ⟨g1, g2⟩ := hrange
  obtain ⟨⟨J, lsa, lsb⟩, h3, h2⟩ := bind_ok_inv h2
  simp only [Res.ok.injEq] at h2
  have hv : ShapeVector s.shapeJ (candidateOf s.shapeJ c) := by
    have hsh : s.shapeJ = 0 ∨ s.shapeJ = 1 ∨ s.shapeJ = 2 ∨ s.shapeJ = 3 := by omega
    rcases hsh with e | e | e | e <;> rw [e]
    · rcases c5 with c5 | c5
      · exact c5
      · rw [e] at h3
        exact absurd h3 (snsEnumerate_zero_panics c5)
    · exact c2
    · exact c3
    · exact c4
  have hcand : (ys s.shapeJ).length ≤ 16 ∧ ys s.shapeJ ++ List.replicate (16 - (ys s.shapeJ).length) 0 = candidateOf s.shapeJ c := by
    have hsh : s.shapeJ = 0 ∨ s.shapeJ = 1 ∨ s.shapeJ = 2 ∨ s.shapeJ = 3 := by omega
    have hl := hv.1
    rcases hsh with e | e | e | e <;> rw [e] at hl ⊢ <;> simp only [candidateOf] at hl ⊢
    · rw [y0, hl]; simp
    · rw [y1, c1]; simp
    · rw [y2, hl]; simp
    · rw [y3, hl]; simp
  have hok : ChoiceOk (fun j => (snsNormalize (ys j) : List F32)) s := by
    rcases hch with hch | ⟨z1, z2⟩
    · exact hch
    · exfalso
      rw [z1] at hv hcand
      rw [← hcand.2] at hv
      have hg0m : g0 ∈ gainsOf 0 := by
        have : g0 ∈ SNS_VQ_REG_ADJ_GAINS.take 1 := by rw [hg0]; simp
        exact List.mem_of_mem_take this
      have hx := (encScale_ab he hcand.1 hv hg0m (d_getD_mem (n := 0) (by norm_num)) (c := 0) (by norm_num)).2
      have hg6 := (shape_gain hv hg0m).1
      have hg' : |(g0 : ℝ)| ≤ 6 := by
        have : ((|g0| : ℚ) : ℝ) ≤ ((6 : ℚ) : ℝ) := by exact_mod_cast hg6
        push_cast at this
        exact this
      have hxl : (@snsNormalize F32 (scalar el) (ys 0)).length ≤ 16 := by
        unfold snsNormalize
        simp
        omega
      have := dist_finite (el := el) hrot hx hxl hg'
      rw [y0] at this
      rw [this] at z2
      cases z2
  obtain ⟨-, -, ⟨g, g3, g4⟩, g5⟩ := hok
  obtain ⟨J', lsa', lsb', q, f1, f2, f3, f4, f5, f6⟩ := snsEnumerate_vq (gind := s.gind) g1 c1 hv
  rw [h3] at f1
  simp only [Res.ok.injEq, Prod.mk.injEq] at f1
  obtain ⟨rfl, rfl, rfl⟩ := f1
  subst h2
  have hgain : snsGain (vqOf lf hf s.shapeJ s.gind lsa.toNat q) = .ok g := by
    have hi : idx (gainsOf s.shapeJ) s.gind = .ok g := by unfold idx; rw [g3]
    have hsh : s.shapeJ = 0 ∨ s.shapeJ = 1 ∨ s.shapeJ = 2 ∨ s.shapeJ = 3 := by omega
    unfold snsGain vqOf
    rcases hsh with e | e | e | e <;> rw [e] at hi ⊢ <;> exact hi
  have hst16 : st1.length = 16 := by rw [← e3, List.length_map, hab]
  refine ⟨q, a, b, candidateOf s.shapeJ c, g, k1, k2, g1, g2, f2, f3, f4, f5, idx_ok_iff.1 ha, idx_ok_iff.1 hb', hv.1, f6 lf hf, hgain, by simp [hst16, D_length], hbd, ?_⟩
  intro n hn
  rw [shapedFactor_eq hv.1 hn]
  simp only
  rw [getD_of_lt (d := fin 0) (by simp [hst16, D_length]; exact hn), List.getElem_map, List.getElem_zip]
  have hDn : D[n]'(by rw [D_length]; exact hn) = D.getD n [] := (getD_of_lt _).symm
  have hcn : st1[n]'(by omega) = rnd ((a ++ b).getD n 0) := by
    have : st1[n]? = some (rnd ((a ++ b).getD n 0)) := by
      rw [← e3, List.getElem?_map, List.getElem?_eq_getElem (by omega), getD_of_lt (by omega)]
      rfl
    rw [List.getElem?_eq_getElem (by omega)] at this
    exact Option.some.inj this
  simp only
  have hz : (zero : F32) = fin 0 := zero_eq
  rw [hDn, hcn, g4, g5, hz]
  have hm : (a ++ b).getD n 0 ∈ a ++ b := by
    rw [getD_of_lt (by omega)]
    exact List.getElem_mem _
  have hv' := hv
  rw [← hcand.2] at hv' ⊢
  exact (encScale_ab he hcand.1 hv' (List.mem_of_getElem? g3) (d_getD_mem hn) (hc5 _ hm)).1

/-- the factors of the encoder's bands -/
theorem encGain_ab {δ δ' : ℝ} (hp : Powers el δ δ') (hδ : 0 ≤ δ') (hδ1 : δ' ≤ 1 / 2) {l fac : List F32} {s : ℕ → ℝ}
    (hl : l.length = 16) (hb : AllBd 11 l) (h : ∀ n < 16, Ab (s n) (1 / 2 ^ 16) (l.getD n (fin 0)))
    (he : @snsEncFactors F32 (scalar el) 64 l = .ok fac) : fac.length = 64 ∧ ∀ b < 64, IsFin (fac.getD b (fin 0)) ∧
      0 < (2 : ℝ) ^ (-bandFactor 64 s b) ∧ (2 : ℝ) ^ (-bandFactor 64 s b) ≤ 2 ^ 20 ∧
      |val (fac.getD b (fin 0)) - (2 : ℝ) ^ (-bandFactor 64 s b)| ≤ (δ' + 3 / 4 / 2 ^ 14) * (2 : ℝ) ^ (-bandFactor 64 s b) := by
  letI := scalar el
  unfold snsEncFactors snsReduceEnc at he
  rw [show usub 64 64 = .ok 0 from rfl, Res.bind_ok, if_neg (by norm_num), Res.bind_ok] at he
  simp only [Res.ok.injEq] at he
  have hI : (snsInterp l).length = 64 := snsInterp_length hl
  have hr : @snsReduce F32 (scalar el) 64 (@snsInterp F32 (scalar el) l) = .ok (snsInterp l) := by
    unfold snsReduce
    rw [show usub 64 64 = .ok 0 from rfl, Res.bind_ok, if_neg (by norm_num)]
  refine ⟨by rw [← he, List.length_map, hI], fun b hb64 => ?_⟩
  obtain ⟨a, k1, k2, k3⟩ := bandFactor_ab (by norm_num) le_rfl hl hb h hr b hb64
  have hg : fac.getD b (fin 0) = el.exp2 (F32.neg a) := by
    rw [← he, List.getD_eq_getElem?_getD, List.getElem?_map, k1]
    rfl
  rw [hg]
  generalize bandFactor 64 s b = t at *
  obtain ⟨q, rfl⟩ := k2.1
  have hq : |(q : ℝ) - t| ≤ 5 / 2 / 2 ^ 16 := k2.2
  have hneg : F32.neg (fin q) = fin (-q) := rfl
  rw [hneg]
  have hq' : |((-q : ℚ) : ℝ) - -t| ≤ 5 / 2 / 2 ^ 16 := by
    push_cast
    rw [neg_sub_neg, abs_sub_comm]
    exact hq
  obtain ⟨c, c1, c2⟩ := hp.std (-q) (by
    rw [abs_neg]
    have : |(q : ℝ)| ≤ ((32 : ℚ) : ℝ) := by
      have := abs_sub_abs_le_abs_sub (q : ℝ) t
      norm_num at *
      linarith
    exact_mod_cast this)
  rw [c1]
  refine ⟨⟨c, rfl⟩, by positivity, ?_, exp_near hδ hδ1 hq' le_rfl c2⟩
  calc (2 : ℝ) ^ (-t) ≤ (2 : ℝ) ^ (20 : ℝ) := Real.rpow_le_rpow_of_exponent_le (by norm_num) ((neg_le_abs _).trans k3)
    _ = 2 ^ 20 := by rw [← Real.rpow_natCast]; norm_num

end F32
end Lc3
