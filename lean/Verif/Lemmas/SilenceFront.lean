import Verif.Lemmas.EncReturns
/-! # Digital silence: the stages of the encoder in front of the quantiser -/

namespace Lc3
open Scalar Tables Spec

/-- all entries are zero -/
def AllZero {β : Type} [Zero β] (l : List β) : Prop := ∀ v ∈ l, v = 0

theorem AllZero.replicate {β : Type} [Zero β] (n : Nat) : AllZero (List.replicate n (0 : β)) := fun _ h => List.eq_of_mem_replicate h

theorem AllZero.eq {β : Type} [Zero β] {l : List β} (h : AllZero l) : l = List.replicate l.length 0 := List.eq_replicate_iff.2 ⟨rfl, h⟩

theorem AllZero.getD {β : Type} [Zero β] {l : List β} (h : AllZero l) (i : Nat) : l.getD i 0 = 0 := by
  rw [List.getD_eq_getElem?_getD]
  cases hg : l[i]? with
  | none => rfl
  | some v => exact h v (List.mem_of_getElem? hg)

theorem AllZero.take {β : Type} [Zero β] {l : List β} (h : AllZero l) (n : Nat) : AllZero (l.take n) := fun v hv => h v (List.mem_of_mem_take hv)

theorem AllZero.drop {β : Type} [Zero β] {l : List β} (h : AllZero l) (n : Nat) : AllZero (l.drop n) := fun v hv => h v (List.mem_of_mem_drop hv)

theorem AllZero.append {β : Type} [Zero β] {l m : List β} (h : AllZero l) (h' : AllZero m) : AllZero (l ++ m) := fun v hv =>
  (List.mem_append.1 hv).elim (h v) (h' v)

theorem mdctUpdate_zero {cfg : Lc3Config} {freq x freq' : List Int} (h : mdctUpdate cfg freq x = .ok freq') (h1 : AllZero freq)
    (h2 : AllZero x) : AllZero freq' := by
  unfold mdctUpdate at h
  obtain ⟨_, -, h⟩ := bind_ok_inv h
  split at h
  · cases h
  · cases h
    exact ((((h1.drop _).take _).append h2)).append (AllZero.drop (by assumption) _)

theorem mdctApply_zero {f : SamplingFrequency} {d : FrameDuration} {freq : List Int} {wn : List Rat} {lines : List ℝ}
    (hl : freq.length = 2 * (Lc3Config.new f d).nf) (hw : windowOf (Lc3Config.new f d).nMs (Lc3Config.new f d).nf = .ok wn)
    (h0 : AllZero freq) (h : mdctApply (Lc3Config.new f d).nf freq wn = .ok lines) : AllZero lines := by
  obtain ⟨wn', H, -⟩ := mdctOk_config f d
  obtain ⟨hnf, ⟨fac, hfac, hok⟩, hz, hne, hwin, hwl, htail⟩ := H
  rw [hw] at hwin
  cases hwin
  generalize (Lc3Config.new f d).nf = nf at *
  generalize hh : nf / 2 = hf at *
  subst hnf
  rw [mdctApply_ok hfac hok (by omega) hwl] at h
  cases h
  have hs : ∀ p, wsample freq wn p = 0 := fun p => by rw [wsample, h0.getD]; simp
  have hfold : ∀ i, foldAt hf (wsample freq wn) i = 0 := fun i => by unfold foldAt; simp [hs]
  intro v hv
  obtain ⟨k, -, rfl⟩ := List.mem_map.1 hv
  simp [Fourier.dct4, hfold]

theorem energyBands_zero {tab : List Nat} {out : List ℝ} (h0 : AllZero out) : ∀ n b eb, energyBands tab out b n = .ok eb → AllZero eb := by
  intro n
  induction n with
  | zero => intro b eb h; cases h; intro v hv; cases hv
  | succ n ih =>
    intro b eb h
    rw [energyBands] at h
    obtain ⟨i, -, h⟩ := bind_ok_inv h
    obtain ⟨j, -, h⟩ := bind_ok_inv h
    obtain ⟨w, -, h⟩ := bind_ok_inv h
    obtain ⟨part, hp, h⟩ := bind_ok_inv h
    obtain ⟨r, hr, h⟩ := bind_ok_inv h
    cases h
    have hp0 : AllZero part := by
      unfold sliceR at hp
      split at hp
      · cases hp
        first | exact (h0.drop _).take _ | exact (h0.take _).drop _
      · cases hp
    have hf : ∀ l : List ℝ, AllZero l → l.foldl (fun e o => e + o * o / ofInt (w : Int)) (zero : ℝ) = 0 := by
      intro l hl
      have hz : (zero : ℝ) = 0 := Rat.cast_zero
      rw [hz]
      induction l with
      | nil => rfl
      | cons a l ih => rw [List.foldl_cons, hl a (by simp)]; simpa using ih fun v hv => hl v (by simp [hv])
    intro v hv
    rcases List.mem_cons.1 hv with rfl | hv
    · exact hf _ hp0
    · exact ih _ _ hr v hv

theorem sum_zero : ∀ l : List ℝ, AllZero l → l.foldl (· + ·) (zero : ℝ) = 0 := by
  intro l hl
  have hz : (zero : ℝ) = 0 := Rat.cast_zero
  rw [hz]
  induction l with
  | nil => rfl
  | cons a l ih => rw [List.foldl_cons, hl a (by simp), add_zero]; exact ih fun v hv => hl v (by simp [hv])

/-- the transform of silence -/
theorem mdctEncRun_silence {f : SamplingFrequency} {d : FrameDuration} {fr x freq : List Int} {out eb : List ℝ} {nn : Bool}
    (hl : fr.length = (Lc3Config.new f d).nf * 2) (h1 : AllZero fr) (h2 : AllZero x)
    (h : mdctEncRun (Lc3Config.new f d) fr x = .ok (freq, out, eb, nn)) :
    AllZero freq ∧ AllZero out ∧ AllZero eb ∧ nn = false := by
  have hz : 2 * (Lc3Config.new f d).z ≤ (Lc3Config.new f d).nf := by cases f <;> cases d <;> decide
  unfold mdctEncRun at h
  split at h
  · cases h
  obtain ⟨freq', e1, h⟩ := bind_ok_inv h
  obtain ⟨wn, e2, h⟩ := bind_ok_inv h
  obtain ⟨out', e3, h⟩ := bind_ok_inv h
  obtain ⟨tab, e4, h⟩ := bind_ok_inv h
  obtain ⟨eb', e5, h⟩ := bind_ok_inv h
  obtain ⟨nn', e6, h⟩ := bind_ok_inv h
  simp only [Res.ok.injEq, Prod.mk.injEq] at h
  obtain ⟨rfl, rfl, rfl, rfl⟩ := h
  have hf0 := mdctUpdate_zero e1 h1 h2
  have hfl := (mdctUpdate_ok hz (by omega) e1).2.1
  have ho := mdctApply_zero hfl e2 hf0 e3
  have hb := energyBands_zero ho _ _ _ e5
  refine ⟨hf0, ho, hb, ?_⟩
  unfold isNearNyquist at e6
  split at e6
  · obtain ⟨k, -, e6⟩ := bind_ok_inv e6
    simp only [Res.ok.injEq] at e6
    rw [sum_zero _ (hb.take _), sum_zero _ (hb.drop _)] at e6
    rw [← e6]
    show decide ((((30 : ℚ) : ℝ) * 0) < 0) = false
    simp
  · cases e6; rfl

theorem snsAttack_zero (b : Bool) (dur : FrameDuration) : snsAttack b dur (List.replicate 16 (0 : ℝ)) = List.replicate 16 0 := by
  have hz : (zero : ℝ) = 0 := Rat.cast_zero
  have hat : ∀ i, at0 (List.replicate 16 (0 : ℝ)) i = 0 := by
    intro i
    unfold at0
    rw [hz]
    exact (AllZero.replicate 16).getD i
  unfold snsAttack
  split
  · simp only [hat, add_zero, zero_div]
    have hs : ∀ n, sumS (((List.replicate 16 (0 : ℝ)).drop n).take 5) = 0 := fun n => sum_zero _ (((AllZero.replicate 16).drop n).take 5)
    simp only [hs, zero_div]
    have ho : ([(0 : ℝ), 0] ++ (List.range 12).map (fun _ => (0 : ℝ)) ++ [0, 0]) = List.replicate 16 0 := by
      simp [List.range_succ, List.replicate]
    rw [ho]
    have : sumS (List.replicate 16 (0 : ℝ)) = 0 := sum_zero _ (AllZero.replicate 16)
    rw [this]
    simp
  · rfl

theorem snsTarget_zero {cfg : Lc3Config} (h1 : cfg.nb = 64) (h2 : cfg.fsInd < 5) (b : Bool) :
    snsTarget cfg (List.replicate 64 (0 : ℝ)) b = .ok (List.replicate 16 0) := by
  have h := snsTarget_silence h1 h2
  unfold snsTarget at h ⊢
  obtain ⟨t, e1, h⟩ := bind_ok_inv h
  obtain ⟨p, e2, h⟩ := bind_ok_inv h
  rw [e1, Res.bind_ok, e2, Res.bind_ok]
  simp only [Res.ok.injEq] at h ⊢
  rw [show ∀ l : List ℝ, snsAttack false cfg.nMs l = l from fun _ => rfl] at h
  rw [h, snsAttack_zero]

/-- the first stage of the quantiser leaves silence with a residual that is not zero in the last entries -/
theorem silence_residual {lf hf : Nat} {st1 r1 : List ℝ} (h : snsStage1 (List.replicate 16 (0 : ℝ)) = .ok (lf, hf, st1, r1)) :
    ∃ a ∈ (snsRotate r1).drop 10, a ≠ 0 := by
  obtain ⟨lf', hf', a, b, ha, hb, e3⟩ := snsStage1_ok (scf := List.replicate 16 (0 : ℝ)) (by simp)
  rw [e3] at h
  have e4 := congrArg (fun p => p.2.2.2) (Res.ok.inj h)
  simp only at e4
  subst e4
  have hl : (a ++ b).length = 16 := by
    rw [List.length_append, LFCB_shape.2 a (List.mem_of_getElem? ha), HFCB_shape.2 b (List.mem_of_getElem? hb)]
  have er : ((List.replicate 16 (0 : ℝ)).zip ((a ++ b).map ofRat)).map (fun p => p.1 - p.2) = castL ((a ++ b).map fun q : ℚ => -q) := by
    have key : ∀ z : List ℝ, z.length = 16 → (∀ v ∈ z, v = 0) →
        (z.zip ((a ++ b).map ofRat)).map (fun p => p.1 - p.2) = castL ((a ++ b).map fun q : ℚ => -q) := by
      intro z hz h0
      apply List.ext_getElem
      · rw [List.length_append] at hl; simp [castL]; omega
      · intro i h1 h2
        simp only [castL, List.getElem_map, List.getElem_zip]
        rw [h0 _ (List.getElem_mem _), Rat.cast_neg]
        exact zero_sub _
    exact key _ (by simp) (fun v hv => List.eq_of_mem_replicate hv)
  have hs := silence_col
  rw [List.all_eq_true] at hs
  have hs := hs a (List.mem_of_getElem? ha)
  rw [List.all_eq_true] at hs
  have hs := hs b (List.mem_of_getElem? hb)
  have hg := rotate_cast ((a ++ b).map fun q : ℚ => -q) 10 (by omega)
  rw [← er] at hg
  refine ⟨_, List.mem_iff_getElem?.2 ⟨0, (List.getElem?_drop).trans hg⟩, ?_⟩
  rw [Ne, Rat.cast_eq_zero]
  exact of_decide_eq_true hs

theorem shapeLoop_zero (tab : List Nat) : ∀ (g : List ℝ) (b : Nat) (l r : List ℝ), AllZero l → shapeLoop tab b g l = .ok r → AllZero r := by
  intro g
  induction g with
  | nil => intro b l r h0 h; cases h; exact h0
  | cons a g ih =>
    intro b l r h0 h
    rw [shapeLoop] at h
    obtain ⟨i, -, h⟩ := bind_ok_inv h
    obtain ⟨j, -, h⟩ := bind_ok_inv h
    obtain ⟨m, e, h⟩ := bind_ok_inv h
    refine ih _ _ _ ?_ h
    unfold scaleRange at e
    split at e
    · cases e
      refine ((h0.take _).append ?_).append (h0.drop _)
      intro v hv
      obtain ⟨w, hw, rfl⟩ := List.mem_map.1 hv
      rw [((h0.take _).drop _) w hw, zero_mul]
    · cases e

theorem snsEncRun_zero {cfg : Lc3Config} {x eb : List ℝ} {det : Bool} {r : SnsEncResult ℝ} (h : snsEncRun cfg x eb det = .ok r)
    (h0 : AllZero x) : AllZero r.x := by
  unfold snsEncRun at h
  split at h
  · cases h
  obtain ⟨_, -, h⟩ := bind_ok_inv h
  obtain ⟨⟨_, _, _, _⟩, -, h⟩ := bind_ok_inv h
  simp only at h
  obtain ⟨_, -, h⟩ := bind_ok_inv h
  obtain ⟨_, -, h⟩ := bind_ok_inv h
  obtain ⟨_, -, h⟩ := bind_ok_inv h
  obtain ⟨y, e, h⟩ := bind_ok_inv h
  cases h
  exact shapeLoop_zero _ _ _ _ _ h0 e

theorem dotS_zero : ∀ {l m : List ℝ}, AllZero l → dotS l m = 0 := by
  have hz : (zero : ℝ) = 0 := Rat.cast_zero
  intro l m h
  unfold dotS
  rw [hz]
  induction l generalizing m with
  | nil => rfl
  | cons a l ih =>
    cases m with
    | nil => rfl
    | cons b m =>
      have := ih (m := m) fun v hv => h v (by simp [hv])
      simp only [List.zip_cons_cons, List.foldl_cons, h a (by simp), zero_mul, add_zero]
      exact this

theorem sliceR_zero {l p : List ℝ} {a b : Nat} (h : sliceR l a b = .ok p) (h0 : AllZero l) : AllZero p := by
  unfold sliceR at h
  split at h
  · cases h
    first | exact (h0.drop _).take _ | exact (h0.take _).drop _
  · cases h

theorem tnsCorrParts_zero {x : List ℝ} (h0 : AllZero x) (k : Nat) : ∀ (sub : List (Nat × Nat)) (e r e' r' : ℝ),
    tnsCorrParts x k sub e r = .ok (e', r') → r' = r := by
  have hz : (zero : ℝ) = 0 := Rat.cast_zero
  intro sub
  induction sub with
  | nil => intro e r e' r' h; cases h; rfl
  | cons p sub ih =>
    intro e r e' r' h
    obtain ⟨a, b⟩ := p
    rw [tnsCorrParts] at h
    obtain ⟨part, e1, h⟩ := bind_ok_inv h
    obtain ⟨ac, e2, h⟩ := bind_ok_inv h
    have : ac = 0 := by
      split at e2
      · obtain ⟨sh, -, e2⟩ := bind_ok_inv e2
        cases e2
        exact dotS_zero (sliceR_zero e1 h0)
      · cases e2; exact hz
    rw [ih _ _ _ _ h, this, zero_div, add_zero]

theorem tnsCorrFrom_zero {x : List ℝ} (h0 : AllZero x) (sub : List (Nat × Nat)) : ∀ (ws : List Rat) (k : Nat) (r : List ℝ), 1 ≤ k →
    tnsCorrFrom x sub k ws = .ok r → AllZero r := by
  have hz : (zero : ℝ) = 0 := Rat.cast_zero
  intro ws
  induction ws with
  | nil => intro k r _ h; cases h; intro v hv; cases hv
  | cons w ws ih =>
    intro k r hk h
    rw [tnsCorrFrom] at h
    obtain ⟨⟨e, s⟩, e1, h⟩ := bind_ok_inv h
    simp only at h
    obtain ⟨rest, e2, h⟩ := bind_ok_inv h
    cases h
    have hs : s = 0 := (tnsCorrParts_zero h0 _ _ _ _ _ _ e1).trans hz
    intro v hv
    rcases List.mem_cons.1 hv with rfl | hv
    · rw [if_neg (show ¬ k = 0 by omega), hs, hz, ite_self, zero_mul]
    · exact ih _ _ (by omega) e2 v hv

theorem tnsCorr_zero {x : List ℝ} (h0 : AllZero x) {sub : List (Nat × Nat)} {r : List ℝ} (h : tnsCorr x sub = .ok r) (k : Nat)
    (hk : 1 ≤ k) : at0 r k = 0 := by
  have hz : (zero : ℝ) = 0 := Rat.cast_zero
  unfold tnsCorr LAG_WINDOW at h
  rw [tnsCorrFrom] at h
  obtain ⟨⟨e, s⟩, e1, h⟩ := bind_ok_inv h
  simp only at h
  obtain ⟨rest, e2, h⟩ := bind_ok_inv h
  cases h
  have := tnsCorrFrom_zero h0 sub _ _ _ (le_refl 1) e2
  obtain ⟨k, rfl⟩ : ∃ j, k = j + 1 := ⟨k - 1, by omega⟩
  unfold at0
  rw [hz, List.getD_cons_succ]
  exact this.getD k

theorem levinson_zero {r : List ℝ} (h : ∀ k, 1 ≤ k → at0 r k = 0) : (levinson r).2 = at0 r 0 := by
  have hz : (zero : ℝ) = 0 := Rat.cast_zero
  have ho : (one : ℝ) = 1 := Rat.cast_one
  have hstep : ∀ k (s : List ℝ × ℝ), 1 ≤ k → (levStep r k s).2 = s.2 := by
    intro k s hk
    have hf : ∀ l : List Nat, (∀ n ∈ l, n < k) → l.foldl (fun c n => c - at0 s.1 n * at0 r (k - n)) (0 : ℝ) = 0 := by
      intro l
      induction l with
      | nil => intro _; rfl
      | cons n l ih =>
        intro hl
        rw [List.foldl_cons, h (k - n) (by have := hl n (by simp); omega), mul_zero, sub_zero]
        exact ih fun m hm => hl m (by simp [hm])
    unfold levStep
    simp only
    rw [hz, hf _ (fun n hn => List.mem_range.1 hn), zero_div, ite_self, ho]
    ring
  unfold levinson
  have key : ∀ (l : List Nat) (s : List ℝ × ℝ), (l.foldl (fun s k => levStep r (k + 1) s) s).2 = s.2 := by
    intro l
    induction l with
    | nil => intro s; rfl
    | cons k l ih => intro s; rw [List.foldl_cons, ih, hstep _ _ (by omega)]
  exact key _ _

theorem tnsAnalysis_zero {r : List ℝ} (h : ∀ k, 1 ≤ k → at0 r k = 0) (nn : Bool) (w : Nat) :
    tnsAnalysis r nn w = List.replicate 8 0 := by
  have hz : (zero : ℝ) = 0 := Rat.cast_zero
  have hl := levinson_zero h
  unfold tnsAnalysis
  generalize levinson r = ae at *
  obtain ⟨a, e⟩ := ae
  simp only at hl ⊢
  subst hl
  have : lt (ofRat (3 / 2) : ℝ) (if eq (at0 r 0) zero then at0 r 0 else at0 r 0 / at0 r 0) = false := by
    show decide ((((3 / 2 : ℚ)) : ℝ) < (if decide (at0 r 0 = zero) then at0 r 0 else at0 r 0 / at0 r 0)) = false
    rw [hz]
    by_cases h : at0 r 0 = 0
    · simp [h]; norm_num
    · simp [h]; norm_num
  rw [this]
  simp [hz]

theorem stableTns_zero {cfg : Lc3Config} {x : List ℝ} (h0 : AllZero x) (bw nbits : Nat) (nn : Bool) : StableTns cfg x bw nbits nn := by
  intro p hp s hs r hr c hc
  rw [tnsAnalysis_zero (tnsCorr_zero h0 hr)] at hc
  rw [List.eq_of_mem_replicate hc]
  norm_num

theorem tnsFilterInts_zero {x : List ℝ} (h0 : AllZero x) {nn : Bool} {w : Nat} {sub : List (Nat × Nat)} {l : List Nat}
    (h : tnsFilterInts x nn w sub = .ok l) : l = List.replicate 8 8 := by
  unfold tnsFilterInts at h
  obtain ⟨r, e, h⟩ := bind_ok_inv h
  rw [tnsAnalysis_zero (tnsCorr_zero h0 e)] at h
  have h8 : tnsIndex (0 : ℝ) = .ok 8 := tnsIndex_small (by norm_num)
  simp only [List.replicate, List.mapM_cons, h8, List.mapM_nil, Res.bind_ok, pure] at h
  cases h
  rfl

/-- temporal noise shaping of silence: no coefficient, one bit for each filter -/
theorem tnsEncRun_zero {cfg : Lc3Config} {x : List ℝ} {bw nbits : Nat} {nn : Bool} {res : TnsResult ℝ} (h0 : AllZero x)
    (h : tnsEncRun cfg x bw nbits nn = .ok res) :
    res.nbitsTns = res.numFilters ∧ res.rcOrder = [0, 0] ∧ res.rcI = List.replicate 16 8 ∧ res.lines = x ∧ res.numFilters ≤ 2 ∧
      1 ≤ res.numFilters := by
  unfold tnsEncRun at h
  split at h
  · cases h
  obtain ⟨p, e1, h⟩ := bind_ok_inv h
  simp only at h
  obtain ⟨ints, e2, h⟩ := bind_ok_inv h
  obtain ⟨bits, e3, h⟩ := bind_ok_inv h
  obtain ⟨lines, e4, h⟩ := bind_ok_inv h
  cases h
  simp only
  obtain ⟨n1, n2, hnum⟩ : 1 ≤ p.numFilters ∧ p.numFilters ≤ 2 ∧ p.subs.length = p.numFilters := by
    revert e1
    unfold tnsParams
    split <;> intro e1 <;> cases e1 <;> simp
  have hints : ints = List.replicate p.numFilters (List.replicate 8 8) := by
    have hf := mapM_forall₂ e2
    rw [List.eq_replicate_iff]
    refine ⟨by rw [← hf.length_eq, hnum], fun l hl => ?_⟩
    obtain ⟨i, hi, rfl⟩ := List.mem_iff_getElem.1 hl
    exact tnsFilterInts_zero h0 (List.forall₂_iff_get.1 hf |>.2 i (by have := hf.length_eq; omega) hi)
  have hb1 : tnsFilterBits ℝ (lpcWeightingOf cfg.nMs nbits) (List.replicate 8 8) = .ok 1 := by
    unfold tnsFilterBits
    simp only
    rw [show tnsOrder (List.replicate 8 8) = 0 from by decide]
    show Res.ok (min 18446744073709551615 ⌊((⌈(((2048 : ℚ) : ℝ) + ((((0 : ℕ) : ℤ) : ℚ) : ℝ) + ((((0 : ℕ) : ℤ) : ℚ) : ℝ)) / ((2048 : ℚ) : ℝ)⌉ : ℤ) : ℝ)⌋₊) = _
    have : ⌈(((2048 : ℚ) : ℝ) + ((((0 : ℕ) : ℤ) : ℚ) : ℝ) + ((((0 : ℕ) : ℤ) : ℚ) : ℝ)) / ((2048 : ℚ) : ℝ)⌉ = 1 := by
      rw [Int.ceil_eq_iff]; norm_num
    rw [this]
    norm_num
  subst hints
  have hfil : ∀ bands : List (Nat × Nat), ∀ n, ∀ st : List ℝ,
      tnsFilterLoop bands ((List.replicate n (List.replicate 8 8)).map fun l => (l.take (tnsOrder l)).map (tnsQuant (α := ℝ))) x st = .ok x := by
    intro bands
    induction bands with
    | nil => intro n st; rw [tnsFilterLoop]; simp
    | cons q bands ih =>
      intro n st
      obtain ⟨a, b⟩ := q
      cases n with
      | zero => simp [tnsFilterLoop]
      | succ n =>
        rw [List.replicate_succ, List.map_cons, tnsFilterLoop, if_neg]
        · exact ih n st
        · rw [show tnsOrder (List.replicate 8 8) = 0 from by decide]
          simp
  rw [hfil] at e4
  cases e4
  obtain hn | hn : p.numFilters = 1 ∨ p.numFilters = 2 := by omega
  · rw [hn] at e3 ⊢
    simp only [List.replicate_one, List.mapM_cons, hb1, List.mapM_nil, Res.bind_ok, pure] at e3
    cases e3
    exact ⟨rfl, by decide, by decide, rfl, by omega, by omega⟩
  · rw [hn] at e3 ⊢
    rw [show List.replicate 2 (List.replicate 8 8) = [List.replicate 8 8, List.replicate 8 8] from rfl] at e3 ⊢
    simp only [List.mapM_cons, hb1, List.mapM_nil, Res.bind_ok, pure] at e3
    cases e3
    exact ⟨rfl, by decide, by decide, rfl, by omega, by omega⟩

end Lc3
