import Verif.Lemmas.Silence32Sns
/-!
# Digital silence in binary32: temporal noise shaping
-/

namespace Lc3
open Scalar Tables Spec
namespace F32

variable {el : Elem}

/-- all values are the number zero -/
def AllZ (l : List F32) : Prop := ∀ v ∈ l, v = fin 0

theorem AllZ.zn {l : List F32} (h : AllZ l) : AllZn l := fun v hv => Or.inl (h v hv)

theorem energy_zero : ∀ (l : List F32), AllZ l → l.foldl (fun s v => F32.add s (F32.mul v v)) (fin 0) = fin 0
  | [], _ => rfl
  | a :: l, h => by
    have hm : F32.add (fin 0) (F32.mul a a) = fin 0 := by
      rw [h a (by simp)]
      show F32.add (fin 0) (rnd (0 * 0)) = fin 0
      rw [zero_mul, rnd_zero]
      show rnd (0 + 0) = fin 0
      rw [add_zero, rnd_zero]
    rw [List.foldl_cons, hm]
    exact energy_zero l fun v hv => h v (by simp [hv])

theorem tnsCorrParts_zero32 {x : List F32} (h0 : AllZ x) (k : Nat) : ∀ (sub : List (Nat × Nat)) (e r e' r' : F32), IsFin e → (sub ≠ [] ∨ e = fin 0) →
    @tnsCorrParts F32 (scalar el) x k sub e r = .ok (e', r') → e' = fin 0 := by
  letI := scalar el
  intro sub
  induction sub with
  | nil =>
    intro e r e' r' _ hs h
    cases h
    rcases hs with hs | hs
    · exact absurd rfl hs
    · exact hs
  | cons p sub ih =>
    intro e r e' r' he _ h
    obtain ⟨a, b⟩ := p
    rw [tnsCorrParts] at h
    obtain ⟨part, e1, h⟩ := bind_ok_inv h
    obtain ⟨ac, e2, h⟩ := bind_ok_inv h
    have hes : part.foldl (fun s v => s + v * v) (zero : F32) = fin 0 := by
      have := energy_zero part fun v hv => h0 v (sliceR_mem e1 v hv)
      have hz : (zero : F32) = fin 0 := rnd_zero
      rw [hz]
      exact this
    have he0 : e * part.foldl (fun s v => s + v * v) (zero : F32) = fin 0 := by
      rw [hes]
      obtain ⟨q, rfl⟩ := he
      show rnd (q * 0) = fin 0
      rw [mul_zero, rnd_zero]
    rw [he0] at h
    exact ih _ _ _ _ ⟨0, rfl⟩ (Or.inr rfl) h

theorem tnsCorrFrom_zero32 {x : List F32} (h0 : AllZ x) {sub : List (Nat × Nat)} (hs : sub ≠ []) : ∀ (ws : List Rat) (k : Nat) (r : List F32), 1 ≤ k →
    @tnsCorrFrom F32 (scalar el) x sub k ws = .ok r → AllZn r := by
  letI := scalar el
  have ho : (one : F32) = rnd 1 := rfl
  intro ws
  induction ws with
  | nil => intro k r _ h; cases h; intro v hv; cases hv
  | cons w ws ih =>
    intro k r hk h
    rw [tnsCorrFrom] at h
    obtain ⟨⟨e, s⟩, e1, h⟩ := bind_ok_inv h
    simp only at h
    obtain ⟨rest, e2, h⟩ := bind_ok_inv h
    cases h
    have he : e = fin 0 := tnsCorrParts_zero32 h0 _ _ _ _ _ _ (by rw [ho, show (1 : ℚ) = ((1 : ℤ) : ℚ) by norm_num, rnd_int (by norm_num)]; exact ⟨_, rfl⟩) (Or.inl hs) e1
    intro v hv
    rcases List.mem_cons.1 hv with rfl | hv
    · have : Scalar.eq e (zero : F32) = true := by
        rw [he]
        show F32.eq (fin 0) (rnd 0) = true
        rw [rnd_zero]
        exact decide_eq_true (p := (0 : ℚ) = 0) rfl
      rw [if_neg (show ¬ k = 0 by omega), this, if_pos rfl]
      exact Zn.mul zero_zn _
    · exact ih _ _ (by omega) e2 v hv

theorem tnsCorr_zero32 {x : List F32} (h0 : AllZ x) {sub : List (Nat × Nat)} (hs : sub ≠ []) {r : List F32}
    (h : @tnsCorr F32 (scalar el) x sub = .ok r) : @at0 F32 (scalar el) r 0 = fin 3 ∧ ∀ k, 1 ≤ k → Zn (@at0 F32 (scalar el) r k) := by
  letI := scalar el
  have ho : (one : F32) = rnd 1 := rfl
  unfold tnsCorr LAG_WINDOW at h
  rw [tnsCorrFrom] at h
  obtain ⟨⟨e, s⟩, e1, h⟩ := bind_ok_inv h
  simp only at h
  obtain ⟨rest, e2, h⟩ := bind_ok_inv h
  cases h
  have he : e = fin 0 := tnsCorrParts_zero32 h0 _ _ _ _ _ _ (by rw [ho, show (1 : ℚ) = ((1 : ℤ) : ℚ) by norm_num, rnd_int (by norm_num)]; exact ⟨_, rfl⟩) (Or.inl hs) e1
  have hz := tnsCorrFrom_zero32 h0 hs _ _ _ (le_refl 1) e2
  constructor
  · have : Scalar.eq e (zero : F32) = true := by
      rw [he]
      show F32.eq (fin 0) (rnd 0) = true
      rw [rnd_zero]
      exact decide_eq_true (p := (0 : ℚ) = 0) rfl
    unfold at0
    rw [List.getD_cons_zero, this]
    show F32.mul (rnd 3) (rnd 1) = fin 3
    rw [← rndK_eq, ← mulK_eq]
    decide +kernel
  · intro k hk
    obtain ⟨k, rfl⟩ : ∃ j, k = j + 1 := ⟨k - 1, by omega⟩
    have := at0_zn (el := el) hz k
    unfold at0 at this ⊢
    rw [List.getD_cons_succ]
    exact this

theorem levinson_zero32 {r : List F32} (h3 : @at0 F32 (scalar el) r 0 = fin 3) (h : ∀ k, 1 ≤ k → Zn (@at0 F32 (scalar el) r k)) :
    (@levinson F32 (scalar el) r).2 = fin 3 ∨ (@levinson F32 (scalar el) r).2 = nan := by
  letI := scalar el
  have hstep : ∀ k (s : List F32 × F32), 1 ≤ k → (s.2 = fin 3 ∨ s.2 = nan) → ((levStep r k s).2 = fin 3 ∨ (levStep r k s).2 = nan) := by
    intro k s hk hs
    have hf : ∀ (l : List Nat) (c : F32), Zn c → (∀ n ∈ l, n < k) → Zn (l.foldl (fun c n => c - at0 s.1 n * at0 r (k - n)) c) := by
      intro l
      induction l with
      | nil => intro c hc _; exact hc
      | cons n l ih =>
        intro c hc hl
        rw [List.foldl_cons]
        exact ih _ (hc.sub (Zn.mul' (h (k - n) (by have := hl n (by simp); omega)) _)) fun m hm => hl m (by simp [hm])
    unfold levStep
    simp only
    have hrc := hf (List.range k) zero zero_zn fun n hn => List.mem_range.1 hn
    generalize (List.range k).foldl (fun c n => c - at0 s.1 n * at0 r (k - n)) (zero : F32) = c at hrc
    have hrc' : Zn (if Scalar.eq s.2 (zero : F32) = true then c else c / s.2) := by
      split
      · exact hrc
      · exact hrc.div _
    generalize (if Scalar.eq s.2 (zero : F32) = true then c else c / s.2) = c' at hrc'
    have h1 : F32.add (rnd 1) (F32.neg (fin 0)) = fin 1 := by rw [← rndK_eq, ← addK_eq]; decide +kernel
    have h3 : F32.mul (fin 3) (fin 1) = fin 3 := by rw [← mulK_eq]; decide +kernel
    show F32.mul s.2 (F32.add (rnd 1) (F32.neg (F32.mul c' c'))) = _ ∨ F32.mul s.2 (F32.add (rnd 1) (F32.neg (F32.mul c' c'))) = _
    rcases hrc'.mul c' with e | e
    · rw [e, h1]
      rcases hs with hs | hs
      · left; rw [hs, h3]
      · right; rw [hs]; rfl
    · right
      rw [e]
      have : F32.add (rnd 1) (F32.neg nan) = nan := by
        cases rnd 1 <;> rfl
      rw [this]
      cases s.2 <;> rfl
  unfold levinson
  have key : ∀ (l : List Nat) (s : List F32 × F32), (s.2 = fin 3 ∨ s.2 = nan) → ((l.foldl (fun s k => levStep r (k + 1) s) s).2 = fin 3 ∨
      (l.foldl (fun s k => levStep r (k + 1) s) s).2 = nan) := by
    intro l
    induction l with
    | nil => intro s hs; exact hs
    | cons k l ih => intro s hs; rw [List.foldl_cons]; exact ih _ (hstep _ _ (by omega) hs)
  exact key _ _ (Or.inl h3)

theorem tnsAnalysis_zero32 {r : List F32} (h3 : @at0 F32 (scalar el) r 0 = fin 3) (h : ∀ k, 1 ≤ k → Zn (@at0 F32 (scalar el) r k)) (nn : Bool) (w : Nat) :
    @tnsAnalysis F32 (scalar el) r nn w = List.replicate 8 (fin 0) := by
  letI := scalar el
  have hl := levinson_zero32 h3 h
  unfold tnsAnalysis
  generalize levinson r = ae at *
  obtain ⟨a, e⟩ := ae
  simp only at hl ⊢
  rw [h3]
  have : Scalar.lt (ofRat (3 / 2) : F32) (if Scalar.eq e (zero : F32) then fin 3 else fin 3 / e) = false := by
    show F32.lt (rnd (3 / 2)) (if F32.eq e (rnd 0) = true then fin 3 else F32.div (fin 3) e) = false
    rw [rnd_zero]
    rcases hl with rfl | rfl
    · have e1 : F32.eq (fin 3) (fin 0) = false := decide_eq_false (p := (3 : ℚ) = 0) (by norm_num)
      rw [e1, if_neg (by simp), ← rndK_eq, ← divK_eq]
      decide +kernel
    · rw [show F32.eq nan (fin 0) = false from rfl, if_neg (by simp)]
      rw [show F32.div (fin 3) nan = nan from rfl]
      cases rnd (3 / 2) <;> rfl
  rw [this]
  simp only [Bool.false_and, Bool.false_eq_true, if_false]
  rw [show (zero : F32) = fin 0 from rnd_zero]

/-- an angle far below half a step rounds to no step -/
theorem tnsToInt_tiny {a : F32} (h : Bd (1 / 2 ^ 10) a) : @tnsToInt F32 (scalar el) a = 0 := by
  obtain ⟨⟨q, rfl⟩, hb⟩ := h
  have hb' : |(q : ℝ)| ≤ 1 / 2 ^ 10 := hb
  have hbq : |q| ≤ 1 / 2 ^ 10 := by
    have : ((|q| : ℚ) : ℝ) ≤ ((1 / 2 ^ 10 : ℚ) : ℝ) := by push_cast; exact hb'
    exact_mod_cast this
  have hhalf : rnd (1 / 2) = fin (1 / 2) := by rw [← rndK_eq]; decide +kernel
  have key : ∀ s : ℚ, 0 ≤ s → s ≤ 1 / 2 ^ 10 → ∃ t : ℚ, F32.add (fin s) (rnd (1 / 2)) = fin t ∧ 0 ≤ t ∧ t < 1 := by
    intro s h0 h1
    rw [hhalf]
    have hs : ((s + 1 / 2 : ℚ) : ℝ) ≤ 3 / 4 := by
      have : s + 1 / 2 ≤ 3 / 4 := by norm_num at h1; linarith
      have : ((s + 1 / 2 : ℚ) : ℝ) ≤ ((3 / 4 : ℚ) : ℝ) := by exact_mod_cast this
      refine this.trans (by norm_num)
    have hlo : (1 / 2 : ℝ) ≤ ((s + 1 / 2 : ℚ) : ℝ) := by
      have : (1 / 2 : ℚ) ≤ s + 1 / 2 := by linarith
      have : ((1 / 2 : ℚ) : ℝ) ≤ ((s + 1 / 2 : ℚ) : ℝ) := by exact_mod_cast this
      simpa using this
    have hs0 : (0 : ℝ) ≤ ((s + 1 / 2 : ℚ) : ℝ) := le_trans (by norm_num) hlo
    obtain ⟨⟨t, ht⟩, hv⟩ := rnd_val (x := s + 1 / 2) (by rw [abs_of_nonneg hs0]; exact hs.trans (by norm_num))
    refine ⟨t, ht, ?_⟩
    rw [ht] at hv
    have hv' : |(t : ℝ) - ((s + 1 / 2 : ℚ) : ℝ)| ≤ |((s + 1 / 2 : ℚ) : ℝ)| / 2 ^ 24 + 1 / 2 ^ 150 := hv
    generalize ((s + 1 / 2 : ℚ) : ℝ) = S at *
    rw [abs_of_nonneg hs0] at hv'
    rw [abs_le] at hv'
    norm_num at hv'
    constructor
    · have : (0 : ℝ) ≤ t := by linarith [hv'.1]
      exact_mod_cast this
    · have : (t : ℝ) < 1 := by linarith [hv'.2]
      exact_mod_cast this
  unfold tnsToInt geS toI8
  by_cases h0 : 0 ≤ q
  · have hge : (@Scalar.lt F32 (scalar el) (@Scalar.zero F32 (scalar el)) (fin q) || @Scalar.eq F32 (scalar el) (fin q) (@Scalar.zero F32 (scalar el))) = true := by
      show (F32.lt (rnd 0) (fin q) || F32.eq (fin q) (rnd 0)) = true
      rw [rnd_zero]
      show (decide (0 < q) || decide (q = 0)) = true
      rcases h0.lt_or_eq with h | h
      · simp [h]
      · simp [h.symm]
    rw [hge, if_pos rfl]
    obtain ⟨t, ht, t0, t9⟩ := key q h0 (by rwa [abs_of_nonneg h0] at hbq)
    obtain ⟨k1, k2, k3⟩ := (truncQ_bounds t).1 t0
    have k4 : truncQ t < 1 := by
      have : (truncQ t : ℚ) < ((1 : ℤ) : ℚ) := by push_cast; linarith
      exact_mod_cast this
    show max (-128) (min 127 (F32.toI32 (F32.add (fin q) (rnd (1 / 2))))) = 0
    rw [ht]
    show max (-128) (min 127 (max (-2147483648) (min 2147483647 (truncQ t)))) = 0
    omega
  · push Not at h0
    have hge : (@Scalar.lt F32 (scalar el) (@Scalar.zero F32 (scalar el)) (fin q) || @Scalar.eq F32 (scalar el) (fin q) (@Scalar.zero F32 (scalar el))) = false := by
      show (F32.lt (rnd 0) (fin q) || F32.eq (fin q) (rnd 0)) = false
      rw [rnd_zero]
      show (decide (0 < q) || decide (q = 0)) = false
      simp [h0.le, h0.ne]
    rw [hge, if_neg (by simp)]
    obtain ⟨t, ht, t0, t9⟩ := key (-q) (by linarith) (by rwa [abs_of_neg h0] at hbq)
    obtain ⟨k1, k2, k3⟩ := (truncQ_bounds (-t)).2 (by linarith)
    have k4 : -1 < truncQ (-t) := by
      have : ((-1 : ℤ) : ℚ) < (truncQ (-t) : ℚ) := by push_cast; linarith
      exact_mod_cast this
    show max (-128) (min 127 (F32.toI32 (F32.neg (F32.add (fin (-q)) (rnd (1 / 2)))))) = 0
    rw [ht]
    show max (-128) (min 127 (max (-2147483648) (min 2147483647 (truncQ (-t))))) = 0
    omega

theorem tnsIndex_zero32 (he : EncFunctions el) : @tnsIndex F32 (scalar el) (fin 0) = .ok 8 := by
  letI := scalar el
  obtain ⟨c, hc, hb⟩ := he.asin 0 (by norm_num)
  have hq : Bd (1 / 2 ^ 10) (F32.div (el.asin (fin 0)) el.piOver17) := by
    rw [hc, he.step]
    show Bd _ (if (12401689 / 67108864 : ℚ) = 0 then _ else rnd (c / (12401689 / 67108864)))
    rw [if_neg (by norm_num)]
    have : |((c / (12401689 / 67108864) : ℚ) : ℝ)| ≤ 1 / 2 ^ 11 := by
      rw [Rat.cast_zero, Real.arcsin_zero, sub_zero] at hb
      push_cast
      rw [abs_div]
      have : |(12401689 / 67108864 : ℝ)| = 12401689 / 67108864 := abs_of_pos (by norm_num)
      rw [this, div_le_iff₀ (by norm_num)]
      refine hb.trans (by norm_num)
    exact (bd_rnd this (by norm_num) (by norm_num)).mono (by norm_num)
  unfold tnsIndex
  have h0 : tnsToInt (Scalar.asin (fin 0) / (piOver17 : F32)) = 0 := tnsToInt_tiny hq
  rw [h0]
  rfl

theorem tnsParams_subs {d : FrameDuration} {bw : Nat} {p : TnsParams} (h : tnsParams d bw = .ok p) :
    1 ≤ p.numFilters ∧ p.numFilters ≤ 2 ∧ p.subs.length = p.numFilters ∧ ∀ s ∈ p.subs, s ≠ [] := by
  revert h
  unfold tnsParams
  split <;> intro h <;> cases h <;> simp

theorem noUnit_zero32 {cfg : Lc3Config} {x : List F32} (h0 : AllZ x) (bw nbits : Nat) (nn : Bool) : NoUnit el cfg x bw nbits nn := by
  intro p hp s hs r hr c hc
  obtain ⟨h3, h1⟩ := tnsCorr_zero32 h0 ((tnsParams_subs hp).2.2.2 s hs) hr
  rw [tnsAnalysis_zero32 h3 h1] at hc
  rw [List.eq_of_mem_replicate hc]
  constructor <;> simp

theorem tnsFilterInts_zero32 (he : EncFunctions el) {x : List F32} (h0 : AllZ x) {nn : Bool} {w : Nat} {sub : List (Nat × Nat)} (hs : sub ≠ []) {l : List Nat}
    (h : @tnsFilterInts F32 (scalar el) x nn w sub = .ok l) : l = List.replicate 8 8 := by
  letI := scalar el
  unfold tnsFilterInts at h
  obtain ⟨r, e, h⟩ := bind_ok_inv h
  obtain ⟨h3, h1⟩ := tnsCorr_zero32 h0 hs e
  rw [tnsAnalysis_zero32 h3 h1] at h
  have h8 : tnsIndex (fin 0) = .ok 8 := tnsIndex_zero32 he
  simp only [List.replicate, List.mapM_cons, h8, List.mapM_nil, Res.bind_ok, pure] at h
  cases h
  rfl

/-- temporal noise shaping of silence: no coefficient, one bit for each filter -/
theorem tnsEncRun_zero32 (he : EncFunctions el) {cfg : Lc3Config} {x : List F32} {bw nbits : Nat} {nn : Bool} {res : TnsResult F32} (h0 : AllZ x)
    (h : @tnsEncRun F32 (scalar el) cfg x bw nbits nn = .ok res) :
    res.nbitsTns = res.numFilters ∧ res.rcOrder = [0, 0] ∧ res.rcI = List.replicate 16 8 ∧ res.lines = x ∧ res.numFilters ≤ 2 ∧
      1 ≤ res.numFilters := by
  letI := scalar el
  unfold tnsEncRun at h
  split at h
  · cases h
  obtain ⟨p, e1, h⟩ := bind_ok_inv h
  simp only at h
  obtain ⟨ints, e2, h⟩ := bind_ok_inv h
  obtain ⟨bits, e3, h⟩ := bind_ok_inv h
  obtain ⟨lines, e4, h⟩ := bind_ok_inv h
  cases h
  simp only
  obtain ⟨n1, n2, hnum, hne⟩ := tnsParams_subs e1
  have hints : ints = List.replicate p.numFilters (List.replicate 8 8) := by
    have hf := mapM_forall₂ e2
    rw [List.eq_replicate_iff]
    refine ⟨by rw [← hf.length_eq, hnum], fun l hl => ?_⟩
    obtain ⟨i, hi, rfl⟩ := List.mem_iff_getElem.1 hl
    have hi' : i < p.subs.length := by have := hf.length_eq; omega
    exact tnsFilterInts_zero32 he h0 (hne _ (List.getElem_mem hi')) (List.forall₂_iff_get.1 hf |>.2 i hi' hi)
  have hb1 : tnsFilterBits F32 (lpcWeightingOf cfg.nMs nbits) (List.replicate 8 8) = .ok 1 := by
    unfold tnsFilterBits
    simp only
    rw [show tnsOrder (List.replicate 8 8) = 0 from by decide]
    show Res.ok (F32.toUsize (ceilF (F32.div (F32.add (F32.add (rnd 2048) (rnd (((0 : ℕ) : ℤ) : ℚ))) (rnd (((0 : ℕ) : ℤ) : ℚ))) (rnd 2048)))) = _
    rw [← rndK_eq, ← addK_eq, ← divK_eq]
    decide +kernel
  subst hints
  have hfil : ∀ bands : List (Nat × Nat), ∀ n, ∀ st : List F32,
      tnsFilterLoop bands ((List.replicate n (List.replicate 8 8)).map fun l => (l.take (tnsOrder l)).map (tnsQuant (α := F32))) x st = .ok x := by
    intro bands
    induction bands with
    | nil => intro n st; rw [tnsFilterLoop]; simp
    | cons q bands ih =>
      intro n st
      obtain ⟨a, b⟩ := q
      cases n with
      | zero => simp [tnsFilterLoop]
      | succ n =>
        rw [List.replicate_succ, List.map_cons, tnsFilterLoop, if_neg]
        · exact ih n st
        · rw [show tnsOrder (List.replicate 8 8) = 0 from by decide]
          simp
  rw [hfil] at e4
  cases e4
  obtain hn | hn : p.numFilters = 1 ∨ p.numFilters = 2 := by omega
  · rw [hn] at e3 ⊢
    simp only [List.replicate_one, List.mapM_cons, hb1, List.mapM_nil, Res.bind_ok, pure] at e3
    cases e3
    exact ⟨rfl, by decide, by decide, rfl, by omega, by omega⟩
  · rw [hn] at e3 ⊢
    rw [show List.replicate 2 (List.replicate 8 8) = [List.replicate 8 8, List.replicate 8 8] from rfl] at e3 ⊢
    simp only [List.mapM_cons, hb1, List.mapM_nil, Res.bind_ok, pure] at e3
    cases e3
    exact ⟨rfl, by decide, by decide, rfl, by omega, by omega⟩

end F32
end Lc3
