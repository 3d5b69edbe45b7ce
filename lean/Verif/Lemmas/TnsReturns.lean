import Verif.Props.TnsWitness
/-! # The encoder's temporal noise shaping returns -/

namespace Lc3
open Scalar Tables

theorem mapM_exists {β γ : Type} {f : β → Res γ} {P : γ → Prop} : ∀ {l : List β}, (∀ a ∈ l, ∃ b, f a = .ok b ∧ P b) →
    ∃ r, l.mapM f = .ok r ∧ r.length = l.length ∧ ∀ b ∈ r, P b
  | [], _ => ⟨[], rfl, rfl, by simp⟩
  | a :: l, h => by
    obtain ⟨b, hb, pb⟩ := h a (by simp)
    obtain ⟨r, hr, hl, hp⟩ := mapM_exists (l := l) fun a ha => h a (by simp [ha])
    refine ⟨b :: r, by rw [List.mapM_cons, hb, Res.bind_ok, hr]; rfl, by simp [hl], ?_⟩
    intro c hc
    rcases List.mem_cons.1 hc with rfl | hc
    · exact pb
    · exact hp c hc

section
variable {α : Type} [Scalar α]

theorem tnsCorrParts_returns (x : List α) (k : Nat) : ∀ (ps : List (Nat × Nat)) (e r : α), (∀ p ∈ ps, p.1 ≤ p.2 ∧ p.2 ≤ x.length) →
    ∃ v, tnsCorrParts x k ps e r = .ok v
  | [], e, r, _ => ⟨_, rfl⟩
  | (a, b) :: ps, e, r, h => by
    obtain ⟨h1, h2⟩ := h (a, b) (by simp)
    unfold tnsCorrParts
    rw [sliceR_ok h1 h2, Res.bind_ok]
    have : ∀ v : List α, ∃ c, (if a + k < x.length ∧ a + k < b then do
        let sh ← sliceR x (a + k) b
        Res.ok (dotS v sh)
      else .ok zero) = .ok c := by
      intro v
      split
      · rename_i hc
        rw [sliceR_ok hc.2.le h2, Res.bind_ok]
        exact ⟨_, rfl⟩
      · exact ⟨_, rfl⟩
    obtain ⟨c, hc⟩ := this ((x.take b).drop a)
    simp only
    rw [hc, Res.bind_ok]
    exact tnsCorrParts_returns x k ps _ _ fun p hp => h p (by simp [hp])

theorem tnsCorr_returns (x : List α) {sub : List (Nat × Nat)} (h : ∀ p ∈ sub, p.1 ≤ p.2 ∧ p.2 ≤ x.length) : ∃ r, tnsCorr x sub = .ok r := by
  unfold tnsCorr
  generalize LAG_WINDOW = ws
  generalize 0 = k
  induction ws generalizing k with
  | nil => exact ⟨_, rfl⟩
  | cons w ws ih =>
    obtain ⟨v, hv⟩ := tnsCorrParts_returns x k sub one zero h
    obtain ⟨r, hr⟩ := ih (k + 1)
    unfold tnsCorrFrom
    rw [hv, Res.bind_ok]
    simp only
    rw [hr, Res.bind_ok]
    exact ⟨_, rfl⟩

/-- the bits of the coefficients: every index has an entry of at most ten bits -/
theorem tnsCoefBits_returns : ∀ (l : List Nat) (k : Nat), k + l.length ≤ 8 → (∀ c ∈ l, c < 17) →
    ∃ b, tnsCoefBits k l = .ok b ∧ b ≤ 20480 * l.length
  | [], _, _, _ => ⟨0, rfl, by simp⟩
  | i :: is, k, hk, h => by
    simp only [List.length_cons] at hk
    obtain ⟨b, hb, hle⟩ := tnsCoefBits_returns is (k + 1) (by omega) fun c hc => h c (by simp [hc])
    have hrow : ∀ k < 8, ∀ i < 17, ∃ row, AC_TNS_COEF_BITS[k]? = some row ∧ ∃ v, row[i]? = some v ∧ v ≤ 20480 := by
      have : ∀ k < 8, ∀ i < 17, (match AC_TNS_COEF_BITS[k]? with
          | some row => (match row[i]? with | some v => decide (v ≤ 20480) | none => false)
          | none => false) = true := by decide
      intro k hk i hi
      have := this k hk i hi
      split at this
      · rename_i row hr
        split at this
        · rename_i v hv
          exact ⟨row, hr, v, hv, by simpa using this⟩
        · cases this
      · cases this
    obtain ⟨row, h1, v, h2, h3⟩ := hrow k (by omega) i (h i (by simp))
    unfold tnsCoefBits
    rw [(idx_ok_iff).2 h1, Res.bind_ok, (idx_ok_iff).2 h2, Res.bind_ok, hb, Res.bind_ok]
    refine ⟨_, rfl, ?_⟩
    simp only [List.length_cons]
    omega

theorem encLatticeBand_len (rc : List α) : ∀ xs st : List α, (encLatticeBand rc xs st).1.length = xs.length
  | [], _ => rfl
  | x :: xs, st => by
    unfold encLatticeBand
    simp only [List.length_cons]
    rw [encLatticeBand_len rc xs _]

theorem tnsFilterLoop_returns : ∀ (bands : List (Nat × Nat)) (rcs : List (List α)) (lines st : List α),
    (∀ p ∈ bands, p.1 ≤ p.2 ∧ p.2 ≤ lines.length) → ∃ l, tnsFilterLoop bands rcs lines st = .ok l ∧ l.length = lines.length
  | [], _, lines, _, _ => ⟨lines, by rw [tnsFilterLoop]; simp, rfl⟩
  | (a, b) :: bands, [], lines, _, _ => ⟨lines, by rw [tnsFilterLoop]; simp, rfl⟩
  | (a, b) :: bands, rc :: rcs, lines, st, h => by
    obtain ⟨h1, h2⟩ := h (a, b) (by simp)
    simp only at h1 h2
    rw [tnsFilterLoop]
    split
    · rw [sliceR_ok h1 h2, Res.bind_ok]
      simp only
      have hl : (lines.take a ++ (encLatticeBand rc ((lines.take b).drop a) st).1 ++ lines.drop b).length = lines.length := by
        rw [List.length_append, List.length_append, encLatticeBand_len, List.length_take, List.length_drop, List.length_take,
          List.length_drop]
        omega
      obtain ⟨l, e, el⟩ := tnsFilterLoop_returns bands rcs (lines.take a ++ (encLatticeBand rc ((lines.take b).drop a) st).1 ++ lines.drop b)
        (encLatticeBand rc ((lines.take b).drop a) st).2 (by
          rw [hl]
          exact fun p hp => h p (by simp [hp]))
      exact ⟨l, e, by rw [el, hl]⟩
    · exact tnsFilterLoop_returns bands rcs lines st fun p hp => h p (by simp [hp])

/-- the bands of every bandwidth lie within the lines -/
theorem tnsParams_returns {f : SamplingFrequency} {d : FrameDuration} {bw : Nat} (hb : bw ≤ (Lc3Config.new f d).fsInd) :
    ∃ p, tnsParams (Lc3Config.new f d).nMs bw = .ok p ∧ (∀ q ∈ p.bands, q.1 ≤ q.2 ∧ q.2 ≤ (Lc3Config.new f d).ne) ∧
      ∀ s ∈ p.subs, ∀ q ∈ s, q.1 ≤ q.2 ∧ q.2 ≤ (Lc3Config.new f d).ne := by
  have key : ∀ f d, ∀ bw ≤ (Lc3Config.new f d).fsInd, (match tnsParams (Lc3Config.new f d).nMs bw with
      | .ok p => decide ((∀ q ∈ p.bands, q.1 ≤ q.2 ∧ q.2 ≤ (Lc3Config.new f d).ne) ∧
          ∀ s ∈ p.subs, ∀ q ∈ s, q.1 ≤ q.2 ∧ q.2 ≤ (Lc3Config.new f d).ne)
      | _ => false) = true := by
    intro f d
    cases f <;> cases d <;> decide
  have := key f d bw hb
  split at this
  · rename_i p hp
    exact ⟨p, hp, by simpa using this⟩
  · cases this
end

/-! ## Exact arithmetic -/

/-- a reflection coefficient of magnitude below one has an index in the tables -/
theorem tnsIndex_returns {q : ℝ} (h : |q| < 1) : ∃ i, tnsIndex q = .ok i ∧ i < 17 := by
  have hp := Real.pi_pos
  obtain ⟨h1, h2⟩ := abs_lt.1 h
  have a1 : -(Real.pi / 2) < Real.arcsin q := Real.neg_pi_div_two_lt_arcsin.2 h1
  have a2 : Real.arcsin q < Real.pi / 2 := Real.arcsin_lt_pi_div_two.2 h2
  obtain ⟨v, hv⟩ : ∃ v, v = Real.arcsin q / (Real.pi / 17) := ⟨_, rfl⟩
  have v1 : -(17 / 2) < v := by
    rw [hv, lt_div_iff₀ (by positivity)]; linarith
  have v2 : v < 17 / 2 := by
    rw [hv, div_lt_iff₀ (by positivity)]; linarith
  have hhalf : (ofRat (1 / 2) : ℝ) = 1 / 2 := by
    show (((1 / 2 : ℚ)) : ℝ) = _
    push_cast; rfl
  have hz : (zero : ℝ) = 0 := by show ((0 : ℚ) : ℝ) = 0; norm_num
  have hc : ∀ w : ℝ, -9 < w → w < 9 → -8 ≤ toI8 w ∧ toI8 w ≤ 8 := by
    intro w w1 w2
    have : -8 ≤ (if 0 ≤ w then ⌊w⌋ else ⌈w⌉) ∧ (if 0 ≤ w then ⌊w⌋ else ⌈w⌉) ≤ 8 := by
      have f1 : ⌊w⌋ < 9 := Int.floor_lt.2 (by exact_mod_cast w2)
      have c1 : -9 < ⌈w⌉ := Int.lt_ceil.2 (by exact_mod_cast w1)
      split
      · rename_i h0
        have : 0 ≤ ⌊w⌋ := Int.floor_nonneg.2 h0
        omega
      · rename_i h0
        have : ⌈w⌉ ≤ 0 := Int.ceil_le.2 (by push_cast; linarith)
        omega
    show -8 ≤ max (-128) (min 127 (max (-2147483648) (min 2147483647 (if 0 ≤ w then ⌊w⌋ else ⌈w⌉)))) ∧ _ ≤ (8 : ℤ)
    show _ ∧ max (-128) (min 127 (max (-2147483648) (min 2147483647 (if 0 ≤ w then ⌊w⌋ else ⌈w⌉)))) ≤ 8
    omega
  have ht : -8 ≤ tnsToInt v ∧ tnsToInt v ≤ 8 := by
    unfold tnsToInt
    rw [hhalf]
    split
    · rename_i hg
      have h0 : 0 ≤ v := by
        unfold geS at hg
        simp only [Bool.or_eq_true] at hg
        rcases hg with hg | hg
        · have : (zero : ℝ) < v := by simpa using of_decide_eq_true hg
          rw [hz] at this; exact this.le
        · have : v = (zero : ℝ) := by simpa using of_decide_eq_true hg
          rw [this, hz]
      exact hc _ (by linarith) (by linarith)
    · rename_i hg
      have h0 : v < 0 := by
        by_contra hn
        apply hg
        unfold geS
        rw [Bool.or_eq_true]
        rcases (not_lt.1 hn).lt_or_eq with h | h
        · left; exact decide_eq_true (by rw [hz]; exact h)
        · right; exact decide_eq_true (by rw [hz]; exact h.symm)
      exact hc _ (by linarith) (by linarith)
  unfold tnsIndex
  show ∃ i, (do let v ← i8Chk (tnsToInt (Real.arcsin q / (Real.pi / 17)) + 8); Res.ok (i32AsUsize v)) = _ ∧ _
  rw [← hv]
  unfold i8Chk
  rw [if_pos (by omega), Res.bind_ok]
  refine ⟨_, rfl, ?_⟩
  unfold i32AsUsize
  omega

theorem tnsFilterBits_returns {w : Nat} (hw : w < 2) {l : List Nat} (hl : l.length = 8) (h : ∀ c ∈ l, c < 17) :
    ∃ b, tnsFilterBits ℝ w l = .ok b ∧ b ≤ 90 := by
  have ho := tnsOrder_le l
  have hob : ∃ ob, (if tnsOrder l ≠ 0 then do
      let row ← idx AC_TNS_ORDER_BITS w
      idx row (tnsOrder l - 1)
    else .ok 0) = .ok ob ∧ ob ≤ 17234 := by
    split
    · have key : ∀ w < 2, ∀ o < 8, (match AC_TNS_ORDER_BITS[w]? with
          | some row => (match row[o]? with | some v => decide (v ≤ 17234) | none => false)
          | none => false) = true := by decide
      have := key w hw (tnsOrder l - 1) (by omega)
      split at this
      · rename_i row hr
        split at this
        · rename_i v hv
          rw [(idx_ok_iff).2 hr, Res.bind_ok, (idx_ok_iff).2 hv]
          exact ⟨v, rfl, by simpa using this⟩
        · cases this
      · cases this
    · exact ⟨0, rfl, by omega⟩
  obtain ⟨ob, ho1, ho2⟩ := hob
  obtain ⟨cb, hc1, hc2⟩ := tnsCoefBits_returns (l.take (tnsOrder l)) 0 (by rw [List.length_take]; omega)
    fun c hc => h c (List.mem_of_mem_take hc)
  have hc3 : cb ≤ 163840 := by
    rw [List.length_take] at hc2
    have : min (tnsOrder l) l.length ≤ 8 := by omega
    omega
  unfold tnsFilterBits
  simp only
  rw [ho1, Res.bind_ok, hc1, Res.bind_ok]
  refine ⟨_, rfl, ?_⟩
  show min 18446744073709551615 ⌊((⌈(((2048 : ℚ) : ℝ) + (((ob : ℤ) : ℚ) : ℝ) + (((cb : ℤ) : ℚ) : ℝ)) / ((2048 : ℚ) : ℝ)⌉ : ℤ) : ℝ)⌋₊ ≤ 90
  have hce : ⌈(((2048 : ℚ) : ℝ) + (((ob : ℤ) : ℚ) : ℝ) + (((cb : ℤ) : ℚ) : ℝ)) / ((2048 : ℚ) : ℝ)⌉ ≤ 90 := by
    rw [Int.ceil_le]
    have h1 : (ob : ℝ) ≤ 17234 := by exact_mod_cast ho2
    have h2 : (cb : ℝ) ≤ 163840 := by exact_mod_cast hc3
    push_cast
    rw [div_le_iff₀ (by norm_num)]
    linarith
  have : ⌊((⌈(((2048 : ℚ) : ℝ) + (((ob : ℤ) : ℚ) : ℝ) + (((cb : ℤ) : ℚ) : ℝ)) / ((2048 : ℚ) : ℝ)⌉ : ℤ) : ℝ)⌋₊ ≤ 90 := by
    apply Nat.floor_le_of_le
    exact_mod_cast hce
  omega

/-- all reflection coefficients of the filters of this spectrum have a magnitude below one -/
def StableTns (cfg : Lc3Config) (x : List ℝ) (bw nbits : Nat) (nn : Bool) : Prop :=
  ∀ p, tnsParams cfg.nMs bw = .ok p → ∀ s ∈ p.subs, ∀ r, tnsCorr x s = .ok r →
    ∀ c ∈ tnsAnalysis r nn (lpcWeightingOf cfg.nMs nbits), |c| < 1

theorem tnsEncRun_returns {f : SamplingFrequency} {d : FrameDuration} {bw nbits : Nat} {nn : Bool} (hb : bw ≤ (Lc3Config.new f d).fsInd)
    {x : List ℝ} (hx : x.length = (Lc3Config.new f d).ne) (hs : StableTns (Lc3Config.new f d) x bw nbits nn) :
    ∃ res, tnsEncRun (Lc3Config.new f d) x bw nbits nn = .ok res ∧ res.nbitsTns ≤ 180 ∧ res.lines.length = x.length := by
  obtain ⟨p, hp, hbands, hsubs⟩ := tnsParams_returns hb
  have hw : lpcWeightingOf (Lc3Config.new f d).nMs nbits < 2 := by
    unfold lpcWeightingOf
    split <;> split <;> omega
  have hs' := hs p hp
  obtain ⟨-, hnum, hnum2, -⟩ := tnsParams_shape hp
  generalize Lc3Config.new f d = cfg at *
  unfold tnsEncRun
  rw [if_neg (by simpa using hx), hp, Res.bind_ok]
  simp only
  obtain ⟨ints, hi, hil, hip⟩ := mapM_exists (f := tnsFilterInts x nn (lpcWeightingOf cfg.nMs nbits)) (l := p.subs)
    (P := fun l => l.length = 8 ∧ ∀ c ∈ l, c < 17) (by
      intro s hsm
      obtain ⟨r, hr⟩ := tnsCorr_returns x (sub := s) (by rw [hx]; exact hsubs s hsm)
      obtain ⟨l, hl, hll, hlp⟩ := mapM_exists (f := tnsIndex) (l := tnsAnalysis r nn (lpcWeightingOf cfg.nMs nbits)) (P := fun c => c < 17)
        fun q hq => tnsIndex_returns (hs' s hsm r hr q hq)
      refine ⟨l, ?_, by rw [hll, tnsAnalysis_length], hlp⟩
      unfold tnsFilterInts
      rw [hr, Res.bind_ok, hl])
  rw [hi, Res.bind_ok]
  obtain ⟨bits, hbits, hbl, hbp⟩ := mapM_exists (f := tnsFilterBits ℝ (lpcWeightingOf cfg.nMs nbits)) (l := ints) (P := fun b => b ≤ 90)
    fun l hl => tnsFilterBits_returns hw (hip l hl).1 (hip l hl).2
  rw [hbits, Res.bind_ok]
  obtain ⟨lines, hlines, hll⟩ := tnsFilterLoop_returns p.bands (ints.map fun l => (l.take (tnsOrder l)).map (tnsQuant (α := ℝ))) x
    (List.replicate 8 zero) (by rw [hx]; exact hbands)
  rw [hlines, Res.bind_ok]
  refine ⟨_, rfl, ?_, hll⟩
  have hsum : ∀ l : List Nat, (∀ b ∈ l, b ≤ 90) → l.sum ≤ 90 * l.length := by
    intro l
    induction l with
    | nil => simp
    | cons b l ih =>
      intro h
      have := ih fun b hb => h b (by simp [hb])
      have := h b (by simp)
      simp only [List.sum_cons, List.length_cons]
      omega
  have := hsum bits hbp
  simp only
  rw [hbl, hil, ← hnum] at this
  omega

end Lc3
