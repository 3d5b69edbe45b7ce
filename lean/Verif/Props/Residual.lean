import Verif.Model.EncResidual
import Verif.Model.DecSpectrum
import Verif.Spec.Residual
import Verif.Lemmas.F32
import Mathlib.Data.List.GetD
/-!
# Residual refinement (C14)

The statements are about IEEE binary32 (`Verif/Model/F32.lean`), for any choice of the elementary functions.
-/

namespace Lc3
open Scalar Spec

namespace F32

/-- rounding is monotone -/
theorem rndQ_mono_pos {a b : ℚ} (ha : 0 < a) (h : a ≤ b) : rndQ a ≤ rndQ b := by
  have hb : 0 < b := lt_of_lt_of_le ha h
  have hla := log_self_lt a
  have hlb := log_self hb
  have hmono : Int.log 2 a ≤ Int.log 2 b := Int.log_mono_right ha h
  by_cases hu : ulpExp a = ulpExp b
  · unfold rndQ
    rw [hu]
    have h2 : (0 : ℚ) < 2 ^ ulpExp b := zpow_pos (by norm_num) _
    apply mul_le_mul_of_nonneg_right _ h2.le
    have hd : a / 2 ^ ulpExp b ≤ b / 2 ^ ulpExp b := by gcongr
    have : roundEven (a / 2 ^ ulpExp b) ≤ roundEven (b / 2 ^ ulpExp b) := by
      generalize a / 2 ^ ulpExp b = x at hd
      generalize b / 2 ^ ulpExp b = y at hd
      by_cases hf : ⌊x⌋ = ⌊y⌋
      · unfold roundEven
        simp only
        rw [hf]
        have : x - ⌊y⌋ ≤ y - ⌊y⌋ := by linarith
        split_ifs <;> first | omega | (exfalso; linarith)
      · have hf' : ⌊x⌋ + 1 ≤ ⌊y⌋ := by
          have := Int.floor_mono hd
          omega
        have e1 : roundEven x ≤ ⌊x⌋ + 1 := roundEven_le (by push_cast; exact (Int.lt_floor_add_one x).le)
        have e2 : ⌊y⌋ ≤ roundEven y := roundEven_ge (Int.floor_le y)
        omega
    exact_mod_cast this
  · have hva : ulpExp a = max (Int.log 2 a - 23) (-149) := by rw [ulpExp, abs_of_pos ha]
    have hvb : ulpExp b = max (Int.log 2 b - 23) (-149) := by rw [ulpExp, abs_of_pos hb]
    have hlt : Int.log 2 a < Int.log 2 b := by
      rcases lt_or_eq_of_le hmono with h | h
      · exact h
      · rw [hva, hvb, h] at hu; exact absurd rfl hu
    have hgt : -149 < Int.log 2 b - 23 := by
      by_contra hc
      apply hu
      rw [hva, hvb, max_eq_right (by omega), max_eq_right (by omega)]
    have hub : ulpExp b = Int.log 2 b - 23 := by rw [hvb, max_eq_left (by omega)]
    have hua : ulpExp a ≤ Int.log 2 b := by rw [hva]; omega
    have haP : a ≤ 2 ^ Int.log 2 b := hla.le.trans (zpow_le_zpow_right₀ (by norm_num) (by omega))
    calc rndQ a ≤ 2 ^ Int.log 2 b := by
          obtain ⟨n, hn⟩ := scale_int 1 hua
          rw [Int.cast_one, one_mul] at hn
          have h2 : (0 : ℚ) < 2 ^ ulpExp a := zpow_pos (by norm_num) _
          unfold rndQ
          rw [hn]
          apply mul_le_mul_of_nonneg_right _ h2.le
          have : roundEven (a / 2 ^ ulpExp a) ≤ n := roundEven_le (by rw [div_le_iff₀ h2, ← hn]; exact haP)
          exact_mod_cast this
      _ ≤ rndQ b := by
          have hle : ulpExp b ≤ Int.log 2 b := by omega
          obtain ⟨n, hn⟩ := scale_int 1 hle
          rw [Int.cast_one, one_mul] at hn
          have h2 : (0 : ℚ) < 2 ^ ulpExp b := zpow_pos (by norm_num) _
          unfold rndQ
          rw [hn]
          apply mul_le_mul_of_nonneg_right _ h2.le
          have : n ≤ roundEven (b / 2 ^ ulpExp b) := roundEven_ge (by rw [le_div_iff₀ h2, ← hn]; exact hlb)
          exact_mod_cast this

theorem rndQ_nonneg {q : ℚ} (h : 0 ≤ q) : 0 ≤ rndQ q := by
  unfold rndQ
  have h2 : (0 : ℚ) < 2 ^ ulpExp q := zpow_pos (by norm_num) _
  have : 0 ≤ roundEven (q / 2 ^ ulpExp q) := roundEven_ge (by push_cast; positivity)
  exact mul_nonneg (by exact_mod_cast this) h2.le

theorem rndQ_mono {a b : ℚ} (h : a ≤ b) : rndQ a ≤ rndQ b := by
  rcases lt_trichotomy 0 a with ha | ha | ha
  · exact rndQ_mono_pos ha h
  · subst ha
    rw [rndQ_rep ⟨0, 0, by norm_num, by norm_num, by norm_num⟩]
    exact rndQ_nonneg h
  · rcases le_or_gt 0 b with hb | hb
    · have h1 := rndQ_nonneg (q := -a) (by linarith)
      rw [rndQ_neg] at h1
      have := rndQ_nonneg hb
      linarith
    · have := rndQ_mono_pos (a := -b) (b := -a) (by linarith) (by linarith)
      rw [rndQ_neg, rndQ_neg] at this
      linarith

/-- multiples of 1/16 of moderate size are values of `f32` -/
theorem rnd_sixteenth {n : ℤ} (h : |n| < 2 ^ 24) : rnd (n / 16) = .fin (n / 16) := by
  have hr : Rep ((n : ℚ) / 16) := ⟨n, -4, by norm_num [div_eq_mul_inv], h, by norm_num⟩
  have hb : |(n : ℚ)| < 2 ^ 24 := by exact_mod_cast h
  obtain ⟨h1, h2⟩ := abs_lt.1 hb
  unfold rnd
  rw [rndQ_rep hr, if_neg (by norm_num at h2 ⊢; linarith), if_neg (by norm_num at h1 ⊢; linarith)]

theorem rnd_int {n : ℤ} (h : |n| ≤ 32768) : rnd n = .fin n := by
  have := rnd_sixteenth (n := n * 16) (by rw [abs_mul]; norm_num; omega)
  have e : (((n * 16 : ℤ) : ℚ) / 16) = n := by push_cast; ring
  rwa [e] at this

end F32

open F32 in
theorem refineLine_f32 (el : Elem) (bit : Bool) {x : ℤ} (h : |x| ≤ 32768) :
    @refineLine F32 (scalar el) bit (.fin x) = .fin (refined x bit) := by
  have hr5 : rnd (3125 / 10000) = .fin (5 / 16) := by
    have := rnd_sixteenth (n := 5) (by norm_num)
    norm_num at this ⊢; exact this
  have hr3 : rnd (1875 / 10000) = .fin (3 / 16) := by
    have := rnd_sixteenth (n := 3) (by norm_num)
    norm_num at this ⊢; exact this
  have hz : (@zero F32 (scalar el)) = .fin 0 := by
    have := rnd_sixteenth (n := 0) (by norm_num)
    norm_num at this; exact this
  have hpos : @pos F32 (scalar el) (.fin (x : ℚ)) = decide (0 < x) := by
    unfold pos
    rw [hz]
    show decide ((0 : ℚ) < (x : ℚ)) = _
    simp
  have hadd : ∀ c : ℤ, |c| ≤ 5 → rnd ((x : ℚ) + c / 16) = .fin ((x : ℚ) + c / 16) := by
    intro c hc
    have := rnd_sixteenth (n := 16 * x + c) (by
      have := abs_add_le (16 * x) c
      rw [abs_mul] at this
      norm_num at this ⊢
      omega)
    have e : (((16 * x + c : ℤ) : ℚ) / 16) = x + c / 16 := by push_cast; ring
    rwa [e] at this
  unfold refineLine refined
  rw [hpos]
  cases bit <;> by_cases hx : 0 < x
  · simp only [hx, decide_true, if_true, Bool.false_eq_true, if_false]
    have e := hadd (-3) (by norm_num)
    show F32.sub (.fin x) (rnd (1875 / 10000)) = _
    rw [hr3]
    show rnd ((x : ℚ) + -(3 / 16)) = _
    push_cast at e
    rw [show (x : ℚ) + -(3 / 16) = x + -3 / 16 by ring, e]
    congr 1; ring
  · simp only [hx, decide_false, Bool.false_eq_true, if_false]
    have e := hadd (-5) (by norm_num)
    show F32.sub (.fin x) (rnd (3125 / 10000)) = _
    rw [hr5]
    show rnd ((x : ℚ) + -(5 / 16)) = _
    push_cast at e
    rw [show (x : ℚ) + -(5 / 16) = x + -5 / 16 by ring, e]
    congr 1; ring
  · simp only [hx, decide_true, if_true]
    have e := hadd 5 (by norm_num)
    show F32.add (.fin x) (rnd (3125 / 10000)) = _
    rw [hr5]
    show rnd ((x : ℚ) + 5 / 16) = _
    push_cast at e
    rw [e]
  · simp only [hx, decide_false, Bool.false_eq_true, if_true, if_false]
    have e := hadd 3 (by norm_num)
    show F32.add (.fin x) (rnd (1875 / 10000)) = _
    rw [hr3]
    show rnd ((x : ℚ) + 3 / 16) = _
    push_cast at e
    rw [e]

theorem rank_cons_zero (xs : List Int) (k : Nat) : rank (0 :: xs) (k + 1) = rank xs k := by simp [rank]

theorem rank_cons_ne {x : Int} (h : x ≠ 0) (xs : List Int) (k : Nat) : rank (x :: xs) (k + 1) = rank xs k + 1 := by
  simp [rank, h]

/-- the decoder side: line `k` is refined with bit number `rank k` -/
theorem residualLoop_get (el : F32.Elem) : ∀ (xs : List Int) (bits : List Bool), (∀ x ∈ xs, |x| ≤ 32768) → ∀ k (h : k < xs.length),
    (@residualLoop F32 (F32.scalar el) bits (xs.map (fun x : Int => F32.fin (x : ℚ))))[k]? =
      some (.fin (if xs[k] = 0 then 0 else
        match bits[rank xs k]? with
        | some b => refined xs[k] b
        | none => xs[k]))
  | [], _, _, _, h => by simp at h
  | x :: xs, bits, hb, k, h => by
    have hx := hb x (by simp)
    have ih := fun bits k h => residualLoop_get el xs bits (fun y hy => hb y (by simp [hy])) k h
    have hz : (@zero F32 (F32.scalar el)) = .fin 0 := by
      have := F32.rnd_sixteenth (n := 0) (by norm_num)
      norm_num at this; exact this
    have heq : (F32.scalar el).eq (.fin (x : ℚ)) (@zero F32 (F32.scalar el)) = decide (x = 0) := by
      rw [hz]
      show decide ((x : ℚ) = 0) = _
      simp
    rw [List.map_cons, @residualLoop.eq_def F32 (F32.scalar el)]
    simp only
    have heq' : (@Scalar.eq F32 (F32.scalar el) (.fin (x : ℚ)) (@zero F32 (F32.scalar el))) = decide (x = 0) := heq
    rw [heq']
    by_cases h0 : x = 0
    · subst h0
      simp only [decide_true, Bool.not_true, Bool.false_eq_true, if_false]
      cases k with
      | zero => simp
      | succ k =>
        rw [List.getElem?_cons_succ, rank_cons_zero]
        simp only [List.getElem_cons_succ]
        exact ih bits k (by simpa using h)
    · simp only [h0, decide_false, Bool.not_false, if_true]
      cases bits with
      | nil =>
        simp only [List.getElem?_nil]
        rw [← List.map_cons (f := fun x : Int => F32.fin (x : ℚ)), List.getElem?_map, List.getElem?_eq_getElem h]
        simp only [Option.map_some]
        congr 2
        split_ifs with hc
        · rw [hc]; rfl
        · rfl
      | cons b bs =>
        simp only
        cases k with
        | zero => simp [h0, rank, refineLine_f32 el b hx]
        | succ k =>
          rw [List.getElem?_cons_succ, rank_cons_ne h0, List.getElem?_cons_succ]
          simp only [List.getElem_cons_succ]
          exact ih bs k (by simpa using h)

variable {α : Type} [Scalar α]

/-- the encoder side: bit number `rank k` is the comparison at line `k` -/
theorem residualEncLoop_ok (gg : α) (max : Nat) : ∀ (ts : List α) (xs : List Int) (n : Nat),
    n + xs.length ≤ 400 → ts.length = xs.length →
    ∃ bs, residualEncLoop gg max n ts xs = .ok bs ∧
      bs.length = min (max - n) (xs.filter (· ≠ 0)).length ∧
      ∀ k (h : k < xs.length) (h' : k < ts.length), xs[k] ≠ 0 → n + rank xs k < max →
        bs[rank xs k]? = some (geS ts[k] (ofInt xs[k] * gg))
  | [], [], n, _, _ => ⟨[], by rw [residualEncLoop]; simp, by simp, by simp⟩
  | t :: ts, x :: xs, n, hn, hl => by
    simp only [List.length_cons] at hn hl
    rw [residualEncLoop]
    by_cases hm : n ≥ max
    · rw [if_pos hm]
      refine ⟨[], rfl, by rw [List.length_nil]; omega, ?_⟩
      intro k _ _ _ h; omega
    · rw [if_neg hm]
      by_cases h0 : x = 0
      · subst h0
        simp only [ne_eq, not_true_eq_false, if_false]
        obtain ⟨bs, e, hlen, hget⟩ := residualEncLoop_ok gg max ts xs n (by omega) (by omega)
        refine ⟨bs, e, by rw [hlen]; simp, ?_⟩
        intro k h h' hne hr
        cases k with
        | zero => exact absurd rfl hne
        | succ k =>
          rw [rank_cons_zero] at hr ⊢
          exact hget k (by simpa using h) (by simpa using h') hne hr
      · rw [if_pos h0, if_neg (by omega)]
        obtain ⟨bs, e, hlen, hget⟩ := residualEncLoop_ok gg max ts xs (n + 1) (by omega) (by omega)
        rw [e]
        refine ⟨_, rfl, ?_, ?_⟩
        · rw [List.length_cons, hlen, List.filter_cons_of_pos (by simpa using h0), List.length_cons]
          omega
        · intro k h h' hne hr
          cases k with
          | zero => simp [rank]
          | succ k =>
            rw [rank_cons_ne h0] at hr ⊢
            rw [List.getElem?_cons_succ]
            exact hget k (by simpa using h) (by simpa using h') hne (by omega)

/-- **C14, placement.** The encoder (any spectrum `xf`, any gain, quantised values within 16 bits) never panics and emits
`min (budget) (number of non-zero lines)` bits. However many of these bits `m` arrive, the decoder leaves zero lines
zero, refines the non-zero line number `r` with exactly the bit that the encoder computed by comparing this same line, for
`r < m`, and leaves the other lines alone. The decoder's arithmetic is exact. -/
theorem C14 (el : F32.Elem) (nbitsSpec nbitsTrunc : Nat) (gg : F32) {xf : List F32} {xq : List Int}
    (hl : xf.length = xq.length) (hne : xq.length ≤ 400) (hb : ∀ x ∈ xq, |x| ≤ 32768) :
    ∃ bits, @residualEncode F32 (F32.scalar el) nbitsSpec nbitsTrunc xq.length gg xf xq = .ok bits ∧
      bits.length = min ((nbitsSpec : Int) - nbitsTrunc + 4).toNat (xq.filter (· ≠ 0)).length ∧
      ∀ m k (hk : k < xq.length) (hk' : k < xf.length),
        (@residualDecode F32 (F32.scalar el) false (bits.take m) (xq.map (@ofInt F32 (F32.scalar el))))[k]? =
          some (.fin (if xq[k] = 0 then 0 else
            if rank xq k < m ∧ rank xq k < bits.length then
              refined xq[k] (@geS F32 (F32.scalar el) xf[k] (@HMul.hMul F32 F32 F32 (@instHMul _ (F32.scalar el).toMul)
                (.fin xq[k]) gg))
            else xq[k])) := by
  have hint : ∀ x : Int, |x| ≤ 32768 → @ofInt F32 (F32.scalar el) x = .fin x := fun x hx => F32.rnd_int hx
  have hmap : xq.map (@ofInt F32 (F32.scalar el)) = xq.map (fun x : Int => F32.fin (x : ℚ)) :=
    List.map_congr_left fun x hx => hint x (hb x hx)
  have hdec : ∀ bits : List Bool, @residualDecode F32 (F32.scalar el) false bits (xq.map (@ofInt F32 (F32.scalar el))) =
      @residualLoop F32 (F32.scalar el) bits (xq.map (fun x : Int => F32.fin (x : ℚ))) := by
    intro bits
    rw [hmap]; rfl
  obtain ⟨bits, e, hlen, hget⟩ := @residualEncLoop_ok F32 (F32.scalar el) gg
    ((nbitsSpec : Int) - nbitsTrunc + 4).toNat xf xq 0 (by omega) hl
  have eenc : @residualEncode F32 (F32.scalar el) nbitsSpec nbitsTrunc xq.length gg xf xq = .ok bits := by
    unfold residualEncode
    simp only
    split_ifs with h1 h2
    · omega
    · rw [List.take_of_length_le (by omega), List.take_of_length_le (by omega), e]
    · have : bits = [] := by
        apply List.eq_nil_of_length_eq_zero
        rw [hlen]; omega
      rw [this]
  refine ⟨bits, eenc, by simpa using hlen, ?_⟩
  intro m k hk hk'
  rw [hdec, residualLoop_get el xq _ hb k hk]
  congr 2
  by_cases h0 : xq[k] = 0
  · rw [if_pos h0, if_pos h0]
  · rw [if_neg h0, if_neg h0]
    by_cases hr : rank xq k < m ∧ rank xq k < bits.length
    · rw [if_pos hr, List.getElem?_take_of_lt hr.1]
      have := hget k hk hk' h0 (by omega)
      rw [this]
      simp only
      rw [hint _ (hb _ (List.getElem_mem hk))]
    · rw [if_neg hr, List.getElem?_eq_none (by rw [List.length_take]; omega)]

/-- **C14, size of the step.** A refined line keeps its sign and moves by less than half a step, up or down as the bit
says. -/
theorem C14_step (x : Int) (h : x ≠ 0) (up : Bool) :
    |refined x up - x| < 1 / 2 ∧ (0 < refined x up ↔ 0 < x) ∧ refined x up ≠ 0 ∧
      (up = true → (x : ℚ) < refined x up) ∧ (up = false → refined x up < x) := by
  unfold refined
  have hc : (1 : ℚ) ≤ x ∧ 0 < x ∨ (x : ℚ) ≤ -1 ∧ ¬ 0 < x := by
    rcases lt_or_gt_of_ne h with h' | h'
    · exact Or.inr ⟨by exact_mod_cast (by omega : x ≤ -1), by omega⟩
    · exact Or.inl ⟨by exact_mod_cast h', h'⟩
  rcases hc with ⟨hc, hp⟩ | ⟨hc, hp⟩ <;> cases up <;>
    simp only [hp, if_true, if_false, Bool.false_eq_true, iff_true, iff_false, reduceCtorEq, false_implies, true_implies,
      and_true, true_and] <;>
    refine ⟨?_, ?_, ?_, ?_⟩ <;>
    first
      | (rw [abs_lt]; constructor <;> linarith)
      | linarith
      | (intro h; linarith)

open F32 in
/-- **C14, direction.** For a finite spectral value `t` and gain `g`: the bit is one exactly if `t` is at least the rounded
quantised value, in particular whenever `t ≥ x g` exactly; and if the bit is zero, `t < x g` exactly. -/
theorem C14_direction (el : Elem) {t g p : ℚ} {x : Int} (ht : Rep t) (hp : rnd ((x : ℚ) * g) = .fin p) :
    (@geS F32 (scalar el) (.fin t) (@HMul.hMul F32 F32 F32 (@instHMul _ (scalar el).toMul) (.fin x) (.fin g)) =
      decide (p ≤ t)) ∧
    (x * g ≤ t → p ≤ t) ∧ (¬ p ≤ t → t < x * g) := by
  have hpq : p = rndQ (x * g) := by
    unfold rnd at hp
    split_ifs at hp
    exact (F32.fin.inj hp).symm
  have key : x * g ≤ t → p ≤ t := by
    intro h
    rw [hpq, ← rndQ_rep ht]
    exact rndQ_mono h
  refine ⟨?_, key, fun h => not_le.1 fun h' => h (key h')⟩
  have : (@HMul.hMul F32 F32 F32 (@instHMul _ (scalar el).toMul) (.fin x) (.fin g)) = .fin p := hp
  rw [this]
  show (decide (p < t) || decide (t = p)) = decide (p ≤ t)
  by_cases h1 : p < t
  · simp [h1, h1.le]
  · by_cases h2 : t = p
    · simp [h2]
    · have : ¬ p ≤ t := fun h => h2 (le_antisymm (not_lt.1 h1) h)
      simp [h1, h2, this]

/-- the hypotheses of `C14` and `C14_direction` are met by concrete spectra -/
example : ∃ (xq : List Int) (xf : List F32), xf.length = xq.length ∧ xq.length ≤ 400 ∧ (∀ x ∈ xq, |x| ≤ 32768) ∧
    rank xq 3 = 2 :=
  ⟨[3, 0, -2, 1], [.fin 7, .nan, .fin (-5), .inf true], rfl, by simp, by decide, by decide⟩

example : F32.Rep 7 ∧ F32.rnd (((3 : Int) : ℚ) * 2) = .fin 6 := by
  refine ⟨⟨7, 0, by norm_num, by norm_num, by norm_num⟩, ?_⟩
  have := F32.rnd_int (n := 6) (by norm_num)
  norm_num at this ⊢
  exact this

end Lc3
