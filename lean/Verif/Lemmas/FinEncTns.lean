import Verif.Lemmas.FinEncSns
import Verif.Lemmas.FinTnsBand
/-! Sizes in the encoder in binary32: the analysis lattice of the temporal noise shaping. -/

namespace Lc3.F32
open Scalar Tables Spec

variable {el : Elem}

theorem mapM_from {β γ : Type} {f : β → Res γ} : ∀ {l : List β} {r : List γ}, l.mapM f = .ok r → ∀ {b}, b ∈ r → ∃ a, f a = .ok b
  | [], _, h, b, hb => by
    cases h
    cases hb
  | x :: l, r, h, b, hb => by
    rw [List.mapM_cons] at h
    obtain ⟨c, hc, h⟩ := bind_ok_inv h
    obtain ⟨bs, hbs, h⟩ := bind_ok_inv h
    have h' : c :: bs = r := by injection h
    subst h'
    rcases List.mem_cons.1 hb with rfl | hb
    · exact ⟨x, hc⟩
    · exact mapM_from hbs hb

/-- state `i` of the lattice is bounded by `3 ^ i * B` -/
def StFrom : ℝ → List F32 → Prop
  | _, [] => True
  | B, a :: l => Bd B a ∧ StFrom (3 * B) l

theorem StFrom.mono : ∀ {l : List F32} {A B : ℝ}, StFrom A l → A ≤ B → StFrom B l
  | [], _, _, _, _ => trivial
  | _ :: _, _, _, h, hAB => ⟨h.1.mono hAB, h.2.mono (by linarith)⟩

theorem StFrom.take : ∀ {l : List F32} {B : ℝ} (n : ℕ), StFrom B l → StFrom B (l.take n)
  | [], _, n, _ => by rw [List.take_nil]; trivial
  | _ :: _, _, 0, _ => trivial
  | _ :: _, _, n + 1, h => ⟨h.1, h.2.take n⟩

theorem StFrom.drop : ∀ {l : List F32} {B : ℝ} (n : ℕ), StFrom B l → StFrom (3 ^ n * B) (l.drop n)
  | [], _, n, _ => by rw [List.drop_nil]; trivial
  | _ :: _, _, 0, h => by simpa using h
  | a :: l, B, n + 1, h => by
    have := h.2.drop n
    rw [← mul_assoc, ← pow_succ] at this
    exact this

theorem StFrom.append : ∀ {l m : List F32} {B : ℝ}, StFrom B l → StFrom (3 ^ l.length * B) m → StFrom B (l ++ m)
  | [], _, _, _, h => by simpa using h
  | a :: l, m, B, h, h2 => ⟨h.1, h.2.append (by
    rw [← mul_assoc, ← pow_succ]
    exact h2)⟩

theorem stFrom_zero : ∀ (n : ℕ) {B : ℝ}, 0 ≤ B → StFrom B (List.replicate n (fin 0))
  | 0, _, _ => trivial
  | n + 1, _, h => ⟨bd_zero h, stFrom_zero n (by linarith)⟩

/-- one section: both outputs -/
theorem enc_section {r t s : F32} {B : ℝ} (hB : 1 ≤ B) (hB2 : B ≤ 2 ^ 110) (hr : Bd (101 / 100) r) (ht : Bd B t) (hs : Bd B s) :
    Bd (3 * B) (F32.add (F32.mul r t) s) ∧ Bd (3 * B) (F32.add t (F32.mul r s)) := by
  have h1 := (hr.mul ht (by norm_num; linarith) (by norm_num at hB2 ⊢; linarith)).mono (show _ ≤ 102 / 100 * B by norm_num; linarith)
  have h2 := (hr.mul hs (by norm_num; linarith) (by norm_num at hB2 ⊢; linarith)).mono (show _ ≤ 102 / 100 * B by norm_num; linarith)
  constructor
  · refine (h1.add hs (by norm_num; linarith) (by norm_num at hB2 ⊢; linarith)).mono ?_
    norm_num
    linarith
  · refine (ht.add h2 (by norm_num; linarith) (by norm_num at hB2 ⊢; linarith)).mono ?_
    norm_num
    linarith

theorem bd_encLattice : ∀ (rs ss : List F32) (t save : F32) (B : ℝ), rs.length = ss.length → 1 ≤ B → 3 ^ rs.length * B ≤ 2 ^ 110 →
    AllBd (101 / 100) rs → StFrom B ss → Bd B t → Bd B save →
    Bd (3 ^ rs.length * B) (@encLattice F32 (scalar el) rs ss t save).1 ∧ Bd (3 ^ rs.length * B) (@encLattice F32 (scalar el) rs ss t save).2.1 ∧
      StFrom B (@encLattice F32 (scalar el) rs ss t save).2.2 ∧ (@encLattice F32 (scalar el) rs ss t save).2.2.length = rs.length
  | [], ss, t, save, B, _, _, _, _, _, ht, hsv => by
    simp only [encLattice, List.length_nil, pow_zero, one_mul]
    exact ⟨ht, hsv, trivial, trivial⟩
  | r :: rs, [], t, save, B, hl, _, _, _, _, _, _ => by simp at hl
  | r :: rs, s :: ss, t, save, B, hl, hB, hB2, hr, hs, ht, hsv => by
    rw [List.length_cons, pow_succ, mul_assoc] at hB2
    have h3 : (1 : ℝ) ≤ 3 ^ rs.length := one_le_pow₀ (by norm_num)
    have hB3 : B ≤ 2 ^ 110 := by nlinarith
    obtain ⟨k1, k2⟩ := enc_section hB hB3 (hr r (by simp)) ht hs.1
    obtain ⟨i1, i2, i3, i4⟩ := bd_encLattice rs ss _ _ (3 * B) (by simpa using hl) (by linarith) hB2 (fun a ha => hr a (by simp [ha])) hs.2 k2 k1
    rw [List.length_cons, pow_succ, mul_assoc]
    letI := scalar el
    exact ⟨i1, i2, ⟨hsv, i3⟩, congrArg (· + 1) i4⟩

/-- one line of the analysis filter -/
theorem bd_encLatticeLine {rc st : List F32} {x : F32} {X : ℝ} (hX : 1 ≤ X) (hX2 : 6561 * X ≤ 2 ^ 110) (hl0 : rc.length ≠ 0) (hl : rc.length ≤ 8)
    (hs : st.length = 8) (hr : AllBd (101 / 100) rc) (hst : StFrom X st) (hx : Bd X x) :
    Bd (6561 * X) (@encLatticeLine F32 (scalar el) rc x st).1 ∧ StFrom X (@encLatticeLine F32 (scalar el) rc x st).2 ∧
      (@encLatticeLine F32 (scalar el) rc x st).2.length = 8 := by
  obtain ⟨k, hk⟩ : ∃ k, rc.length = k + 1 := ⟨rc.length - 1, by omega⟩
  have l1 : (rc.take k).length = k := by rw [List.length_take]; omega
  have l2 : (st.take k).length = k := by rw [List.length_take]; omega
  have hp : (3 : ℝ) ^ k ≤ 3 ^ 7 := pow_le_pow_right₀ (by norm_num) (by omega)
  have hp1 : (1 : ℝ) ≤ 3 ^ k := one_le_pow₀ (by norm_num)
  have hb : (3 : ℝ) ^ k * X ≤ 2187 * X := by
    refine mul_le_mul_of_nonneg_right (hp.trans (by norm_num)) (by linarith)
  have h := bd_encLattice (el := el) (rc.take k) (st.take k) x x X (by omega) hX (by rw [l1]; linarith) (hr.take k) (hst.take k) hx hx
  rw [l1] at h
  letI := scalar el
  unfold encLatticeLine
  simp only
  rw [show rc.length - 1 = k by omega]
  obtain ⟨h1, h2, h3, h4⟩ := h
  have hrk : Bd (101 / 100) (at0 rc k) := by
    unfold at0
    rw [List.getD_eq_getElem?_getD, List.getElem?_eq_getElem (by omega)]
    exact hr _ (List.getElem_mem _)
  have hd := hst.drop k
  have hsk : Bd (3 ^ k * X) (at0 st k) := by
    unfold at0
    rw [List.getD_eq_getElem?_getD, List.getElem?_eq_getElem (by omega)]
    rw [List.drop_eq_getElem_cons (by omega)] at hd
    exact hd.1
  have hXk : 1 ≤ 3 ^ k * X := by nlinarith
  have hsec := (enc_section hXk (by linarith) hrk h1 hsk).2
  refine ⟨hsec.mono (by linarith), ?_, ?_⟩
  · refine h3.append ?_
    rw [h4]
    refine ⟨h2, ?_⟩
    have := hst.drop (k + 1)
    rw [pow_succ, mul_comm ((3 : ℝ) ^ k), mul_assoc] at this
    exact this
  · rw [List.length_append, h4, List.length_cons, List.length_drop]
    omega

theorem bd_encLatticeBand {rc : List F32} {X : ℝ} (hX : 1 ≤ X) (hX2 : 6561 * X ≤ 2 ^ 110) (hl0 : rc.length ≠ 0) (hl : rc.length ≤ 8)
    (hr : AllBd (101 / 100) rc) : ∀ (xs st : List F32), st.length = 8 → StFrom X st → AllBd X xs →
    AllBd (6561 * X) (@encLatticeBand F32 (scalar el) rc xs st).1 ∧ StFrom X (@encLatticeBand F32 (scalar el) rc xs st).2 ∧
      (@encLatticeBand F32 (scalar el) rc xs st).2.length = 8
  | [], st, hs, hst, _ => ⟨AllBd.nil, hst, hs⟩
  | x :: xs, st, hs, hst, hx => by
    obtain ⟨h1, h2, h3⟩ := bd_encLatticeLine (el := el) hX hX2 hl0 hl hs hr hst (hx x (by simp))
    obtain ⟨i1, i2, i3⟩ := bd_encLatticeBand hX hX2 hl0 hl hr xs _ h3 h2 (fun a ha => hx a (by simp [ha]))
    exact ⟨AllBd.cons h1 i1, i2, i3⟩

theorem bd_tnsFilterLoop : ∀ (bands : List (ℕ × ℕ)) (rcs : List (List F32)) (lines st r : List F32) (X : ℝ), 1 ≤ X →
    6561 ^ bands.length * X ≤ 2 ^ 110 → (∀ rc ∈ rcs, rc.length ≤ 8 ∧ AllBd (101 / 100) rc) → st.length = 8 → StFrom X st → AllBd X lines →
    @tnsFilterLoop F32 (scalar el) bands rcs lines st = .ok r → AllBd (6561 ^ bands.length * X) r
  | [], _, lines, st, r, X, _, _, _, _, _, hx, e => by
    simp only [tnsFilterLoop, Res.ok.injEq] at e
    subst e
    simpa using hx
  | (a, b) :: bands, [], lines, st, r, X, hX, _, _, _, _, hx, e => by
    simp only [tnsFilterLoop, Res.ok.injEq] at e
    subst e
    have : (1 : ℝ) ≤ 6561 ^ (bands.length + 1) := one_le_pow₀ (by norm_num)
    exact hx.mono (by rw [List.length_cons]; nlinarith)
  | (a, b) :: bands, rc :: rcs, lines, st, r, X, hX, hX2, hrc, hs, hst, hx, e => by
    have hpow : (1 : ℝ) ≤ 6561 ^ bands.length := one_le_pow₀ (by norm_num)
    rw [List.length_cons, pow_succ, mul_assoc] at hX2 ⊢
    letI := scalar el
    rw [tnsFilterLoop] at e
    have hX6 : 6561 * X ≤ 2 ^ 110 := by nlinarith
    split at e
    · rename_i h0
      obtain ⟨l, e1, e⟩ := bind_ok_inv e
      have hsl : AllBd X l := by
        intro v hv
        unfold sliceR at e1
        split at e1
        · cases e1
          exact hx v (List.mem_of_mem_take (List.mem_of_mem_drop hv))
        · cases e1
      obtain ⟨i1, i2, i3⟩ := bd_encLatticeBand (el := el) hX hX6 h0 (hrc rc (by simp)).1 (hrc rc (by simp)).2 l st hs hst hsl
      refine bd_tnsFilterLoop bands rcs _ _ r (6561 * X) (by linarith) hX2 (fun z hz => hrc z (by simp [hz])) i3 (i2.mono (by linarith)) ?_ e
      exact (((hx.mono (by linarith)).take a).append i1).append ((hx.mono (by linarith)).drop b)
    · exact bd_tnsFilterLoop bands rcs _ _ r (6561 * X) (by linarith) hX2 (fun z hz => hrc z (by simp [hz])) hs (hst.mono (by linarith))
        (hx.mono (by linarith)) e

/-- the quantised coefficients -/
theorem bd_tnsQuant (he : Tame el) {i : ℕ} (hi : i < 17) : Bd (101 / 100) (@tnsQuant F32 (scalar el) i) := by
  obtain ⟨c, hc, he1⟩ := he.piOver17
  have hpi : Bd (184801 / 1000000) (@Scalar.piOver17 F32 (scalar el)) := by
    have h1 : @Scalar.piOver17 F32 (scalar el) = fin c := hc
    rw [h1]
    refine ⟨⟨c, rfl⟩, ?_⟩
    show |(c : ℝ)| ≤ _
    have hp := Real.pi_lt_d6
    have hp0 := Real.pi_pos
    rw [abs_le] at he1 ⊢
    norm_num at he1 ⊢
    constructor <;> linarith
  have e1 : rnd ((i : ℤ) : ℚ) = fin ((i : ℤ) : ℚ) := rnd_int (by rw [abs_le]; omega)
  have e2 : rnd 8 = fin 8 := by
    have := rnd_int (n := 8) (by norm_num)
    simpa using this
  have e3 : F32.sub (rnd ((i : ℤ) : ℚ)) (rnd 8) = fin (((i : ℤ) - 8 : ℤ) : ℚ) := by
    rw [e1, e2]
    have : F32.sub (fin ((i : ℤ) : ℚ)) (fin 8) = rnd (((i : ℤ) - 8 : ℤ) : ℚ) := by
      show F32.add _ (F32.neg _) = _
      show rnd (((i : ℤ) : ℚ) + -8) = _
      congr 1
      push_cast
      ring
    rw [this, rnd_int (by rw [abs_le]; omega)]
  have h8 : Bd 8 (F32.sub (rnd ((i : ℤ) : ℚ)) (rnd 8)) := by
    rw [e3]
    refine ⟨⟨_, rfl⟩, ?_⟩
    show |((((i : ℤ) - 8 : ℤ) : ℚ) : ℝ)| ≤ 8
    have : |(i : ℤ) - 8| ≤ 8 := by rw [abs_le]; omega
    rw [Rat.cast_intCast]
    exact_mod_cast this
  obtain ⟨⟨q, hq⟩, hb⟩ := (hpi.mul h8 (by norm_num) (by norm_num)).mono (show _ ≤ (14785 / 10000 : ℝ) by norm_num)
  have hq2 : |(q : ℝ)| ≤ 14785 / 10000 := by rw [hq] at hb; exact hb
  obtain ⟨s, hs, hse⟩ := he.sin q (by
    have : |(q : ℝ)| ≤ ((2 : ℚ) : ℝ) := hq2.trans (by norm_num)
    exact_mod_cast this)
  have : @tnsQuant F32 (scalar el) i = fin s := by
    show el.sin (F32.mul (@Scalar.piOver17 F32 (scalar el)) (F32.sub (rnd ((i : ℤ) : ℚ)) (rnd 8))) = _
    rw [hq]
    exact hs
  rw [this]
  refine ⟨⟨_, rfl⟩, ?_⟩
  show |(s : ℝ)| ≤ _
  have h1 := abs_sub_abs_le_abs_sub (s : ℝ) (Real.sin q)
  have h2 := Real.abs_sin_le_one q
  norm_num at hse
  linarith

/-- the lines after the temporal noise shaping -/
theorem bd_tnsEncRun (he : Tame el) {cfg : Lc3Config} {bw nbits : ℕ} {nn : Bool} {x : List F32} {r : TnsResult F32} (hx : AllBd (2 ^ 50) x)
    (e : @tnsEncRun F32 (scalar el) cfg x bw nbits nn = .ok r) : AllBd (2 ^ 76) r.lines := by
  letI := scalar el
  unfold tnsEncRun at e
  split at e
  · cases e
  obtain ⟨p, h1, e⟩ := bind_ok_inv e
  obtain ⟨ints, h2, e⟩ := bind_ok_inv e
  obtain ⟨bits, h3, e⟩ := bind_ok_inv e
  obtain ⟨lines, h4, e⟩ := bind_ok_inv e
  cases e
  simp only
  have hb : p.bands.length ≤ 2 := by
    have : ∀ d bw p, tnsParams d bw = .ok p → p.bands.length ≤ 2 := by
      intro d bw p h
      unfold tnsParams at h
      split at h <;> cases h <;> decide
    exact this _ _ _ h1
  have hp : (6561 : ℝ) ^ p.bands.length ≤ 6561 ^ 2 := pow_le_pow_right₀ (by norm_num) hb
  refine (bd_tnsFilterLoop _ _ _ _ _ (2 ^ 50) (by norm_num) ?_ ?_ (by rw [List.length_replicate]) ?_ hx h4).mono ?_
  · calc (6561 : ℝ) ^ p.bands.length * 2 ^ 50 ≤ 6561 ^ 2 * 2 ^ 50 := mul_le_mul_of_nonneg_right hp (by positivity)
      _ ≤ 2 ^ 110 := by norm_num
  · intro rc hrc
    obtain ⟨l, hl, rfl⟩ := List.mem_map.1 hrc
    obtain ⟨sub, hsub⟩ := mapM_from h2 hl
    have hlen : l.length = 8 := by
      unfold tnsFilterInts at hsub
      obtain ⟨rr, -, hsub⟩ := bind_ok_inv hsub
      rw [← (mapM_forall₂ hsub).length_eq, tnsAnalysis_length]
    refine ⟨by rw [List.length_map, List.length_take]; omega, ?_⟩
    intro a ha
    obtain ⟨i, hi, rfl⟩ := List.mem_map.1 ha
    obtain ⟨b, -, hb⟩ := mapM_mem_ok h3 hl
    have hi17 : i < 17 := by
      unfold tnsFilterBits at hb
      obtain ⟨ob, -, hb⟩ := bind_ok_inv hb
      obtain ⟨cb, hcb, hb⟩ := bind_ok_inv hb
      exact tnsCoefBits_lt hcb i hi
    exact bd_tnsQuant he hi17
  · have hz : (zero : F32) = fin 0 := zero_eq
    rw [hz]
    exact stFrom_zero 8 (by norm_num)
  · calc (6561 : ℝ) ^ p.bands.length * 2 ^ 50 ≤ 6561 ^ 2 * 2 ^ 50 := mul_le_mul_of_nonneg_right hp (by positivity)
      _ ≤ 2 ^ 76 := by norm_num

end Lc3.F32
