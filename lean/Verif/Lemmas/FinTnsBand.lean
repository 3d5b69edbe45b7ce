import Verif.Lemmas.FinTns
import Verif.Lemmas.FinDequant
import Mathlib.Analysis.Complex.ExponentialBounds
/-! Sizes in the decoder in binary32: bands of the temporal noise shaping. -/

namespace Lc3.F32
open Scalar Finset

variable {el : Elem}

theorem wsum_nonneg {rc : List F32} {off o : ℕ} {w : ℕ → ℝ} (hw : Weights rc off o w) (st : List F32) : 0 ≤ wsum o w st :=
  Finset.sum_nonneg fun _ hj => mul_nonneg (hw.pos (Finset.mem_range.1 hj).le).le (sq_nonneg _)

theorem setIdx_eq {α : Type} {l r : List α} {i : ℕ} {a : α} (e : setIdx l i a = .ok r) : r = l.set i a ∧ i < l.length := by
  unfold setIdx at e
  split at e
  · cases e; exact ⟨rfl, by assumption⟩
  · cases e

/-- one line: the energy grows by the energy of the line and by rounding -/
theorem line_bd {rc : List F32} {off o : ℕ} {w : ℕ → ℝ} (hw : Weights rc off o w) (ho : o ≤ 8) (ho0 : 0 < o) {x : F32} {st : List F32} {M : ℝ}
    {t' : F32} {st' : List F32} (hl : o ≤ st.length) (hx : IsFin x) (hst : AllFin st) (hM : wsum o w st + val x ^ 2 + 1 ≤ M)
    (hM2 : M ≤ 2 ^ 148) (e : @latticeLine F32 (scalar el) rc off o x st = .ok (t', st')) :
    IsFin t' ∧ AllFin st' ∧ st'.length = st.length ∧ (∀ j, o ≤ j → st'.getD j (fin 0) = st.getD j (fin 0)) ∧
      wsum o w st' + 1 ≤ (1 + 1 / 2 ^ 16) ^ 8 * M ∧ w 0 * val t' ^ 2 ≤ (1 + 1 / 2 ^ 16) ^ 8 * M := by
  letI := scalar el
  unfold latticeLine at e
  obtain ⟨r, h1, e⟩ := bind_ok_inv e
  obtain ⟨s, h2, e⟩ := bind_ok_inv e
  obtain ⟨⟨t1, st1⟩, h3, e⟩ := bind_ok_inv e
  obtain ⟨st2, h4, e⟩ := bind_ok_inv e
  simp only [Res.ok.injEq, Prod.mk.injEq] at e
  obtain ⟨rfl, rfl⟩ := e
  obtain ⟨hr, -⟩ := idx_getD h1
  obtain ⟨hs, hkl⟩ := idx_getD h2
  obtain ⟨h5, h6⟩ := setIdx_eq h4
  have fr : IsFin r := by rw [← hr]; exact hw.isFin (o - 1) (by omega)
  have fs : IsFin s := by rw [← hs]; exact hst.getD _
  have hstep := hw.step (o - 1) (by omega)
  have hlo := hw.lo (o - 1) (by omega)
  rw [hr] at hstep hlo
  rw [show o - 1 + 1 = o by omega, hw.last, mul_one] at hstep
  have hM0 : 1 ≤ M := by nlinarith [wsum_nonneg hw st, sq_nonneg (val x)]
  obtain ⟨rest, hrest⟩ : ∃ rest, rest = ∑ j ∈ (range o).erase (o - 1), w j * val (st.getD j (fin 0)) ^ 2 := ⟨_, rfl⟩
  have hrest0 : 0 ≤ rest := by
    rw [hrest]
    exact Finset.sum_nonneg fun j hj =>
      mul_nonneg (hw.pos (Finset.mem_range.1 (Finset.mem_of_mem_erase hj)).le).le (sq_nonneg _)
  have hold : wsum o w st = rest + (1 - val r ^ 2) * val s ^ 2 := by
    rw [wsum_split w st (k := o - 1) (by omega), ← hrest, hs, hstep]
  obtain ⟨f1, f2, f3⟩ := section_weighted fr hx fs (v := 1) (M := M) rfl hlo (by norm_num) le_rfl hrest0 (by linarith)
    (hM2.trans (by norm_num))
  have hnew : wsum o w (st.set (o - 1) (sub x (mul r s))) + 1 ≤ (1 + 1 / 2 ^ 16) * M := by
    rw [wsum_set w (by omega) (by omega), ← hrest, hstep]
    refine le_trans ?_ f3
    nlinarith [sq_nonneg (val (add (mul r (sub x (mul r s))) s))]
  have hp : (1 + 1 / 2 ^ 16 : ℝ) ^ (o - 1) * ((1 + 1 / 2 ^ 16) * M) ≤ (1 + 1 / 2 ^ 16) ^ 8 * M := by
    rw [← mul_assoc, ← pow_succ]
    gcongr
    · norm_num
    · omega
  have h8 : (1 + 1 / 2 ^ 16 : ℝ) ^ 8 * M ≤ 2 ^ 150 := by
    have : (1 + 1 / 2 ^ 16 : ℝ) ^ 8 ≤ 4 := by norm_num
    norm_num at hM2 this ⊢
    linarith
  obtain ⟨g1, g2, g3, g4, g5⟩ := loop_bd hw ho (o - 1) _ st _ t1 st1 (by omega) hl f1 hst hnew (hp.trans h8) h3
  have h7 : wsum o w st2 + 1 ≤ (1 + 1 / 2 ^ 16) ^ 8 * M := by rw [h5]; exact g5.trans hp
  refine ⟨g1, by rw [h5]; exact g2.set _ g1, by rw [h5, List.length_set, g3], ?_, h7, ?_⟩
  · intro j hj
    rw [h5, getD_set_ne (by omega), g4 j hj]
  · refine le_trans ?_ h7
    have : wsum o w st2 = _ := wsum_split w st2 (k := 0) ho0
    rw [this, h5, getD_set_self h6]
    have : 0 ≤ ∑ j ∈ (range o).erase 0, w j * val ((st1.set 0 t1).getD j (fin 0)) ^ 2 :=
      Finset.sum_nonneg fun j hj =>
        mul_nonneg (hw.pos (Finset.mem_range.1 (Finset.mem_of_mem_erase hj)).le).le (sq_nonneg _)
    linarith

/-- the growth factor of a line -/
noncomputable def rho : ℝ := (1 + 1 / 2 ^ 16) ^ 8

theorem rho_one : 1 ≤ rho := one_le_pow₀ (by norm_num)

theorem rho_pow {i : ℕ} (h : i ≤ 400) : rho ^ i ≤ 2 := by
  refine (pow_le_pow_right₀ rho_one h).trans ?_
  unfold rho
  rw [← pow_mul]
  have h1 : (1 + 1 / 2 ^ 16 : ℝ) ≤ Real.exp (1 / 2 ^ 16) := by
    have := Real.add_one_le_exp (1 / 2 ^ 16 : ℝ)
    linarith
  have h2 : (1 + 1 / 2 ^ 16 : ℝ) ^ (8 * 400) ≤ Real.exp (1 / 2 ^ 16) ^ (8 * 400) := pow_le_pow_left₀ (by norm_num) h1 _
  refine h2.trans ?_
  rw [← Real.exp_nat_mul]
  have h3 : ((8 * 400 : ℕ) : ℝ) * (1 / 2 ^ 16) ≤ Real.log 2 := by
    have := Real.log_two_gt_d9
    norm_num
    linarith
  calc Real.exp _ ≤ Real.exp (Real.log 2) := Real.exp_le_exp.2 h3
    _ = 2 := Real.exp_log (by norm_num)

/-- a band of at most 400 lines -/
theorem band_aux {rc : List F32} {off o : ℕ} {w : ℕ → ℝ} (hw : Weights rc off o w) (ho : o ≤ 8) (ho0 : 0 < o) {X A : ℝ}
    (hA : 0 ≤ A) (hM2 : 2 * (A + 400 * X ^ 2) ≤ 2 ^ 147) : ∀ (l : List F32) (i : ℕ) (st r st' : List F32), i + l.length ≤ 400 → o ≤ st.length →
    AllBd X l → AllFin st → wsum o w st + 1 ≤ rho ^ i * (A + i * X ^ 2) →
    @latticeBand F32 (scalar el) rc off o l st = .ok (r, st') →
    AllFin st' ∧ st'.length = st.length ∧ (∀ j, o ≤ j → st'.getD j (fin 0) = st.getD j (fin 0)) ∧
      wsum o w st' + 1 ≤ 2 * (A + 400 * X ^ 2) ∧ r.length = l.length ∧ ∀ t ∈ r, IsFin t ∧ w 0 * val t ^ 2 ≤ 2 * (A + 400 * X ^ 2)
  | [], i, st, r, st', hi, hl, _, hst, hV, e => by
    simp only [latticeBand, Res.ok.injEq, Prod.mk.injEq] at e
    obtain ⟨rfl, rfl⟩ := e
    refine ⟨hst, rfl, fun _ _ => rfl, ?_, rfl, fun t ht => by cases ht⟩
    refine hV.trans ?_
    have h400 : (i : ℝ) ≤ 400 := by exact_mod_cast (by simpa using hi : i ≤ 400)
    have hi' : A + i * X ^ 2 ≤ A + 400 * X ^ 2 := by gcongr
    exact mul_le_mul (rho_pow (by simpa using hi)) hi' (by positivity) (by norm_num)
  | x :: xs, i, st, r, st', hi, hl, hX, hst, hV, e => by
    letI := scalar el
    rw [latticeBand] at e
    obtain ⟨⟨t1, st1⟩, h1, e⟩ := bind_ok_inv e
    obtain ⟨⟨l2, st2⟩, h2, e⟩ := bind_ok_inv e
    simp only [Res.ok.injEq, Prod.mk.injEq] at e
    obtain ⟨rfl, rfl⟩ := e
    have hx : Bd X x := hX x (by simp)
    have hxs : AllBd X xs := fun a ha => hX a (by simp [ha])
    rw [List.length_cons] at hi
    have hx2 : val x ^ 2 ≤ X ^ 2 := by
      rw [← sq_abs]
      exact pow_le_pow_left₀ (abs_nonneg _) hx.2 2
    have hi1 : (i : ℝ) + 1 ≤ 400 := by exact_mod_cast (by omega : i + 1 ≤ 400)
    have hr0 : (1 : ℝ) ≤ rho ^ i := one_le_pow₀ rho_one
    have hM : wsum o w st + val x ^ 2 + 1 ≤ rho ^ i * (A + (i + 1 : ℕ) * X ^ 2) := by
      have e1 : rho ^ i * (A + (i + 1 : ℕ) * X ^ 2) = rho ^ i * (A + i * X ^ 2) + rho ^ i * X ^ 2 := by push_cast; ring
      rw [e1]
      nlinarith [sq_nonneg X]
    have hb1 : A + (i + 1 : ℕ) * X ^ 2 ≤ A + 400 * X ^ 2 := by push_cast; gcongr
    have hb2 : rho ^ i * (A + (i + 1 : ℕ) * X ^ 2) ≤ 2 * (A + 400 * X ^ 2) :=
      mul_le_mul (rho_pow (by omega)) hb1 (by positivity) (by norm_num)
    obtain ⟨g1, g2, g3, g4, g5, g6⟩ := line_bd hw ho ho0 hl hx.1 hst hM (hb2.trans (hM2.trans (by norm_num))) h1
    have hrr : (1 + 1 / 2 ^ 16 : ℝ) ^ 8 * (rho ^ i * (A + (i + 1 : ℕ) * X ^ 2)) = rho ^ (i + 1) * (A + (i + 1 : ℕ) * X ^ 2) := by
      show rho * _ = _
      ring
    rw [hrr] at g5 g6
    obtain ⟨k1, k2, k3, k4, k5, k6⟩ := band_aux hw ho ho0 hA hM2 xs (i + 1) st1 l2 st2 (by omega) (by omega) hxs g2 g5 h2
    refine ⟨k1, by omega, fun j hj => by rw [k3 j hj, g4 j hj], k4, by simp [k5], ?_⟩
    intro t ht
    rcases List.mem_cons.1 ht with rfl | ht
    · exact ⟨g1, g6.trans (mul_le_mul (rho_pow (by omega)) hb1 (by positivity) (by norm_num))⟩
    · exact k6 t ht

/-- all coefficients are finite and so far from one that `1 - r ^ 2` is at least `1 / 128` -/
def RcOk (rc : List F32) : Prop := ∀ k, IsFin (rc.getD k (fin 0)) ∧ 1 / 128 ≤ 1 - val (rc.getD k (fin 0)) ^ 2

theorem RcOk.weights {rc : List F32} (h : RcOk rc) (off o : ℕ) :
    Weights rc off o (fun k => ∏ j ∈ Finset.Ico k o, (1 - val (rc.getD (j + off) (fin 0)) ^ 2)) where
  isFin k _ := (h _).1
  step k hk := Finset.prod_eq_prod_Ico_succ_bot hk _
  last := by simp
  lo k _ := (h _).2

/-- bound on the lattice state between bands -/
def StBd (B : ℝ) (st : List F32) : Prop :=
  st.length = 8 ∧ AllFin st ∧ ∀ k, k < 8 → val (st.getD k (fin 0)) ^ 2 ≤ B * 128 ^ (8 - k)

theorem weights_ratio {rc : List F32} {off o : ℕ} {w : ℕ → ℝ} (hw : Weights rc off o w) : ∀ k, k ≤ o → w k ≤ 128 ^ k * w 0
  | 0, _ => by simp
  | k + 1, hk => by
    have ih := weights_ratio hw k (by omega)
    have hs := hw.step k (by omega)
    have hl := hw.lo k (by omega)
    have hp := hw.pos (k := k + 1) hk
    have : w (k + 1) ≤ 128 * w k := by rw [hs]; nlinarith
    calc w (k + 1) ≤ 128 * w k := this
      _ ≤ 128 * (128 ^ k * w 0) := by gcongr
      _ = _ := by ring

theorem wsum_le {rc : List F32} {off o : ℕ} {w : ℕ → ℝ} (hw : Weights rc off o w) (ho : o ≤ 8) {B : ℝ} {st : List F32}
    (h : StBd B st) (hB : 0 ≤ B) : wsum o w st ≤ w 0 * (8 * 2 ^ 56 * B) := by
  unfold wsum
  have hw0 := hw.pos (k := 0) (by omega)
  calc ∑ k ∈ range o, w k * val (st.getD k (fin 0)) ^ 2 ≤ ∑ _k ∈ range o, w 0 * (2 ^ 56 * B) := by
        refine Finset.sum_le_sum fun k hk => ?_
        have hk' := Finset.mem_range.1 hk
        have h1 := weights_ratio hw k hk'.le
        have h2 := h.2.2 k (by omega)
        have h3 : (128 : ℝ) ^ k * 128 ^ (8 - k) = 2 ^ 56 := by
          rw [← pow_add, show k + (8 - k) = 8 by omega]
          norm_num
        calc w k * val (st.getD k (fin 0)) ^ 2 ≤ (128 ^ k * w 0) * (B * 128 ^ (8 - k)) :=
              mul_le_mul h1 h2 (sq_nonneg _) (by positivity)
          _ = w 0 * ((128 ^ k * 128 ^ (8 - k)) * B) := by ring
          _ = _ := by rw [h3]
    _ = o * (w 0 * (2 ^ 56 * B)) := by rw [Finset.sum_const, Finset.card_range, nsmul_eq_mul]
    _ ≤ 8 * (w 0 * (2 ^ 56 * B)) := by
        have : (o : ℝ) ≤ 8 := by exact_mod_cast ho
        gcongr
    _ = _ := by ring

/-- a band from a bounded state -/
theorem band_bd {rc : List F32} (hrc : RcOk rc) {off o : ℕ} (ho : o ≤ 8) (ho0 : 0 < o) {X B : ℝ} (hX : 0 ≤ X) (hX2 : X ≤ 2 ^ 36)
    (hB : 0 ≤ B) (hB2 : B ≤ 2 ^ 84)
    {l st r st' : List F32} (hl : l.length ≤ 400) (hb : AllBd X l) (hst : StBd B st)
    (e : @latticeBand F32 (scalar el) rc off o l st = .ok (r, st')) :
    r.length = l.length ∧ AllFin r ∧ ∀ t ∈ r, val t ^ 2 ≤ 2 * (2 ^ 56 * (1 + 400 * X ^ 2) + 8 * 2 ^ 56 * B) := by
  obtain ⟨w, hw⟩ : ∃ w, Weights rc off o w := ⟨_, hrc.weights off o⟩
  have hw0 := hw.pos (k := 0) (by omega)
  obtain ⟨hwl, hw1⟩ := hw.lower (k := 0) (by omega)
  have hV := wsum_le hw ho hst hB
  have hX3 : X ^ 2 ≤ 2 ^ 72 := (pow_le_pow_left₀ hX hX2 2).trans (by norm_num)
  have hA2 : w 0 * (8 * 2 ^ 56 * B) ≤ 8 * 2 ^ 56 * B := by
    have : 0 ≤ 8 * 2 ^ 56 * B := by positivity
    nlinarith
  obtain ⟨-, -, -, -, k5, k6⟩ := band_aux hw ho ho0 (X := X) (A := 1 + w 0 * (8 * 2 ^ 56 * B)) (by positivity)
    (by norm_num at hA2 hX3 hB2 ⊢; linarith) l 0 st r st' (by omega) (by rw [hst.1]; exact ho) hb hst.2.1 (by
      rw [pow_zero, one_mul, Nat.cast_zero, zero_mul, add_zero]; linarith) e
  refine ⟨k5, fun t ht => (k6 t ht).1, fun t ht => ?_⟩
  have h := (k6 t ht).2
  have hw8 : (1 / 128 : ℝ) ^ 8 ≤ w 0 := by
    refine le_trans (pow_le_pow_of_le_one (by norm_num) (by norm_num) ?_) hwl
    omega
  have e1 : (1 : ℝ) ≤ 2 ^ 56 * w 0 := by
    have : (2 : ℝ) ^ 56 * (1 / 128) ^ 8 = 1 := by norm_num
    rw [← this]
    gcongr
  have h2 : w 0 * val t ^ 2 ≤ w 0 * (2 * (2 ^ 56 * (1 + 400 * X ^ 2) + 8 * 2 ^ 56 * B)) := by
    refine h.trans ?_
    have : 1 + 400 * X ^ 2 ≤ 2 ^ 56 * w 0 * (1 + 400 * X ^ 2) := by
      have : 0 ≤ 1 + 400 * X ^ 2 := by positivity
      nlinarith
    nlinarith
  exact le_of_mul_le_mul_left h2 hw0

/-- the state after a band that started from zero -/
theorem band_state {rc : List F32} (hrc : RcOk rc) {off o : ℕ} (ho : o ≤ 8) (ho0 : 0 < o) {X : ℝ} (hX : 0 ≤ X) (hX2 : X ≤ 2 ^ 36)
    {l st r st' : List F32} (hl : l.length ≤ 400) (hb : AllBd X l) (hst : StBd 0 st)
    (e : @latticeBand F32 (scalar el) rc off o l st = .ok (r, st')) : StBd (2 * (1 + 400 * X ^ 2)) st' := by
  obtain ⟨w, hw⟩ : ∃ w, Weights rc off o w := ⟨_, hrc.weights off o⟩
  have hw0 := hw.pos (k := 0) (by omega)
  have hV := wsum_le hw ho hst le_rfl
  have hX3 : X ^ 2 ≤ 2 ^ 72 := (pow_le_pow_left₀ hX hX2 2).trans (by norm_num)
  obtain ⟨k1, k2, k3, k4, -, -⟩ := band_aux hw ho ho0 (X := X) (A := 1) (by positivity)
    (by norm_num at hX3 ⊢; linarith) l 0 st r st' (by omega) (by rw [hst.1]; exact ho) hb hst.2.1 (by
      rw [pow_zero, one_mul, Nat.cast_zero, zero_mul, add_zero]; linarith) e
  refine ⟨by rw [k2, hst.1], k1, fun k hk => ?_⟩
  rcases Nat.lt_or_ge k o with hko | hko
  · obtain ⟨b1, -⟩ := hw.lower (k := k) hko.le
    have b2 : (1 / 128 : ℝ) ^ (8 - k) ≤ w k := le_trans (pow_le_pow_of_le_one (by norm_num) (by norm_num) (by omega)) b1
    have h1 : w k * val (st'.getD k (fin 0)) ^ 2 ≤ 2 * (1 + 400 * X ^ 2) := by
      have h2 := wsum_split w st' hko
      have h3 : 0 ≤ ∑ j ∈ (range o).erase k, w j * val (st'.getD j (fin 0)) ^ 2 := Finset.sum_nonneg fun j hj =>
        mul_nonneg (hw.pos (Finset.mem_range.1 (Finset.mem_of_mem_erase hj)).le).le (sq_nonneg _)
      linarith
    have h2 : (1 / 128 : ℝ) ^ (8 - k) * val (st'.getD k (fin 0)) ^ 2 ≤ 2 * (1 + 400 * X ^ 2) :=
      (mul_le_mul_of_nonneg_right b2 (sq_nonneg _)).trans h1
    rw [one_div, inv_pow, ← div_eq_inv_mul, div_le_iff₀ (by positivity)] at h2
    exact h2
  · rw [k3 k hko]
    refine (hst.2.2 k hk).trans ?_
    rw [zero_mul]
    positivity

/-! ### The coefficients -/

theorem zero_eq : @Scalar.zero F32 (scalar el) = fin 0 := by
  show rnd 0 = fin 0
  rw [rnd_fin (by norm_num), rndQ_zero]

theorem rcQuantOf_ok (he : Tame el) {i : ℕ} (hi : i < 17) :
    IsFin (@rcQuantOf F32 (scalar el) i) ∧ 1 / 128 ≤ 1 - val (@rcQuantOf F32 (scalar el) i) ^ 2 := by
  letI := scalar el
  unfold rcQuantOf
  split
  · obtain ⟨c, hc, he1⟩ := he.piOver17
    have hpi : Bd (184801 / 1000000) (@Scalar.piOver17 F32 (scalar el)) := by
      have h1 : @Scalar.piOver17 F32 (scalar el) = fin c := hc
      rw [h1]
      refine ⟨⟨c, rfl⟩, ?_⟩
      show |(c : ℝ)| ≤ _
      have hp := Real.pi_lt_d6
      have hp0 := Real.pi_pos
      rw [abs_le] at he1 ⊢
      norm_num at he1 ⊢
      constructor <;> linarith
    have hint : |(((i : ℤ) - 8 : ℤ) : ℝ)| ≤ 8 := by
      have : |(i : ℤ) - 8| ≤ 8 := by rw [abs_le]; omega
      exact_mod_cast this
    have h8 := bd_ofInt (el := el) hint (by norm_num) (by norm_num)
    have hm := hpi.mul h8 (by norm_num) (by norm_num)
    have hm' : Bd (14785 / 10000) (F32.mul (@Scalar.piOver17 F32 (scalar el)) (@Scalar.ofInt F32 (scalar el) ((i : ℤ) - 8))) :=
      hm.mono (by norm_num)
    obtain ⟨⟨q, hq⟩, hb⟩ := hm'
    have hq2 : |(q : ℝ)| ≤ 14785 / 10000 := by rw [hq] at hb; exact hb
    obtain ⟨s, hs, hse⟩ := he.sin q (by
      have : |(q : ℝ)| ≤ ((2 : ℚ) : ℝ) := hq2.trans (by norm_num)
      exact_mod_cast this)
    have hval : @Scalar.sin F32 (scalar el) (F32.mul (@Scalar.piOver17 F32 (scalar el)) (@Scalar.ofInt F32 (scalar el) ((i : ℤ) - 8))) = fin s := by
      rw [hq]; exact hs
    show IsFin (@Scalar.sin F32 (scalar el) (F32.mul (@Scalar.piOver17 F32 (scalar el)) (@Scalar.ofInt F32 (scalar el) ((i : ℤ) - 8)))) ∧
      1 / 128 ≤ 1 - val (@Scalar.sin F32 (scalar el) (F32.mul (@Scalar.piOver17 F32 (scalar el)) (@Scalar.ofInt F32 (scalar el) ((i : ℤ) - 8)))) ^ 2
    rw [hval]
    refine ⟨⟨s, rfl⟩, ?_⟩
    show 1 / 128 ≤ 1 - (s : ℝ) ^ 2
    -- the sine stays away from one
    have hsin : |Real.sin q| ≤ 9958 / 10000 := by
      have hpi1 := Real.pi_gt_d6
      have key : ∀ y : ℝ, 0 ≤ y → y ≤ 14785 / 10000 → Real.sin y ≤ 9958 / 10000 := by
        intro y h0 hy
        have h1 : Real.sin y ≤ Real.sin (14785 / 10000) := by
          apply Real.sin_le_sin_of_le_of_le_pi_div_two <;> linarith
        refine h1.trans ?_
        rw [← Real.cos_pi_div_two_sub]
        have hx0 : (92296 / 1000000 : ℝ) ≤ Real.pi / 2 - 14785 / 10000 := by linarith
        have h2 : Real.cos (Real.pi / 2 - 14785 / 10000) ≤ Real.cos (92296 / 1000000) := by
          apply Real.cos_le_cos_of_nonneg_of_le_pi <;> linarith
        refine h2.trans ?_
        have h3 := Real.cos_bound (x := 92296 / 1000000) (by norm_num [abs_le])
        rw [abs_le] at h3
        norm_num [abs_of_pos] at h3
        linarith [h3.2]
      rcases le_total 0 (q : ℝ) with h0 | h0
      · rw [abs_of_nonneg (Real.sin_nonneg_of_nonneg_of_le_pi h0 (by rw [abs_of_nonneg h0] at hq2; linarith))]
        exact key _ h0 (by rwa [abs_of_nonneg h0] at hq2)
      · rw [← abs_neg, ← Real.sin_neg]
        rw [abs_of_nonpos h0] at hq2
        rw [abs_of_nonneg (Real.sin_nonneg_of_nonneg_of_le_pi (by linarith) (by linarith))]
        exact key _ (by linarith) hq2
    have hs2 : |(s : ℝ)| ≤ 99581 / 100000 := by
      have := abs_sub_abs_le_abs_sub (s : ℝ) (Real.sin q)
      norm_num at hse ⊢
      linarith
    have : (s : ℝ) ^ 2 ≤ (99581 / 100000) ^ 2 := by
      rw [← sq_abs]
      exact pow_le_pow_left₀ (abs_nonneg _) hs2 2
    norm_num at this ⊢
    linarith
  · have h0 : @Scalar.zero F32 (scalar el) = fin 0 := zero_eq
    rw [h0]
    refine ⟨⟨0, rfl⟩, ?_⟩
    show 1 / 128 ≤ 1 - (((0 : ℚ)) : ℝ) ^ 2
    norm_num

theorem rcQuant_ok (he : Tame el) {ints : List ℕ} (hi : ∀ c ∈ ints, c < 17) : RcOk (@rcQuant F32 (scalar el) ints) := by
  intro k
  have h0 : ∀ a ∈ @rcQuant F32 (scalar el) ints, IsFin a ∧ 1 / 128 ≤ 1 - val a ^ 2 := by
    intro a ha
    unfold rcQuant at ha
    rcases List.mem_append.1 ha with ha | ha
    · obtain ⟨c, hc, rfl⟩ := List.mem_map.1 ha
      exact rcQuantOf_ok he (hi c (List.mem_of_mem_take hc))
    · rw [(List.mem_replicate.1 ha).2]
      have h0 : @Scalar.zero F32 (scalar el) = fin 0 := zero_eq
      rw [h0]
      refine ⟨⟨0, rfl⟩, ?_⟩
      show 1 / 128 ≤ 1 - (((0 : ℚ)) : ℝ) ^ 2
      norm_num
  rw [List.getD_eq_getElem?_getD]
  cases hk : (@rcQuant F32 (scalar el) ints)[k]? with
  | none =>
    refine ⟨⟨0, rfl⟩, ?_⟩
    show 1 / 128 ≤ 1 - (((0 : ℚ)) : ℝ) ^ 2
    norm_num
  | some a => exact h0 a (List.mem_of_getElem? hk)

/-! ### The whole filter -/

theorem bd_of_sq {a : F32} {B : ℝ} (h : IsFin a) (hB : 0 ≤ B) (h2 : val a ^ 2 ≤ B ^ 2) : Bd B a :=
  ⟨h, abs_le_of_sq_le_sq h2 hB⟩

theorem stBd_zero : StBd 0 (List.replicate 8 (fin 0)) := by
  refine ⟨by simp, ?_, ?_⟩
  · intro a ha
    rw [(List.mem_replicate.1 ha).2]
    exact ⟨0, rfl⟩
  · intro k hk
    rw [List.getD_eq_getElem?_getD, List.getElem?_replicate, if_pos hk]
    show (((0 : ℚ)) : ℝ) ^ 2 ≤ _
    norm_num

theorem StBd.weak {B : ℝ} {st : List F32} (h : StBd 0 st) (hB : 0 ≤ B) : StBd B st := by
  refine ⟨h.1, h.2.1, fun k hk => (h.2.2 k hk).trans ?_⟩
  rw [zero_mul]
  positivity

/-- one band of the loop, at most one band before it -/
theorem bd_tnsOne {rc : List F32} (hrc : RcOk rc) {f o a b : ℕ} (ho : o ≤ 8) (ho0 : 0 < o) {st : List F32} (hst : StBd (2 * (1 + 400 * (2 ^ 36) ^ 2)) st)
    {l r st' : List F32} (hl : l.length ≤ 400) (hb : AllBd (2 ^ 36) ((l.take b).drop a))
    (e : @latticeBand F32 (scalar el) rc (f * 8) o ((l.take b).drop a) st = .ok (r, st')) :
    r.length = ((l.take b).drop a).length ∧ AllBd (2 ^ 71) r := by
  obtain ⟨h1, h2, h3⟩ := band_bd hrc ho ho0 (X := 2 ^ 36) (by norm_num) le_rfl (by norm_num) (by norm_num) (by
    rw [List.length_drop, List.length_take]; omega) hb hst e
  refine ⟨h1, fun t ht => bd_of_sq (h2 t ht) (by norm_num) ((h3 t ht).trans ?_)⟩
  norm_num

theorem bd_tnsDecode (he : Tame el) {d : FrameDuration} {bw nf : ℕ} {orders ints : List ℕ} {l r : List F32} (hl : l.length ≤ 400)
    (ho : ∀ o ∈ orders, o ≤ 8) (hi : ∀ c ∈ ints, c < 17) (h : AllBd (2 ^ 36) l)
    (e : @tnsDecode F32 (scalar el) d bw nf orders ints l = .ok r) : r.length = l.length ∧ AllBd (2 ^ 71) r := by
  letI := scalar el
  have hrc := rcQuant_ok he hi
  have h71 : AllBd (2 ^ 71) l := h.mono (by norm_num)
  unfold tnsDecode at e
  simp only [] at e
  split at e
  · cases e
  rename_i hbands
  split at e
  · cases e
  have ho' : ∀ o ∈ orders.take nf, o ≤ 8 := fun o ho2 => ho o (List.mem_of_mem_take ho2)
  generalize orders.take nf = os at e ho'
  generalize hbs : tnsBandsDec d bw = bs at e hbands
  have hshape : (∃ a b, bs = [(a, b)] ∧ a ≤ b) ∨ ∃ a b c, bs = [(a, b), (b, c)] ∧ a ≤ b ∧ b ≤ c := by
    rw [← hbs]
    unfold tnsBandsDec
    split <;> simp
  have h0 : @Scalar.zero F32 (scalar el) = fin 0 := zero_eq
  rw [h0] at e
  have step : ∀ (f a b : ℕ) (os : List ℕ) (l r st : List F32), (∀ o ∈ os, o ≤ 8) → l.length ≤ 400 → a ≤ b → b ≤ l.length →
      StBd (2 * (1 + 400 * (2 ^ 36) ^ 2)) st → AllBd (2 ^ 71) l → AllBd (2 ^ 36) ((l.take b).drop a) →
      tnsLoop (rcQuant ints) f [(a, b)] os l st = .ok r → r.length = l.length ∧ AllBd (2 ^ 71) r := by
    intro f a b os l r st ho hl hab hbl hst hl71 hl36 e
    cases os with
    | nil =>
      simp only [tnsLoop, Res.ok.injEq] at e
      subst e
      exact ⟨rfl, hl71⟩
    | cons o os =>
      rw [tnsLoop] at e
      split at e
      · rename_i ho0
        obtain ⟨⟨l2, st2⟩, h1, e⟩ := bind_ok_inv e
        obtain ⟨k1, k2⟩ := bd_tnsOne hrc (ho o (by simp)) ho0 hst hl hl36 h1
        simp only [tnsLoop, Res.ok.injEq] at e
        subst e
        refine ⟨?_, ((hl71.take _).append k2).append (hl71.drop _)⟩
        simp only [List.length_append, List.length_take, List.length_drop, k1]
        omega
      · simp only [tnsLoop, Res.ok.injEq] at e
        subst e
        exact ⟨rfl, hl71⟩
  rcases hshape with ⟨a, b, rfl, hab⟩ | ⟨a, b, c, rfl, hab, hbc⟩
  · simp only [List.any_cons, List.any_nil, Bool.or_false, decide_eq_true_eq, Nat.not_lt] at hbands
    exact step 0 a b os l r _ ho' hl hab hbands (stBd_zero.weak (by positivity)) h71 ((h.take _).drop _) e
  · simp only [List.any_cons, List.any_nil, Bool.or_false, decide_eq_true_eq, Bool.or_eq_true, not_or, Nat.not_lt] at hbands
    cases os with
    | nil =>
      simp only [tnsLoop, Res.ok.injEq] at e
      subst e
      exact ⟨rfl, h71⟩
    | cons o os =>
      rw [tnsLoop] at e
      split at e
      · rename_i ho0
        obtain ⟨⟨l2, st2⟩, h1, e⟩ := bind_ok_inv e
        have hlen : ((l.take b).drop a).length ≤ 400 := by rw [List.length_drop, List.length_take]; omega
        obtain ⟨k1, k2⟩ := bd_tnsOne hrc (ho' o (by simp)) ho0 (stBd_zero.weak (by positivity)) hl ((h.take _).drop _) h1
        have hst2 := band_state hrc (ho' o (by simp)) ho0 (X := 2 ^ 36) (by norm_num) le_rfl hlen ((h.take _).drop _) stBd_zero h1
        have hl2 : (l.take a ++ l2 ++ l.drop b).length = l.length := by
          simp only [List.length_append, List.length_take, List.length_drop, k1]
          omega
        have hdrop : (l.take a ++ l2 ++ l.drop b).drop b = l.drop b := by
          rw [List.drop_append_of_le_length, List.drop_eq_nil_of_le, List.nil_append]
          all_goals simp only [List.length_append, List.length_take, List.length_drop, k1]; omega
        obtain ⟨m1, m2⟩ := step 1 b c os _ r st2 (fun o ho2 => ho' o (by simp [ho2])) (by omega) hbc (by omega) hst2
          (((h71.take _).append k2).append (h71.drop _)) (by
            rw [List.drop_take, hdrop]
            exact (h.drop _).take _) e
        exact ⟨by omega, m2⟩
      · exact step 1 b c os l r _ (fun o ho2 => ho' o (by simp [ho2])) hl hbc hbands.2 (stBd_zero.weak (by positivity)) h71
          ((h.take _).drop _) e

end Lc3.F32
