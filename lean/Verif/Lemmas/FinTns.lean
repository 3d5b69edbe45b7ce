import Verif.Lemmas.F32Fin
import Verif.Spec.Finite
import Mathlib.Analysis.Real.Pi.Bounds
/-! Sizes in the decoder in binary32: the lattice of the temporal noise shaping. A weighted energy of the lattice state grows by
at most the energy of the input and a small factor for the rounding errors. -/

namespace Lc3.F32
open Scalar Finset

variable {el : Elem}

theorem sq_near {c a b d R : ℝ} (hc : 0 ≤ c) (hc1 : c ≤ 1) (hR : 0 ≤ R) (h : |a - b| ≤ d * R) (hb : c * |b| ≤ R) :
    c * a ^ 2 ≤ c * b ^ 2 + (2 * d + d ^ 2) * R ^ 2 := by
  have e : c * a ^ 2 = c * b ^ 2 + 2 * (c * b * (a - b)) + c * (a - b) ^ 2 := by ring
  have h1 : c * b * (a - b) ≤ R * (d * R) := by
    refine (le_abs_self _).trans ?_
    rw [abs_mul, abs_mul, abs_of_nonneg hc]
    exact mul_le_mul hb h (abs_nonneg _) hR
  have h2 : (a - b) ^ 2 ≤ (d * R) ^ 2 := by
    rw [← sq_abs]
    exact pow_le_pow_left₀ (abs_nonneg _) h 2
  have h3 : c * (a - b) ^ 2 ≤ (a - b) ^ 2 := by nlinarith [sq_nonneg (a - b)]
  have e2 : (2 * d + d ^ 2) * R ^ 2 = 2 * (R * (d * R)) + (d * R) ^ 2 := by ring
  rw [e, e2]
  linarith

/-- one section of the lattice -/
theorem section_bd {r t s : F32} (hr : IsFin r) (ht : IsFin t) (hs : IsFin s) {c F : ℝ} (hc : c = 1 - val r ^ 2) (hc1 : 1 / 128 ≤ c)
    (hF : F = val t ^ 2 + c * val s ^ 2 + 1) (hF2 : F ≤ 2 ^ 210) :
    IsFin (sub t (mul r s)) ∧ IsFin (add (mul r (sub t (mul r s))) s) ∧
      val (add (mul r (sub t (mul r s))) s) ^ 2 + c * val (sub t (mul r s)) ^ 2 + 1 ≤ (1 + 1 / 2 ^ 16) * F := by
  obtain ⟨T, hT⟩ : ∃ T, T = val t := ⟨_, rfl⟩
  obtain ⟨S, hS⟩ : ∃ S, S = val s := ⟨_, rfl⟩
  obtain ⟨ρ, hρ⟩ : ∃ ρ, ρ = val r := ⟨_, rfl⟩
  rw [← hT, ← hS] at hF
  rw [← hρ] at hc
  have hcS : 0 ≤ c * S ^ 2 := by positivity
  have hF1 : 1 ≤ F := by nlinarith [sq_nonneg T]
  obtain ⟨R, hR⟩ : ∃ R, R = Real.sqrt F := ⟨_, rfl⟩
  have hRF : R ^ 2 = F := by rw [hR, Real.sq_sqrt (by linarith)]
  have hR1 : 1 ≤ R := by rw [hR, Real.one_le_sqrt]; exact hF1
  have hR2 : R ≤ 2 ^ 105 := by
    rw [hR, Real.sqrt_le_iff]
    exact ⟨by positivity, hF2.trans (by norm_num)⟩
  have hρ1 : |ρ| ≤ 1 := by
    rw [abs_le_one_iff_mul_self_le_one]
    nlinarith
  have bT : |T| ≤ R := by
    refine abs_le_of_sq_le_sq ?_ (by linarith)
    rw [hRF]; linarith
  have bS : |S| ≤ 114 / 10 * R := by
    refine abs_le_of_sq_le_sq ?_ (by linarith)
    have : S ^ 2 ≤ 128 * F := by nlinarith [sq_nonneg T, sq_nonneg S]
    nlinarith
  -- exact section
  obtain ⟨X, hX⟩ : ∃ X, X = T - ρ * S := ⟨_, rfl⟩
  obtain ⟨G, hG⟩ : ∃ G, G = ρ * X + S := ⟨_, rfl⟩
  have hid : G ^ 2 + c * X ^ 2 + 1 = F := by rw [hG, hX, hF, hc]; ring
  have hcX : 0 ≤ c * X ^ 2 := by positivity
  have bG : |G| ≤ R := by
    refine abs_le_of_sq_le_sq ?_ (by linarith)
    rw [hRF]; linarith
  have bX : |X| ≤ 114 / 10 * R := by
    refine abs_le_of_sq_le_sq ?_ (by linarith)
    have : X ^ 2 ≤ 128 * F := by nlinarith [sq_nonneg G, sq_nonneg X]
    nlinarith
  have hc2 : c ≤ 1 := by rw [hc]; nlinarith [sq_nonneg ρ]
  have bcX : c * |X| ≤ R := by
    rw [← abs_of_nonneg (show 0 ≤ c * |X| by positivity)]
    refine abs_le_of_sq_le_sq ?_ (by linarith)
    have : (c * |X|) ^ 2 = c * (c * X ^ 2) := by rw [mul_pow, sq_abs]; ring
    rw [this, hRF]
    nlinarith [sq_nonneg G]
  have bρS : |ρ * S| ≤ 114 / 10 * R := by
    rw [abs_mul]
    calc |ρ| * |S| ≤ 1 * (114 / 10 * R) := mul_le_mul hρ1 bS (abs_nonneg _) (by norm_num)
      _ = _ := one_mul _
  -- the product
  obtain ⟨fp, ep⟩ := mul_val hr hs (by rw [← hρ, ← hS]; refine bρS.trans ?_; norm_num at hR2 ⊢; linarith)
  rw [← hρ, ← hS] at ep
  generalize hp : mul r s = p at *
  have ep' : |val p - ρ * S| ≤ 115 / 10 / 2 ^ 24 * R := by norm_num at ep bρS ⊢; linarith
  have bp : |T - val p| ≤ 125 / 10 * R := by
    have e : T - val p = T - ρ * S - (val p - ρ * S) := by ring
    rw [e, ← hX]
    have := abs_sub X (val p - ρ * S)
    norm_num at ep' this ⊢
    linarith
  obtain ⟨fx, ex⟩ := sub_val ht fp (by rw [← hT]; refine bp.trans ?_; norm_num at hR2 ⊢; linarith)
  rw [← hT] at ex
  generalize hx : sub t p = x at *
  have dx : |val x - X| ≤ 25 / 2 ^ 24 * R := by
    have e : val x - X = (val x - (T - val p)) - (val p - ρ * S) := by rw [hX]; ring
    rw [e]
    have := abs_sub (val x - (T - val p)) (val p - ρ * S)
    norm_num at ep' ex bp this ⊢
    linarith
  have bx : |val x| ≤ 115 / 10 * R := by
    have := abs_sub_abs_le_abs_sub (val x) X
    norm_num at dx ⊢
    linarith
  have bρx : |ρ * val x| ≤ 115 / 10 * R := by
    rw [abs_mul]
    calc |ρ| * |val x| ≤ 1 * (115 / 10 * R) := mul_le_mul hρ1 bx (abs_nonneg _) (by norm_num)
      _ = _ := one_mul _
  obtain ⟨fq, eq⟩ := mul_val hr fx (by rw [← hρ]; refine bρx.trans ?_; norm_num at hR2 ⊢; linarith)
  rw [← hρ] at eq
  generalize hq : mul r x = q at *
  have eq' : |val q - ρ * val x| ≤ 116 / 10 / 2 ^ 24 * R := by norm_num at eq bρx ⊢; linarith
  have dρ : |ρ * (val x - X)| ≤ 25 / 2 ^ 24 * R := by
    rw [abs_mul]
    calc |ρ| * |val x - X| ≤ 1 * (25 / 2 ^ 24 * R) := mul_le_mul hρ1 dx (abs_nonneg _) (by norm_num)
      _ = _ := one_mul _
  have dq : |(val q + S) - G| ≤ 37 / 2 ^ 24 * R := by
    have e : (val q + S) - G = (val q - ρ * val x) + ρ * (val x - X) := by rw [hG]; ring
    rw [e]
    have := abs_add_le (val q - ρ * val x) (ρ * (val x - X))
    norm_num at eq' dρ this ⊢
    linarith
  have bq : |val q + S| ≤ 11 / 10 * R := by
    have := abs_sub_abs_le_abs_sub (val q + S) G
    norm_num at dq ⊢
    linarith
  obtain ⟨fg, eg⟩ := add_val fq hs (by rw [← hS]; refine bq.trans ?_; norm_num at hR2 ⊢; linarith)
  rw [← hS] at eg
  generalize hg : add q s = g at *
  have dg : |val g - G| ≤ 39 / 2 ^ 24 * R := by
    have e : val g - G = (val g - (val q + S)) + ((val q + S) - G) := by ring
    rw [e]
    have := abs_add_le (val g - (val q + S)) ((val q + S) - G)
    norm_num at eg dq bq this ⊢
    linarith
  refine ⟨fx, fg, ?_⟩
  have hR0 : 0 ≤ R := by linarith
  have sg := sq_near (c := 1) (by norm_num) le_rfl hR0 dg (by rw [one_mul]; exact bG)
  have sx := sq_near (by linarith) hc2 hR0 dx bcX
  rw [one_mul, one_mul, hRF] at sg
  rw [hRF] at sx
  norm_num at sg sx ⊢
  linarith

/-! ### One line -/

/-- the weighted energy of the lattice state -/
noncomputable def wsum (o : ℕ) (w : ℕ → ℝ) (st : List F32) : ℝ := ∑ k ∈ range o, w k * val (st.getD k (fin 0)) ^ 2

theorem getD_set_self {st : List F32} {k : ℕ} (h : k < st.length) (a : F32) : (st.set k a).getD k (fin 0) = a := by
  rw [List.getD_eq_getElem?_getD, List.getElem?_set_self h]
  rfl

theorem getD_set_ne {st : List F32} {j k : ℕ} (h : k ≠ j) (a : F32) : (st.set k a).getD j (fin 0) = st.getD j (fin 0) := by
  rw [List.getD_eq_getElem?_getD, List.getElem?_set_ne h, ← List.getD_eq_getElem?_getD]

theorem wsum_set {o : ℕ} (w : ℕ → ℝ) {st : List F32} {k : ℕ} (hk : k < o) (hl : k < st.length) (a : F32) :
    wsum o w (st.set k a) = (∑ j ∈ (range o).erase k, w j * val (st.getD j (fin 0)) ^ 2) + w k * val a ^ 2 := by
  unfold wsum
  rw [← Finset.sum_erase_add _ _ (Finset.mem_range.2 hk), getD_set_self hl]
  congr 1
  refine Finset.sum_congr rfl fun j hj => ?_
  rw [getD_set_ne (Ne.symm (Finset.ne_of_mem_erase hj))]

theorem wsum_split {o : ℕ} (w : ℕ → ℝ) (st : List F32) {k : ℕ} (hk : k < o) :
    wsum o w st = (∑ j ∈ (range o).erase k, w j * val (st.getD j (fin 0)) ^ 2) + w k * val (st.getD k (fin 0)) ^ 2 := by
  unfold wsum
  rw [← Finset.sum_erase_add _ _ (Finset.mem_range.2 hk)]

/-- the weights of a lattice of order `o` whose coefficients start at `off` -/
structure Weights (rc : List F32) (off o : ℕ) (w : ℕ → ℝ) : Prop where
  isFin : ∀ k, k < o → IsFin (rc.getD (k + off) (fin 0))
  step : ∀ k, k < o → w k = (1 - val (rc.getD (k + off) (fin 0)) ^ 2) * w (k + 1)
  last : w o = 1
  lo : ∀ k, k < o → 1 / 128 ≤ 1 - val (rc.getD (k + off) (fin 0)) ^ 2

theorem Weights.bounds {rc : List F32} {off o : ℕ} {w : ℕ → ℝ} (h : Weights rc off o w) : ∀ i, i ≤ o →
    (1 / 128 : ℝ) ^ i ≤ w (o - i) ∧ w (o - i) ≤ 1
  | 0, _ => by rw [Nat.sub_zero, h.last]; norm_num
  | i + 1, hi => by
    obtain ⟨h1, h2⟩ := h.bounds i (by omega)
    have e := h.step (o - (i + 1)) (by omega)
    have hl := h.lo (o - (i + 1)) (by omega)
    rw [show o - (i + 1) + 1 = o - i by omega] at e
    have h0 : (0 : ℝ) < (1 / 128) ^ i := by positivity
    constructor
    · rw [e, pow_succ, mul_comm]
      exact mul_le_mul hl h1 h0.le (by linarith)
    · rw [e]
      have : 1 - val (rc.getD (o - (i + 1) + off) (fin 0)) ^ 2 ≤ 1 := by nlinarith [sq_nonneg (val (rc.getD (o - (i + 1) + off) (fin 0)))]
      nlinarith

theorem Weights.lower {rc : List F32} {off o : ℕ} {w : ℕ → ℝ} (h : Weights rc off o w) {k : ℕ} (hk : k ≤ o) :
    (1 / 128 : ℝ) ^ (o - k) ≤ w k ∧ w k ≤ 1 := by
  have := h.bounds (o - k) (by omega)
  rwa [show o - (o - k) = k by omega] at this

theorem Weights.pos {rc : List F32} {off o : ℕ} {w : ℕ → ℝ} (h : Weights rc off o w) {k : ℕ} (hk : k ≤ o) : 0 < w k :=
  lt_of_lt_of_le (by positivity) (h.lower hk).1

/-- all entries are finite -/
def AllFin (l : List F32) : Prop := ∀ a ∈ l, IsFin a

theorem AllFin.getD {l : List F32} (h : AllFin l) (k : ℕ) : IsFin (l.getD k (fin 0)) := by
  rw [List.getD_eq_getElem?_getD]
  cases hk : l[k]? with
  | none => exact ⟨0, rfl⟩
  | some a => exact h a (List.mem_of_getElem? hk)

theorem AllFin.set {l : List F32} (h : AllFin l) (i : ℕ) {a : F32} (ha : IsFin a) : AllFin (l.set i a) := by
  intro b hb
  rcases List.mem_or_eq_of_mem_set hb with hb | rfl
  · exact h b hb
  · exact ha

theorem idx_getD {l : List F32} {k : ℕ} {a : F32} (e : idx l k = .ok a) : l.getD k (fin 0) = a ∧ k < l.length := by
  have h := idx_ok_iff.1 e
  rw [List.getD_eq_getElem?_getD, h]
  exact ⟨rfl, (List.getElem?_eq_some_iff.1 h).1⟩

/-- one section with its weight -/
theorem section_weighted {r t s : F32} (hr : IsFin r) (ht : IsFin t) (hs : IsFin s) {c v rest M : ℝ} (hc : c = 1 - val r ^ 2)
    (hc1 : 1 / 128 ≤ c) (hv : (1 / 128) ^ 8 ≤ v) (hv1 : v ≤ 1) (hrest : 0 ≤ rest)
    (hM : rest + v * (val t ^ 2 + c * val s ^ 2) + 1 ≤ M) (hM2 : M ≤ 2 ^ 150) :
    IsFin (sub t (mul r s)) ∧ IsFin (add (mul r (sub t (mul r s))) s) ∧
      rest + v * (val (add (mul r (sub t (mul r s))) s) ^ 2 + c * val (sub t (mul r s)) ^ 2) + 1 ≤ (1 + 1 / 2 ^ 16) * M := by
  have hv0 : 0 < v := lt_of_lt_of_le (by positivity) hv
  have hE : 0 ≤ val t ^ 2 + c * val s ^ 2 := by positivity
  have hb : val t ^ 2 + c * val s ^ 2 + 1 ≤ 2 ^ 210 := by
    have h1 : v * (val t ^ 2 + c * val s ^ 2) ≤ 2 ^ 150 := by linarith
    have h2 : (1 / 128 : ℝ) ^ 8 * (val t ^ 2 + c * val s ^ 2) ≤ v * (val t ^ 2 + c * val s ^ 2) := by gcongr
    norm_num at h1 h2 ⊢
    linarith
  obtain ⟨h1, h2, h3⟩ := section_bd hr ht hs hc hc1 rfl hb
  refine ⟨h1, h2, ?_⟩
  generalize val (add (mul r (sub t (mul r s))) s) ^ 2 + c * val (sub t (mul r s)) ^ 2 = E' at *
  generalize val t ^ 2 + c * val s ^ 2 = E at *
  have h4 := mul_le_mul_of_nonneg_left h3 hv0.le
  have e1 : v * (E' + 1) = v * E' + v := by ring
  have e2 : v * ((1 + 1 / 2 ^ 16) * (E + 1)) = v * E + v + 1 / 2 ^ 16 * (v * E + v) := by ring
  rw [e1, e2] at h4
  have h5 : 0 ≤ v * E := by positivity
  have e3 : (1 + 1 / 2 ^ 16) * M = M + 1 / 2 ^ 16 * M := by ring
  rw [e3]
  have : (1 : ℝ) / 2 ^ 16 * (v * E + v) ≤ 1 / 2 ^ 16 * M := by
    gcongr
    linarith
  linarith

theorem loop_bd {rc : List F32} {off o : ℕ} {w : ℕ → ℝ} (hw : Weights rc off o w) (ho : o ≤ 8) : ∀ (k : ℕ) (t : F32) (st : List F32) (M : ℝ) (t' : F32)
    (st' : List F32), k < o → o ≤ st.length → IsFin t → AllFin st → wsum o w (st.set k t) + 1 ≤ M → (1 + 1 / 2 ^ 16) ^ k * M ≤ 2 ^ 150 →
    @latticeLoop F32 (scalar el) rc off k t st = .ok (t', st') →
    IsFin t' ∧ AllFin st' ∧ st'.length = st.length ∧ (∀ j, o ≤ j → st'.getD j (fin 0) = st.getD j (fin 0)) ∧
      wsum o w (st'.set 0 t') + 1 ≤ (1 + 1 / 2 ^ 16) ^ k * M
  | 0, t, st, M, t', st', hk, hl, ht, hst, hM, _, e => by
    simp only [latticeLoop, Res.ok.injEq, Prod.mk.injEq] at e
    obtain ⟨rfl, rfl⟩ := e
    exact ⟨ht, hst, rfl, fun _ _ => rfl, by simpa using hM⟩
  | k + 1, t, st, M, t', st', hk, hl, ht, hst, hM, hM2, e => by
    letI := scalar el
    rw [latticeLoop] at e
    obtain ⟨r, h1, e⟩ := bind_ok_inv e
    obtain ⟨s, h2, e⟩ := bind_ok_inv e
    obtain ⟨st1, h3, e⟩ := bind_ok_inv e
    obtain ⟨hr, -⟩ := idx_getD h1
    obtain ⟨hs, hkl⟩ := idx_getD h2
    have hst1 : st1 = st.set (k + 1) (add (mul r (sub t (mul r s))) s) := by
      unfold setIdx at h3
      split at h3
      · cases h3; rfl
      · cases h3
    have fr : IsFin r := by rw [← hr]; exact hw.isFin k (by omega)
    have fs : IsFin s := by rw [← hs]; exact hst.getD k
    have hstep := hw.step k (by omega)
    have hlo := hw.lo k (by omega)
    rw [hr] at hstep hlo
    obtain ⟨b1, b2⟩ := hw.lower (k := k + 1) (by omega)
    have b3 : (1 / 128 : ℝ) ^ 8 ≤ w (k + 1) := le_trans (pow_le_pow_of_le_one (by norm_num) (by norm_num) (by omega)) b1
    have hM1 : M ≤ 2 ^ 150 := by
      refine le_trans ?_ hM2
      have h1M : 1 ≤ M := by
        refine le_trans ?_ hM
        have : 0 ≤ wsum o w (st.set (k + 1) t) := Finset.sum_nonneg fun j hj =>
          mul_nonneg (hw.pos (Finset.mem_range.1 hj).le).le (sq_nonneg _)
        linarith
      have : (1 : ℝ) ≤ (1 + 1 / 2 ^ 16) ^ (k + 1) := one_le_pow₀ (by norm_num)
      nlinarith
    -- the two entries in play
    obtain ⟨rest, hrest⟩ : ∃ rest, rest = ∑ j ∈ ((range o).erase (k + 1)).erase k, w j * val (st.getD j (fin 0)) ^ 2 := ⟨_, rfl⟩
    have hrest0 : 0 ≤ rest := by
      rw [hrest]
      refine Finset.sum_nonneg fun j hj => mul_nonneg (hw.pos ?_).le (sq_nonneg _)
      exact (Finset.mem_range.1 (Finset.mem_of_mem_erase (Finset.mem_of_mem_erase hj))).le
    have hkmem : k ∈ (range o).erase (k + 1) := Finset.mem_erase.2 ⟨by omega, Finset.mem_range.2 (by omega)⟩
    have hold : wsum o w (st.set (k + 1) t) = rest + w (k + 1) * (val t ^ 2 + (1 - val r ^ 2) * val s ^ 2) := by
      rw [wsum_set w hk (by omega), ← Finset.sum_erase_add _ _ hkmem, ← hrest, hs, hstep]
      ring
    obtain ⟨f1, f2, f3⟩ := section_weighted fr ht fs rfl hlo b3 b2 hrest0 (by rw [← hold]; exact hM) hM1
    obtain ⟨x, hx⟩ : ∃ x, x = sub t (mul r s) := ⟨_, rfl⟩
    obtain ⟨g, hg⟩ : ∃ g, g = add (mul r x) s := ⟨_, rfl⟩
    rw [← hx] at f1 f2 f3 hst1
    rw [← hg] at f2 f3 hst1
    have hnew : wsum o w (st1.set k x) = rest + w (k + 1) * (val g ^ 2 + (1 - val r ^ 2) * val x ^ 2) := by
      have hl1 : k < st1.length := by rw [hst1, List.length_set]; omega
      rw [wsum_set w (by omega) hl1, hstep]
      have e1 : ∑ j ∈ (range o).erase k, w j * val (st1.getD j (fin 0)) ^ 2 = rest + w (k + 1) * val g ^ 2 := by
        have hkm : k + 1 ∈ (range o).erase k := Finset.mem_erase.2 ⟨by omega, Finset.mem_range.2 (by omega)⟩
        rw [← Finset.sum_erase_add _ _ hkm, hst1, getD_set_self (by omega), hrest, Finset.erase_right_comm]
        congr 1
        refine Finset.sum_congr rfl fun j hj => ?_
        rw [getD_set_ne]
        exact (Finset.ne_of_mem_erase (Finset.mem_of_mem_erase hj)).symm
      rw [e1]
      ring
    have hM' : (1 + 1 / 2 ^ 16 : ℝ) ^ k * ((1 + 1 / 2 ^ 16) * M) = (1 + 1 / 2 ^ 16) ^ (k + 1) * M := by ring
    have ih := loop_bd hw ho k x st1 ((1 + 1 / 2 ^ 16) * M) t' st' (by omega) (by rw [hst1, List.length_set]; exact hl) f1
      (by rw [hst1]; exact hst.set _ f2) (by rw [hnew]; exact f3) (by rw [hM']; exact hM2) (by rw [hx]; exact e)
    obtain ⟨i1, i2, i3, i4, i5⟩ := ih
    refine ⟨i1, i2, by rw [i3, hst1, List.length_set], ?_, by rw [← hM']; exact i5⟩
    intro j hj
    rw [i4 j hj, hst1, getD_set_ne (by omega)]

end Lc3.F32
