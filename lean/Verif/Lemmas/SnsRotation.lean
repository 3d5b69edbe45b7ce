import Verif.Props.SnsInverse
import Verif.Spec.SnsQuant
import Mathlib.LinearAlgebra.FiniteDimensional.Basic
import Mathlib.LinearAlgebra.Matrix.ToLin
import Mathlib.Algebra.BigOperators.Fin
/-! The rotation of the second stage of the scale factor quantiser is orthonormal up to the precision of its table. -/

namespace Lc3
open Spec Tables Scalar

/-- entry of the table, as numerator -/
def rotNum (i j : Fin 16) : Int := (D_num.getD i []).getD j 0

/-- entry of the table -/
noncomputable def rotEntry (i j : Fin 16) : ℝ := (rotNum i j : ℝ) / 100000000000000000

theorem rotEntry_eq (i j : Fin 16) : ((((D.getD i []).getD j 0 : ℚ)) : ℝ) = rotEntry i j := by
  have hl : D_num.length = 16 := by decide
  have h2 : ∀ r ∈ D_num, r.length = 16 := by decide
  unfold rotEntry rotNum D
  rw [List.getD_eq_getElem (D_num.map _) _ (by rw [List.length_map, hl]; exact i.2), List.getElem_map,
    List.getD_eq_getElem D_num _ (by rw [hl]; exact i.2)]
  have h3 := h2 _ (List.getElem_mem (by rw [hl]; exact i.2 : (i : Nat) < D_num.length))
  rw [List.getD_eq_getElem _ _ (by rw [List.length_map, h3]; exact j.2), List.getElem_map,
    List.getD_eq_getElem _ _ (by rw [h3]; exact j.2), Rat.mkRat_eq_div]
  push_cast
  congr 1

/-- deviation of the products of rows from those of an orthonormal matrix, in units of 10⁻³⁴ -/
def rowDev (i k : Fin 16) : Int := ∑ j : Fin 16, rotNum i j * rotNum k j - if i = k then 10000000000000000000000000000000000 else 0

/-- deviation of the products of columns -/
def colDev (j k : Fin 16) : Int := ∑ i : Fin 16, rotNum i j * rotNum i k - if j = k then 10000000000000000000000000000000000 else 0

theorem sumFin16_eq (f : Fin 16 → Int) : ∑ j, f j = (List.ofFn f).sum := by rw [List.sum_ofFn]

set_option maxRecDepth 100000 in
theorem rowDev_bound : ∀ i : Fin 16, ∑ k, |rowDev i k| ≤ 20000000000000000000 := by
  simp only [rowDev, sumFin16_eq]
  decide +kernel

set_option maxRecDepth 100000 in
theorem colDev_bound : ∀ i : Fin 16, ∑ k, |colDev i k| ≤ 20000000000000000000 := by
  simp only [colDev, sumFin16_eq]
  decide +kernel

theorem rowDev_symm (i k : Fin 16) : rowDev i k = rowDev k i := by
  unfold rowDev
  congr 1
  · exact Finset.sum_congr rfl fun _ _ => mul_comm _ _
  · simp only [eq_comm]

theorem colDev_symm (i k : Fin 16) : colDev i k = colDev k i := by
  unfold colDev
  congr 1
  · exact Finset.sum_congr rfl fun _ _ => mul_comm _ _
  · simp only [eq_comm]

/-- a quadratic form is bounded by the row sums of its coefficients -/
theorem quadForm_le {a : Fin 16 → Fin 16 → ℝ} {B : ℝ} (hs : ∀ i k, a i k = a k i) (hB : ∀ i, ∑ k, |a i k| ≤ B) (u : Fin 16 → ℝ) :
    |∑ i, ∑ k, a i k * (u i * u k)| ≤ B * ∑ i, u i ^ 2 := by
  have h1 : |∑ i, ∑ k, a i k * (u i * u k)| ≤ ∑ i, ∑ k, |a i k| * ((u i ^ 2 + u k ^ 2) / 2) := by
    refine (Finset.abs_sum_le_sum_abs _ _).trans (Finset.sum_le_sum fun i _ => (Finset.abs_sum_le_sum_abs _ _).trans
      (Finset.sum_le_sum fun k _ => ?_))
    rw [abs_mul]
    refine mul_le_mul_of_nonneg_left ?_ (abs_nonneg _)
    rw [abs_le]
    constructor <;> nlinarith [sq_nonneg (u i + u k), sq_nonneg (u i - u k)]
  have h2 : ∑ i, ∑ k, |a i k| * ((u i ^ 2 + u k ^ 2) / 2) = ∑ i, ∑ k, |a i k| * u i ^ 2 := by
    have e1 : ∑ i, ∑ k, |a i k| * ((u i ^ 2 + u k ^ 2) / 2) =
        (∑ i, ∑ k, |a i k| * u i ^ 2) / 2 + (∑ i, ∑ k, |a i k| * u k ^ 2) / 2 := by
      rw [Finset.sum_div, Finset.sum_div, ← Finset.sum_add_distrib]
      refine Finset.sum_congr rfl fun i _ => ?_
      rw [Finset.sum_div, Finset.sum_div, ← Finset.sum_add_distrib]
      exact Finset.sum_congr rfl fun k _ => by ring
    have e2 : ∑ i, ∑ k, |a i k| * u k ^ 2 = ∑ i, ∑ k, |a i k| * u i ^ 2 := by
      rw [Finset.sum_comm]
      exact Finset.sum_congr rfl fun i _ => Finset.sum_congr rfl fun k _ => by rw [hs k i]
    rw [e1, e2]
    ring
  rw [h2] at h1
  refine h1.trans ?_
  rw [Finset.mul_sum]
  refine Finset.sum_le_sum fun i _ => ?_
  rw [← Finset.sum_mul]
  exact mul_le_mul_of_nonneg_right (hB i) (sq_nonneg _)

theorem rowDev_form (r : Fin 16 → ℝ) : |∑ i, ∑ k, ((rowDev i k : ℝ) / 10 ^ 34) * (r i * r k)| ≤ 2 / 10 ^ 15 * ∑ i, r i ^ 2 := by
  refine quadForm_le (fun i k => by rw [rowDev_symm]) (fun i => ?_) r
  have h : ((∑ k, |rowDev i k| : ℤ) : ℝ) ≤ 20000000000000000000 := by exact_mod_cast rowDev_bound i
  push_cast at h
  have e : ∀ k, |(rowDev i k : ℝ) / 10 ^ 34| = |(rowDev i k : ℝ)| / 10 ^ 34 := fun k => by
    rw [abs_div, abs_of_pos (by positivity : (0 : ℝ) < 10 ^ 34)]
  simp only [e]
  rw [← Finset.sum_div, div_le_iff₀ (by positivity)]
  refine h.trans ?_
  norm_num

theorem colDev_form (r : Fin 16 → ℝ) : |∑ i, ∑ k, ((colDev i k : ℝ) / 10 ^ 34) * (r i * r k)| ≤ 2 / 10 ^ 15 * ∑ i, r i ^ 2 := by
  refine quadForm_le (fun i k => by rw [colDev_symm]) (fun i => ?_) r
  have h : ((∑ k, |colDev i k| : ℤ) : ℝ) ≤ 20000000000000000000 := by exact_mod_cast colDev_bound i
  push_cast at h
  have e : ∀ k, |(colDev i k : ℝ) / 10 ^ 34| = |(colDev i k : ℝ)| / 10 ^ 34 := fun k => by
    rw [abs_div, abs_of_pos (by positivity : (0 : ℝ) < 10 ^ 34)]
  simp only [e]
  rw [← Finset.sum_div, div_le_iff₀ (by positivity)]
  refine h.trans ?_
  norm_num

theorem rowDev_real (i k : Fin 16) : (rowDev i k : ℝ) / 10 ^ 34 = ∑ j, rotEntry i j * rotEntry k j - if i = k then 1 else 0 := by
  unfold rowDev rotEntry
  push_cast
  rw [sub_div, Finset.sum_div]
  congr 1
  · exact Finset.sum_congr rfl fun j _ => by ring
  · split <;> norm_num

theorem colDev_real (j k : Fin 16) : (colDev j k : ℝ) / 10 ^ 34 = ∑ i, rotEntry i j * rotEntry i k - if j = k then 1 else 0 := by
  unfold colDev rotEntry
  push_cast
  rw [sub_div, Finset.sum_div]
  congr 1
  · exact Finset.sum_congr rfl fun j _ => by ring
  · split <;> norm_num

theorem sq_sum_expand (a : Fin 16 → Fin 16 → ℝ) (r : Fin 16 → ℝ) :
    ∑ j, (∑ i, r i * a i j) ^ 2 = ∑ i, ∑ k, (∑ j, a i j * a k j) * (r i * r k) := by
  have : ∀ j, (∑ i, r i * a i j) ^ 2 = ∑ i, ∑ k, a i j * a k j * (r i * r k) := by
    intro j
    rw [pow_two, Finset.sum_mul_sum]
    exact Finset.sum_congr rfl fun i _ => Finset.sum_congr rfl fun k _ => by ring
  simp only [this]
  rw [Finset.sum_comm]
  refine Finset.sum_congr rfl fun i _ => ?_
  rw [Finset.sum_comm]
  refine Finset.sum_congr rfl fun k _ => ?_
  rw [Finset.sum_mul]

theorem sum_delta (r : Fin 16 → ℝ) : ∑ i, ∑ k, (if i = k then (1 : ℝ) else 0) * (r i * r k) = ∑ i, r i ^ 2 := by
  refine Finset.sum_congr rfl fun i _ => ?_
  simp only [ite_mul, one_mul, zero_mul, Finset.sum_ite_eq, Finset.mem_univ, if_true]
  ring

/-- rotation forth -/
theorem rotate_energy (r : Fin 16 → ℝ) : |∑ j, (∑ i, r i * rotEntry i j) ^ 2 - ∑ i, r i ^ 2| ≤ 2 / 10 ^ 15 * ∑ i, r i ^ 2 := by
  have h := rowDev_form r
  simp only [rowDev_real, sub_mul, Finset.sum_sub_distrib] at h
  rwa [sum_delta, ← sq_sum_expand] at h

/-- rotation back -/
theorem unrotate_energy (u : Fin 16 → ℝ) : |∑ i, (∑ j, u j * rotEntry i j) ^ 2 - ∑ j, u j ^ 2| ≤ 2 / 10 ^ 15 * ∑ j, u j ^ 2 := by
  have h := colDev_form u
  simp only [colDev_real, sub_mul, Finset.sum_sub_distrib] at h
  rwa [sum_delta, ← sq_sum_expand fun j i => rotEntry i j] at h

/-- distances before and after the rotation agree -/
theorem rotate_dist (r u : Fin 16 → ℝ) :
    |∑ i, (r i - ∑ j, u j * rotEntry i j) ^ 2 - ∑ j, (∑ i, r i * rotEntry i j - u j) ^ 2| ≤
      2 / 10 ^ 15 * (∑ i, r i ^ 2 + ∑ j, u j ^ 2) := by
  have e1 : ∑ i, (r i - ∑ j, u j * rotEntry i j) ^ 2 =
      ∑ i, r i ^ 2 - 2 * ∑ i, r i * ∑ j, u j * rotEntry i j + ∑ i, (∑ j, u j * rotEntry i j) ^ 2 := by
    rw [Finset.mul_sum, ← Finset.sum_sub_distrib, ← Finset.sum_add_distrib]
    exact Finset.sum_congr rfl fun i _ => by ring
  have e2 : ∑ j, (∑ i, r i * rotEntry i j - u j) ^ 2 =
      ∑ j, (∑ i, r i * rotEntry i j) ^ 2 - 2 * ∑ j, (∑ i, r i * rotEntry i j) * u j + ∑ j, u j ^ 2 := by
    rw [Finset.mul_sum, ← Finset.sum_sub_distrib, ← Finset.sum_add_distrib]
    exact Finset.sum_congr rfl fun i _ => by ring
  have e3 : ∑ i, r i * ∑ j, u j * rotEntry i j = ∑ j, (∑ i, r i * rotEntry i j) * u j := by
    simp only [Finset.mul_sum, Finset.sum_mul]
    rw [Finset.sum_comm]
    exact Finset.sum_congr rfl fun i _ => Finset.sum_congr rfl fun k _ => by ring
  have h1 := rotate_energy r
  have h2 := unrotate_energy u
  rw [e1, e2, e3]
  rw [abs_le] at h1 h2 ⊢
  constructor <;> linarith [h1.1, h1.2, h2.1, h2.2]

/-- every target is the rotation of some residual -/
theorem rotate_surjective (t : Fin 16 → ℝ) : ∃ r : Fin 16 → ℝ, ∀ j, ∑ i, r i * rotEntry i j = t j := by
  let L : (Fin 16 → ℝ) →ₗ[ℝ] (Fin 16 → ℝ) := Matrix.vecMulLinear (Matrix.of rotEntry)
  have hL : ∀ r j, L r j = ∑ i, r i * rotEntry i j := fun r j => rfl
  have hinj : Function.Injective L := by
    rw [injective_iff_map_eq_zero]
    intro r hr
    have h := rotate_energy r
    have : ∀ j, ∑ i, r i * rotEntry i j = 0 := fun j => by rw [← hL, hr]; rfl
    simp only [this] at h
    have h0 : 0 ≤ ∑ i, r i ^ 2 := Finset.sum_nonneg fun i _ => sq_nonneg _
    rw [abs_le] at h
    have hz : ∑ i, r i ^ 2 = 0 := by
      norm_num at h
      linarith [h.1]
    funext i
    have := (Finset.sum_eq_zero_iff_of_nonneg (fun i _ => sq_nonneg (r i))).1 hz i (Finset.mem_univ _)
    simpa using this
  obtain ⟨r, hr⟩ := LinearMap.injective_iff_surjective.1 hinj t
  exact ⟨r, fun j => by rw [← hL, hr]⟩

theorem foldl_sum_real {β : Type} (f : β → ℝ) (l : List β) (s : ℝ) : l.foldl (fun s p => s + f p) s = s + (l.map f).sum := by
  induction l generalizing s with
  | nil => simp
  | cons a l ih => rw [List.foldl_cons, ih, List.map_cons, List.sum_cons]; ring

theorem sum_zip_fin {β : Type} {l : List ℝ} {m : List β} (hl : l.length = 16) (hm : m.length = 16) (d : β) (f : ℝ → β → ℝ) :
    ((l.zip m).map fun p => f p.1 p.2).sum = ∑ i : Fin 16, f (l.getD i 0) (m.getD i d) := by
  rw [← List.sum_ofFn]
  congr 1
  apply List.ext_getElem
  · simp [hl, hm]
  · intro i h1 h2
    have : i < 16 := by simpa using h2
    rw [List.getElem_ofFn, List.getElem_map, List.getElem_zip, List.getD_eq_getElem _ _ (by omega : i < l.length),
      List.getD_eq_getElem _ _ (by omega : i < m.length)]

/-- the rotation of the model as a sum -/
theorem snsRotate_get {r : List ℝ} (hr : r.length = 16) (j : Fin 16) :
    (snsRotate r).getD j 0 = ∑ i : Fin 16, r.getD i 0 * rotEntry i j := by
  have h := rotateFold_get j (r.zip D) (List.replicate 16 (zero : ℝ)) (by simp)
    (fun p hp => by have := D_rows p.2 (List.of_mem_zip hp).2; have := j.2; omega)
  unfold snsRotate
  rw [List.getD_eq_getElem?_getD, h, Option.getD_some, foldl_sum_real (fun p : ℝ × List Rat => p.1 * (((p.2.getD j 0 : ℚ)) : ℝ)),
    sum_zip_fin hr D_length [] (fun a b => a * (((b.getD j 0 : ℚ)) : ℝ))]
  rw [List.getD_eq_getElem _ _ (by simp), List.getElem_replicate, show (zero : ℝ) = 0 from Rat.cast_zero, zero_add]
  exact Finset.sum_congr rfl fun i _ => by rw [rotEntry_eq]

theorem snsRotate_surjective {t : List ℝ} (ht : t.length = 16) : ∃ r : List ℝ, r.length = 16 ∧ snsRotate r = t := by
  obtain ⟨r, hr⟩ := rotate_surjective fun j => t.getD j 0
  refine ⟨List.ofFn r, by simp, ?_⟩
  apply List.ext_getElem
  · rw [snsRotate_length, ht]
  · intro i h1 h2
    have hi : i < 16 := by omega
    have h := snsRotate_get (r := List.ofFn r) (by simp) ⟨i, hi⟩
    rw [List.getD_eq_getElem _ _ h1] at h
    rw [h, ← List.getD_eq_getElem _ 0 h2, ← hr ⟨i, hi⟩]
    refine Finset.sum_congr rfl fun k _ => ?_
    rw [List.getD_eq_getElem _ _ (by rw [List.length_ofFn]; exact k.2), List.getElem_ofFn]

end Lc3
