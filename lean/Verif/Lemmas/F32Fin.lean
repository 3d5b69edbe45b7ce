import Verif.Lemmas.F32Cx
import Verif.Lemmas.SafeDecoder
/-! Sizes of binary32 values: finite values with a bound on the magnitude. -/

namespace Lc3.F32
open Scalar

/-- finite, with magnitude at most `B` -/
def Bd (B : ℝ) (a : F32) : Prop := IsFin a ∧ |val a| ≤ B

theorem Bd.mono {A B : ℝ} {a : F32} (h : Bd A a) (hAB : A ≤ B) : Bd B a := ⟨h.1, h.2.trans hAB⟩

theorem Bd.nonneg {A : ℝ} {a : F32} (h : Bd A a) : 0 ≤ A := (abs_nonneg _).trans h.2

theorem bd_zero {B : ℝ} (h : 0 ≤ B) : Bd B (fin 0) := ⟨⟨0, rfl⟩, by show |((0 : ℚ) : ℝ)| ≤ B; simpa using h⟩

theorem Bd.neg {A : ℝ} {a : F32} (h : Bd A a) : Bd A (F32.neg a) := by
  obtain ⟨h1, h2⟩ := neg_val h.1
  exact ⟨h1, by rw [h2, abs_neg]; exact h.2⟩

theorem bd_of_err {x B : ℝ} {a : F32} (h : IsFin a) (he : |val a - x| ≤ |x| / 2 ^ 24 + 1 / 2 ^ 150) (hx : |x| ≤ B)
    (hB : 1 / 2 ^ 120 ≤ B) : Bd (B * (1 + 1 / 2 ^ 23)) a := by
  refine ⟨h, ?_⟩
  have := abs_sub_abs_le_abs_sub (val a) x
  norm_num at he hB ⊢
  linarith

theorem bd_rnd {q : ℚ} {B : ℝ} (h : |(q : ℝ)| ≤ B) (hB : 1 / 2 ^ 120 ≤ B) (hB2 : B ≤ 2 ^ 126) : Bd (B * (1 + 1 / 2 ^ 23)) (rnd q) := by
  obtain ⟨h1, h2⟩ := rnd_val (h.trans (hB2.trans (by norm_num)))
  exact bd_of_err h1 h2 h hB

theorem Bd.add {A B : ℝ} {a b : F32} (ha : Bd A a) (hb : Bd B b) (h1 : 1 / 2 ^ 120 ≤ A + B) (h2 : A + B ≤ 2 ^ 126) :
    Bd ((A + B) * (1 + 1 / 2 ^ 23)) (F32.add a b) := by
  have h : |val a + val b| ≤ A + B := (abs_add_le _ _).trans (add_le_add ha.2 hb.2)
  obtain ⟨q1, q2⟩ := add_val ha.1 hb.1 (h.trans (h2.trans (by norm_num)))
  exact bd_of_err q1 q2 h h1

theorem Bd.sub {A B : ℝ} {a b : F32} (ha : Bd A a) (hb : Bd B b) (h1 : 1 / 2 ^ 120 ≤ A + B) (h2 : A + B ≤ 2 ^ 126) :
    Bd ((A + B) * (1 + 1 / 2 ^ 23)) (F32.sub a b) := ha.add hb.neg h1 h2

theorem Bd.mul {A B : ℝ} {a b : F32} (ha : Bd A a) (hb : Bd B b) (h1 : 1 / 2 ^ 120 ≤ A * B) (h2 : A * B ≤ 2 ^ 126) :
    Bd (A * B * (1 + 1 / 2 ^ 23)) (F32.mul a b) := by
  have h : |val a * val b| ≤ A * B := by
    rw [abs_mul]
    exact mul_le_mul ha.2 hb.2 (abs_nonneg _) ha.nonneg
  obtain ⟨q1, q2⟩ := mul_val ha.1 hb.1 (h.trans (h2.trans (by norm_num)))
  exact bd_of_err q1 q2 h h1

theorem div_val {a b : F32} (ha : IsFin a) (hb : IsFin b) (h0 : val b ≠ 0) (h : |val a / val b| ≤ 2 ^ 127) :
    IsFin (div a b) ∧ |val (div a b) - val a / val b| ≤ |val a / val b| / 2 ^ 24 + 1 / 2 ^ 150 := by
  obtain ⟨p, rfl⟩ := ha
  obtain ⟨q, rfl⟩ := hb
  have e : val (fin p) / val (fin q) = ((p / q : ℚ) : ℝ) := by show (p : ℝ) / (q : ℝ) = _; push_cast; rfl
  have hq : q ≠ 0 := by
    rintro rfl
    exact h0 (by show ((0 : ℚ) : ℝ) = 0; norm_num)
  rw [e] at h ⊢
  have : div (fin p) (fin q) = rnd (p / q) := by
    show (if q = 0 then _ else _) = _
    rw [if_neg hq]
  rw [this]
  exact rnd_val h

/-- division by something that is at least `B` -/
theorem Bd.div {A B : ℝ} {a b : F32} (ha : Bd A a) (hb : IsFin b) (hB0 : 0 < B) (hB : B ≤ |val b|) (h1 : 1 / 2 ^ 120 ≤ A / B)
    (h2 : A / B ≤ 2 ^ 126) : Bd (A / B * (1 + 1 / 2 ^ 23)) (F32.div a b) := by
  have h : |val a / val b| ≤ A / B := by
    rw [abs_div]
    exact div_le_div₀ ha.nonneg ha.2 hB0 hB
  have h0 : val b ≠ 0 := by
    intro h0
    rw [h0, abs_zero] at hB
    linarith
  obtain ⟨q1, q2⟩ := div_val ha.1 hb h0 (h.trans (h2.trans (by norm_num)))
  exact bd_of_err q1 q2 h h1

/-- all entries are finite and bounded -/
def AllBd (B : ℝ) (l : List F32) : Prop := ∀ a ∈ l, Bd B a

theorem AllBd.mono {A B : ℝ} {l : List F32} (h : AllBd A l) (hAB : A ≤ B) : AllBd B l := fun a ha => (h a ha).mono hAB

theorem AllBd.take {B : ℝ} {l : List F32} (h : AllBd B l) (n : ℕ) : AllBd B (l.take n) := fun a ha => h a (List.mem_of_mem_take ha)

theorem AllBd.drop {B : ℝ} {l : List F32} (h : AllBd B l) (n : ℕ) : AllBd B (l.drop n) := fun a ha => h a (List.mem_of_mem_drop ha)

theorem AllBd.append {B : ℝ} {l m : List F32} (h : AllBd B l) (h' : AllBd B m) : AllBd B (l ++ m) := by
  intro a ha
  rcases List.mem_append.1 ha with ha | ha
  · exact h a ha
  · exact h' a ha

theorem AllBd.cons {B : ℝ} {a : F32} {l : List F32} (h : Bd B a) (h' : AllBd B l) : AllBd B (a :: l) := by
  intro b hb
  rcases List.mem_cons.1 hb with rfl | hb
  · exact h
  · exact h' b hb

theorem AllBd.nil {B : ℝ} : AllBd B [] := fun a ha => by cases ha

theorem AllBd.set {B : ℝ} {l : List F32} (h : AllBd B l) (i : ℕ) {a : F32} (ha : Bd B a) : AllBd B (l.set i a) := by
  intro b hb
  rcases List.mem_or_eq_of_mem_set hb with hb | rfl
  · exact h b hb
  · exact ha

theorem AllBd.replicate {B : ℝ} (n : ℕ) {a : F32} (h : Bd B a) : AllBd B (List.replicate n a) := by
  intro b hb
  rw [(List.mem_replicate.1 hb).2]
  exact h

theorem AllBd.idx {B : ℝ} {l : List F32} (h : AllBd B l) {i : ℕ} {a : F32} (e : idx l i = .ok a) : Bd B a := h a (idx_mem e)

theorem AllBd.zipInto {B : ℝ} {l m : List F32} (h : AllBd B l) (h' : AllBd B m) : AllBd B (Lc3.zipInto l m) :=
  (h'.take _).append (h.drop _)

end Lc3.F32
