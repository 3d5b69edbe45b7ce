import Verif.Basic
/-! `Safe x P`: the computation `x` does not panic, and `P` holds for its value if it returns one. -/

namespace Lc3

def Safe {α} (x : Res α) (P : α → Prop) : Prop :=
  match x with
  | .ok a => P a
  | .err => True
  | .panic => False

@[simp] theorem safe_ok {α} (a : α) (P : α → Prop) : Safe (.ok a) P ↔ P a := Iff.rfl
@[simp] theorem safe_err {α} (P : α → Prop) : Safe (.err : Res α) P := trivial
@[simp] theorem safe_panic {α} (P : α → Prop) : Safe (.panic : Res α) P ↔ False := Iff.rfl

theorem Safe.bind {α β} {x : Res α} {f : α → Res β} {P : α → Prop} {Q : β → Prop}
    (h : Safe x P) (hf : ∀ a, P a → Safe (f a) Q) : Safe (x >>= f) Q := by
  cases x with
  | ok a => exact hf a h
  | err => trivial
  | panic => exact h

theorem Safe.mono {α} {x : Res α} {P Q : α → Prop} (h : Safe x P) (hi : ∀ a, P a → Q a) : Safe x Q := by
  cases x with
  | ok a => exact hi a h
  | err => trivial
  | panic => exact h

theorem Safe.ne_panic {α} {x : Res α} {P : α → Prop} (h : Safe x P) : x ≠ .panic := by
  rintro rfl; exact h

theorem Safe.of_ok {α} {x : Res α} {P : α → Prop} {a : α} (h : Safe x P) (e : x = .ok a) : P a := by
  subst e; exact h

theorem Safe.and {α} {x : Res α} {P Q : α → Prop} (h : Safe x P) (h2 : Safe x Q) :
    Safe x (fun a => P a ∧ Q a) := by
  cases x with
  | ok a => exact ⟨h, h2⟩
  | err => trivial
  | panic => exact h

theorem safe_iff {α} {x : Res α} {P : α → Prop} : Safe x P ↔ x ≠ .panic ∧ ∀ a, x = .ok a → P a := by
  cases x <;> simp [Safe]

theorem Safe.ite {α} {c : Prop} [Decidable c] {x y : Res α} {P : α → Prop} (h1 : c → Safe x P)
    (h2 : ¬ c → Safe y P) : Safe (if c then x else y) P := by
  split
  · exact h1 ‹_›
  · exact h2 ‹_›

theorem safe_idx {α} {l : List α} {i : Nat} (h : i < l.length) : Safe (idx l i) (fun v => v = l[i]) := by
  rw [idx_eq_ok h]; rfl

theorem safe_idx_mem {α} {l : List α} {i : Nat} (h : i < l.length) : Safe (idx l i) (fun v => v ∈ l) := by
  rw [idx_eq_ok h]; exact List.getElem_mem h

theorem safe_usub {a b : Nat} (h : b ≤ a) : Safe (usub a b) (fun v => v = a - b) := by
  unfold usub; rw [if_pos h]; rfl

theorem safe_setIdx {α} {l : List α} {i : Nat} (v : α) (h : i < l.length) :
    Safe (setIdx l i v) (fun l' => l' = l.set i v) := by
  unfold setIdx; rw [if_pos h]; rfl

end Lc3
