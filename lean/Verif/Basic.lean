/-!
# Result type of the model

`Res α` models a Rust computation that may return a value, return an error (`Err(_)`, the
payload is dropped) or panic (slice index out of range, arithmetic overflow or underflow in a
build with overflow checks, explicit `panic!`, `unwrap` of a missing value).
-/

namespace Lc3

inductive Res (α : Type _) where
  | ok (a : α)
  | err
  | panic
  deriving Repr, DecidableEq

namespace Res

@[inline] def bind {α β} (x : Res α) (f : α → Res β) : Res β :=
  match x with
  | ok a => f a
  | err => err
  | panic => panic

instance : Monad Res where
  pure := ok
  bind := bind

@[simp] theorem pure_eq {α} (a : α) : (pure a : Res α) = ok a := rfl
@[simp] theorem bind_ok {α β} (a : α) (f : α → Res β) : (ok a >>= f) = f a := rfl
@[simp] theorem bind_err {α β} (f : α → Res β) : ((err : Res α) >>= f) = err := rfl
@[simp] theorem bind_panic {α β} (f : α → Res β) : ((panic : Res α) >>= f) = panic := rfl

theorem bind_eq_ok {α β} {x : Res α} {f : α → Res β} {b : β} :
    (x >>= f) = ok b ↔ ∃ a, x = ok a ∧ f a = ok b := by
  cases x <;> simp

theorem bind_eq_panic {α β} {x : Res α} {f : α → Res β} :
    (x >>= f) = panic ↔ x = panic ∨ ∃ a, x = ok a ∧ f a = panic := by
  cases x <;> simp

theorem bind_assoc {α β γ} (x : Res α) (f : α → Res β) (g : β → Res γ) :
    ((x >>= f) >>= g) = (x >>= fun a => f a >>= g) := by
  cases x <;> rfl

instance : LawfulMonad Res := LawfulMonad.mk'
  (id_map := by intro α x; cases x <;> rfl)
  (pure_bind := by intros; rfl)
  (bind_assoc := by intro α β γ x f g; cases x <;> rfl)

/-- The computation panics. -/
def isPanic {α} : Res α → Bool
  | panic => true
  | _ => false

/-- The computation returns a value. -/
def isOk {α} : Res α → Bool
  | ok _ => true
  | _ => false

end Res

/-- `l[i]` with the Rust bounds check. -/
def idx {α} (l : List α) (i : Nat) : Res α :=
  match l[i]? with
  | some v => .ok v
  | none => .panic

/-- `l[i] = v` with the Rust bounds check. -/
def setIdx {α} (l : List α) (i : Nat) (v : α) : Res (List α) :=
  if i < l.length then .ok (l.set i v) else .panic

/-- `a - b` on unsigned integers with the overflow check. -/
def usub (a b : Nat) : Res Nat := if b ≤ a then .ok (a - b) else .panic

theorem idx_eq_ok {α} {l : List α} {i : Nat} (h : i < l.length) : idx l i = .ok l[i] := by
  simp [idx, List.getElem?_eq_getElem h]

theorem idx_eq_panic {α} {l : List α} {i : Nat} (h : l.length ≤ i) : idx l i = .panic := by
  simp [idx, List.getElem?_eq_none h]

theorem idx_ok_iff {α} {l : List α} {i : Nat} {v : α} : idx l i = .ok v ↔ l[i]? = some v := by
  unfold idx; cases h : l[i]? <;> simp

theorem idx_ne_panic {α} {l : List α} {i : Nat} (h : i < l.length) : idx l i ≠ .panic := by
  rw [idx_eq_ok h]; simp

end Lc3
