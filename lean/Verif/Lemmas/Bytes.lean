import Verif.Model.BufferReader
import Verif.Model.BufferWriter
import Mathlib.Tactic.Ring
import Mathlib.Tactic.Linarith
import Mathlib.Data.Nat.Bitwise
/-! Byte and bit views of a buffer. -/

namespace Lc3

/-- bit `j` counted from the end of the buffer, least significant bit of the last byte first -/
def tailBit (buf : List Nat) (j : Nat) : Bool :=
  (buf.getD (buf.length - 1 - j / 8) 0).testBit (j % 8)

theorem beVal_foldl (l : List Nat) (a : Nat) :
    l.foldl (fun acc b => acc * 256 + b) a = a * 256 ^ l.length + beVal l := by
  induction l generalizing a with
  | nil => simp [beVal]
  | cons x xs ih =>
    simp only [List.foldl_cons, List.length_cons, beVal]
    rw [ih, ih (0 * 256 + x)]
    ring

@[simp] theorem beVal_nil : beVal [] = 0 := rfl

theorem beVal_append (a b : List Nat) : beVal (a ++ b) = beVal a * 256 ^ b.length + beVal b := by
  unfold beVal
  rw [List.foldl_append, beVal_foldl]
  rfl

theorem beVal_cons (x : Nat) (l : List Nat) : beVal (x :: l) = x * 256 ^ l.length + beVal l := by
  have := beVal_append [x] l
  simpa [beVal] using this

@[simp] theorem beVal_singleton (x : Nat) : beVal [x] = x := by simp [beVal]

theorem beVal_concat (a : List Nat) (x : Nat) : beVal (a ++ [x]) = beVal a * 256 + x := by
  simp [beVal_append]

theorem beVal_lt {l : List Nat} (h : ∀ b ∈ l, b < 256) : beVal l < 256 ^ l.length := by
  induction l with
  | nil => simp
  | cons x xs ih =>
    rw [beVal_cons, List.length_cons, pow_succ]
    have h1 := ih (fun b hb => h b (List.mem_cons_of_mem _ hb))
    have h2 : x < 256 := h x (List.mem_cons_self)
    have h3 : x * 256 ^ xs.length ≤ 255 * 256 ^ xs.length := Nat.mul_le_mul_right _ (by omega)
    omega

theorem beVal_replicate (n : Nat) : beVal (List.replicate n 255) + 1 = 256 ^ n := by
  induction n with
  | zero => simp
  | succ n ih =>
    rw [List.replicate_succ, beVal_cons, List.length_replicate, pow_succ]
    omega

theorem beVal_replicate_zero (n : Nat) : beVal (List.replicate n 0) = 0 := by
  induction n with
  | zero => simp
  | succ n ih =>
    rw [List.replicate_succ, beVal_cons, ih]
    omega

/-- all entries are bytes -/
def Bytes (l : List Nat) : Prop := ∀ b ∈ l, b < 256

theorem Bytes.nil : Bytes [] := by intro b hb; cases hb

theorem Bytes.append {a b : List Nat} (ha : Bytes a) (hb : Bytes b) : Bytes (a ++ b) := by
  intro x hx
  rcases List.mem_append.1 hx with h | h
  · exact ha x h
  · exact hb x h

theorem Bytes.set {l : List Nat} (h : Bytes l) {i v : Nat} (hv : v < 256) : Bytes (l.set i v) := by
  intro x hx
  rcases List.mem_or_eq_of_mem_set hx with h' | h'
  · exact h x h'
  · omega

theorem Bytes.take {l : List Nat} (h : Bytes l) (n : Nat) : Bytes (l.take n) :=
  fun x hx => h x (List.mem_of_mem_take hx)

theorem Bytes.replicate {n v : Nat} (hv : v < 256) : Bytes (List.replicate n v) := by
  intro x hx
  rw [List.eq_of_mem_replicate hx]; exact hv

theorem Bytes.getD {l : List Nat} (h : Bytes l) (i : Nat) : l.getD i 0 < 256 := by
  by_cases hi : i < l.length
  · rw [List.getD_eq_getElem _ _ hi]; exact h _ (List.getElem_mem hi)
  · rw [List.getD_eq_default _ _ (by omega)]; omega

theorem Bytes.getElem {l : List Nat} (h : Bytes l) (i : Nat) (hi : i < l.length) : l[i] < 256 :=
  h _ (List.getElem_mem hi)

theorem beVal_take_succ {l : List Nat} {n : Nat} (h : n < l.length) :
    beVal (l.take (n + 1)) = beVal (l.take n) * 256 + l[n] := by
  rw [List.take_succ_eq_append_getElem h, beVal_concat]

theorem getD_set {l : List Nat} {i j v : Nat} (hi : i < l.length) :
    (l.set i v).getD j 0 = if j = i then v else l.getD j 0 := by
  by_cases hj : j = i
  · subst hj
    simp [List.getD_eq_getElem?_getD, hi]
  · simp [List.getD_eq_getElem?_getD, List.getElem?_set_ne (Ne.symm hj), hj]

theorem and_mask_testBit {x i m : Nat} (hm : m < 8) :
    (x &&& (255 ^^^ 2 ^ i)).testBit m = if m = i then false else x.testBit m := by
  have h255 : (255 : Nat).testBit m = true := by
    have : m = 0 ∨ m = 1 ∨ m = 2 ∨ m = 3 ∨ m = 4 ∨ m = 5 ∨ m = 6 ∨ m = 7 := by omega
    rcases this with h | h | h | h | h | h | h | h <;> subst h <;> decide
  rw [Nat.testBit_and, Nat.testBit_xor, h255, Nat.testBit_two_pow]
  by_cases h : m = i
  · subst h; simp
  · have h' : ¬ i = m := fun e => h e.symm
    simp [h, h']

theorem or_mask_testBit {x i m : Nat} :
    (x ||| 2 ^ i).testBit m = if m = i then true else x.testBit m := by
  rw [Nat.testBit_or, Nat.testBit_two_pow]
  by_cases h : m = i
  · subst h; simp
  · have h' : ¬ i = m := fun e => h e.symm
    simp [h, h']

theorem lt_256_of_testBit {x : Nat} (h : ∀ m, 8 ≤ m → x.testBit m = false) : x < 256 :=
  Nat.lt_pow_two_of_testBit (n := 8) x h

theorem and_mask_lt {x y : Nat} (hx : x < 256) : x &&& y < 256 :=
  lt_of_le_of_lt Nat.and_le_left hx

theorem or_mask_lt {x i : Nat} (hx : x < 256) (hi : i < 8) : x ||| 2 ^ i < 256 := by
  have h2 : 2 ^ i < 2 ^ 8 := Nat.pow_lt_pow_right (by omega) hi
  exact Nat.or_lt_two_pow (n := 8) hx h2

end Lc3
