import Verif.Model.F32
import Mathlib.Data.Nat.Log
/-!
Evaluation of binary32 by the kernel: the operations of `F32` with the logarithm and the powers of two computed by
functions that reduce. `evalScalar el = F32.scalar el`, so a concrete run can be evaluated with `decide +kernel`.
-/

namespace Lc3.F32

def log2K (q : ℚ) : ℤ :=
  if 1 ≤ q then (Nat.log2 q.floor.toNat : ℤ)
  else
    let n := (q⁻¹).ceil.toNat
    if n ≤ 1 then 0 else -((Nat.log2 (n - 1) : ℤ) + 1)

def pow2K (e : ℤ) : ℚ := if 0 ≤ e then ((2 ^ e.toNat : ℕ) : ℚ) else (((2 ^ (-e).toNat : ℕ) : ℚ))⁻¹

def ulpK (q : ℚ) : ℤ := max (log2K (if q < 0 then -q else q) - 23) (-149)

def roundEvenK (q : ℚ) : ℤ :=
  let f := q.floor
  if q - f < 1 / 2 then f
  else if 1 / 2 < q - f then f + 1
  else if f % 2 = 0 then f else f + 1

def rndQK (q : ℚ) : ℚ := let p := pow2K (ulpK q); (roundEvenK (q / p) : ℚ) * p

def rndK (q : ℚ) : F32 :=
  let r := rndQK q
  if ((2 ^ 128 : ℕ) : ℚ) ≤ r then .inf false
  else if r ≤ -((2 ^ 128 : ℕ) : ℚ) then .inf true
  else .fin r

theorem log2K_eq (q : ℚ) (h : 0 ≤ q) : log2K q = Int.log 2 q := by
  unfold log2K Int.log
  by_cases h1 : 1 ≤ q
  · rw [if_pos h1, if_pos h1, Nat.log2_eq_log_two]
    rfl
  · rw [if_neg h1, if_neg h1]
    have hc : (q⁻¹).ceil.toNat = ⌈q⁻¹⌉₊ := by
      rw [show (q⁻¹).ceil = ⌈q⁻¹⌉ by rw [Rat.ceil_eq_neg_floor_neg]; rfl]
      rfl
    simp only
    rw [hc]
    split
    · rename_i h2
      rw [Nat.clog_of_right_le_one h2]; rfl
    · rename_i h2
      obtain ⟨n, hn⟩ : ∃ n, n = ⌈q⁻¹⌉₊ := ⟨_, rfl⟩
      rw [← hn] at h2 ⊢
      have e : Nat.clog 2 n = Nat.log2 (n - 1) + 1 := by
        rw [Nat.log2_eq_log_two]
        apply le_antisymm
        · rw [Nat.clog_le_iff_le_pow (by norm_num)]
          have := Nat.lt_pow_succ_log_self (b := 2) (by norm_num) (n - 1)
          have e : (Nat.log 2 (n - 1)).succ = Nat.log 2 (n - 1) + 1 := rfl
          rw [e] at this
          omega
        · apply Nat.succ_le_of_lt
          rw [Nat.lt_clog_iff_pow_lt (by norm_num)]
          have := Nat.pow_log_le_self 2 (x := n - 1) (by omega)
          omega
      rw [e]
      push_cast
      rfl

theorem pow2K_eq (e : ℤ) : pow2K e = 2 ^ e := by
  unfold pow2K
  split
  · rename_i h
    push_cast
    conv_rhs => rw [← Int.toNat_of_nonneg h]
    rw [zpow_natCast]
  · rename_i h
    push_cast
    conv_rhs => rw [show e = -((-e).toNat : ℤ) by omega]
    rw [zpow_neg, zpow_natCast]

theorem rndQK_eq (q : ℚ) : rndQK q = rndQ q := by
  have hu : ulpK q = ulpExp q := by
    unfold ulpK ulpExp
    have : (if q < 0 then -q else q) = |q| := by
      split
      · rename_i h; rw [abs_of_neg h]
      · rename_i h; rw [abs_of_nonneg (not_lt.1 h)]
    rw [this, log2K_eq _ (abs_nonneg q)]
  unfold rndQK rndQ
  simp only
  rw [pow2K_eq, hu]
  rfl

theorem rndK_eq : rndK = rnd := by
  funext q
  unfold rndK rnd
  simp only
  rw [rndQK_eq]
  push_cast
  rfl

def addK : F32 → F32 → F32
  | nan, _ => nan
  | _, nan => nan
  | inf s, inf t => if s = t then inf s else nan
  | inf s, fin _ => inf s
  | fin _, inf t => inf t
  | fin a, fin b => rndK (a + b)

def mulK : F32 → F32 → F32
  | nan, _ => nan
  | _, nan => nan
  | fin a, fin b => rndK (a * b)
  | a, b => if isZero a || isZero b then nan else inf (isNeg a != isNeg b)

def divK : F32 → F32 → F32
  | nan, _ => nan
  | _, nan => nan
  | inf _, inf _ => nan
  | inf s, b => inf (s != isNeg b)
  | fin _, inf _ => fin 0
  | fin a, fin b => if b = 0 then (if a = 0 then nan else inf (decide (a < 0))) else rndK (a / b)

theorem addK_eq : addK = add := by
  funext a b
  cases a <;> cases b <;> simp [addK, add, rndK_eq]

theorem mulK_eq : mulK = mul := by
  funext a b
  cases a <;> cases b <;> simp [mulK, mul, rndK_eq]

theorem divK_eq : divK = div := by
  funext a b
  cases a <;> cases b <;> simp [divK, div, rndK_eq]

def floorK : F32 → F32
  | fin q => fin q.floor
  | x => x

def ceilK : F32 → F32
  | fin q => fin q.ceil
  | x => x

def absK : F32 → F32
  | nan => nan
  | inf _ => inf false
  | fin q => fin (if q < 0 then -q else q)

theorem absK_eq : absK = absF := by
  funext a
  cases a with
  | fin q =>
    simp only [absK, absF]
    split
    · rename_i h; rw [abs_of_neg h]
    · rename_i h; rw [abs_of_nonneg (not_lt.1 h)]
  | _ => rfl

/-- binary32 as it is evaluated by the kernel -/
@[reducible] def evalScalar (el : Elem) : Scalar F32 where
  add := addK
  sub a b := addK a (neg b)
  mul := mulK
  neg := neg
  div := divK
  ofRat := rndK
  lt := lt
  eq := eq
  sqrt := el.sqrt
  sin := el.sin
  cosPi := el.cosPi
  sinPi := el.sinPi
  piOver17 := el.piOver17
  pow10 := el.pow10
  exp2Raw := el.exp2Raw
  toI32 := toI32
  toUsize := toUsize
  absS := absK
  maxS := maxF
  minS := minF
  floorS := floorK
  ceilS := ceilK
  log2 := el.log2
  log10 := el.log10
  asin := el.asin
  exp2 := el.exp2
  powi := el.powi
  ltInf := ltInf

theorem evalScalar_eq (el : Elem) : F32.scalar el = evalScalar el := by
  have hc : ceilK = ceilF := by
    funext a
    cases a with
    | fin q => simp only [ceilK, ceilF]; rw [Rat.ceil_eq_neg_floor_neg]; rfl
    | _ => rfl
  unfold evalScalar scalar
  rw [addK_eq, mulK_eq, divK_eq, rndK_eq, absK_eq, hc]
  rfl

/-- the square root of an integer below 2^24, rounded: the root with 30 further bits is rounded to `f32` -/
def sqrtK : F32 → F32
  | fin q => if q < 0 then nan else rndK (((Nat.sqrt (q * (2 ^ 60 : ℕ)).floor.toNat : ℕ) : ℚ) / ((2 ^ 30 : ℕ) : ℚ))
  | inf false => inf false
  | _ => nan

end Lc3.F32
