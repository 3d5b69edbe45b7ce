import Mathlib.Algebra.Order.Archimedean.Real.Basic
import Mathlib.Algebra.BigOperators.Group.List.Basic
import Mathlib.Analysis.SpecialFunctions.Sqrt
/-!
# Vector quantisation of the scale factors

What a search for the best code vector, the best pulse and the best gain should find.
-/

namespace Lc3.Spec

/-- squared Euclidean distance -/
def sqDist (x y : List ℝ) : ℝ := ((x.zip y).map fun p => (p.1 - p.2) ^ 2).sum

/-- entry `i` is the first one of the book with the smallest distance to `x` -/
def IsNearest (book : List (List ℝ)) (x : List ℝ) (i : Nat) : Prop :=
  i < book.length ∧ ∀ k, k < book.length →
    sqDist x (book.getD i []) ≤ sqDist x (book.getD k []) ∧ (k < i → sqDist x (book.getD i []) < sqDist x (book.getD k []))

/-- correlation of a target with a pulse vector -/
def correlation (x : List ℝ) (y : List Int) : ℝ := ((x.zip y).map fun p => p.1 * (p.2 : ℝ)).sum

/-- energy of a pulse vector -/
def pulseEnergy (y : List Int) : ℝ := (y.map fun v : Int => (v : ℝ) ^ 2).sum

/-- one more pulse at position `n` -/
def addPulse (y : List Int) (n : Nat) : List Int := y.set n (y.getD n 0 + 1)

/-- Among the positions below `m`, a pulse at `n` leads to the largest squared correlation per energy; `n` is the first such
position. -/
def BestPulse (x : List ℝ) (m : Nat) (y : List Int) (n : Nat) : Prop :=
  n < m ∧ ∀ k, k < m →
    correlation x (addPulse y k) ^ 2 * pulseEnergy (addPulse y n) ≤ correlation x (addPulse y n) ^ 2 * pulseEnergy (addPulse y k) ∧
    (k < n → correlation x (addPulse y k) ^ 2 * pulseEnergy (addPulse y n) <
      correlation x (addPulse y n) ^ 2 * pulseEnergy (addPulse y k))

/-- `r` pulses are added one after the other, each at the best position -/
inductive Greedy (x : List ℝ) (m : Nat) : Nat → List Int → List Int → Prop
  | done (y : List Int) : Greedy x m 0 y y
  | step {r n : Nat} {y z : List Int} : BestPulse x m y n → Greedy x m r (addPulse y n) z → Greedy x m (r + 1) y z

/-- the same with correlation `c` and energy `e` kept as numbers, whatever they are at the beginning -/
inductive GreedyFrom (x : List ℝ) (m : Nat) : Nat → ℝ → ℝ → List Int → ℝ → ℝ → List Int → Prop
  | done (c e : ℝ) (y : List Int) : GreedyFrom x m 0 c e y c e y
  | step {r n : Nat} {c e c' e' : ℝ} {y z : List Int} (hn : n < m)
      (best : ∀ k, k < m → (c + x.getD k 0) ^ 2 * (e + 2 * (y.getD n 0 : ℝ) + 1) ≤ (c + x.getD n 0) ^ 2 * (e + 2 * (y.getD k 0 : ℝ) + 1) ∧
        (k < n → (c + x.getD k 0) ^ 2 * (e + 2 * (y.getD n 0 : ℝ) + 1) < (c + x.getD n 0) ^ 2 * (e + 2 * (y.getD k 0 : ℝ) + 1)))
      (next : GreedyFrom x m r (c + x.getD n 0) (e + 2 * (y.getD n 0 : ℝ) + 1) (addPulse y n) c' e' z) :
      GreedyFrom x m (r + 1) c e y c' e' z

/-- the projection of the magnitudes on a pyramid with at most `k` pulses -/
noncomputable def projection (k : Nat) (x : List ℝ) : List Int := x.map fun a => ⌊a * (k / x.sum)⌋

/-- the first largest entry from position `a` on -/
def IsFirstMax (x : List ℝ) (a n : Nat) : Prop :=
  a ≤ n ∧ n < x.length ∧ ∀ k, a ≤ k → k < x.length → x.getD k 0 ≤ x.getD n 0 ∧ (k < n → x.getD k 0 < x.getD n 0)

/-- the pulses get the signs of the target -/
noncomputable def withSigns (t : List ℝ) (y : List Int) : List Int :=
  open Classical in (t.zip y).map fun p => if p.1 < 0 then -p.2 else p.2

/-- a pulse vector scaled to length 1 -/
noncomputable def unitVector (y : List Int) : List ℝ := y.map fun v : Int => (v : ℝ) / Real.sqrt (pulseEnergy y)

end Lc3.Spec
