import Verif.Model.EncTns
import Verif.Model.ScalarReal
import Verif.Lemmas.EncLtpf
import Mathlib.Data.Rat.Cast.Order
import Mathlib.Tactic.NormNum
/-!
The analysis of the noise shaping filters uses no other operations than those of a field up to the quantisation of the
coefficients. On rational numbers it can therefore be evaluated exactly; these lemmas carry the result over to the real numbers.
-/

namespace Lc3
open Scalar

/-- exact rational arithmetic; the operations that the analysis does not use are arbitrary -/
@[reducible] def ratTns : Scalar ℚ where
  ofRat q := q
  lt a b := decide (a < b)
  eq a b := decide (a = b)
  sqrt := id
  sin := id
  cosPi := id
  sinPi := id
  piOver17 := 0
  pow10 := id
  exp2Raw := id
  toI32 := Rat.floor
  toUsize q := q.floor.toNat
  absS := id
  maxS a _ := a
  minS a _ := a
  floorS := id
  ceilS := id
  log2 := id
  log10 := id
  asin := id
  exp2 := id
  powi q n := q ^ n
  ltInf _ := true

/-- a list of rational numbers as real numbers -/
def castL (l : List ℚ) : List ℝ := l.map fun q : ℚ => (q : ℝ)

theorem castL_length (l : List ℚ) : (castL l).length = l.length := List.length_map _

theorem at0_cast (l : List ℚ) (i : Nat) : at0 (castL l) i = ((@at0 ℚ ratTns l i : ℚ) : ℝ) := by
  unfold at0 castL
  rw [List.getD_eq_getElem?_getD, List.getD_eq_getElem?_getD, List.getElem?_map]
  cases l[i]? <;> rfl

theorem sliceR_cast (l r : List ℚ) (a b : Nat) (h : sliceR l a b = .ok r) : sliceR (castL l) a b = .ok (castL r) := by
  unfold sliceR at h ⊢
  rw [castL_length]
  split
  · rename_i hc
    rw [if_pos hc] at h
    injection h with h
    rw [← h]
    simp [castL, List.map_drop, List.map_take]
  · rename_i hc
    rw [if_neg hc] at h
    cases h

theorem dotS_foldl_cast (l : List (ℚ × ℚ)) : ∀ e : ℚ,
    (l.map fun p => ((p.1 : ℝ), (p.2 : ℝ))).foldl (fun s p => s + p.1 * p.2) (e : ℝ) = ((l.foldl (fun s p => s + p.1 * p.2) e : ℚ) : ℝ) := by
  induction l with
  | nil => intro e; rfl
  | cons a l ih =>
    intro e
    simp only [List.map_cons, List.foldl_cons]
    rw [← ih]
    push_cast
    rfl

theorem dotS_cast (a b : List ℚ) : dotS (castL a) (castL b) = ((@dotS ℚ ratTns a b : ℚ) : ℝ) := by
  have h := dotS_foldl_cast (a.zip b) 0
  have e : (castL a).zip (castL b) = (a.zip b).map fun p => ((p.1 : ℝ), (p.2 : ℝ)) := by
    unfold castL
    rw [List.zip_map]
    rfl
  unfold dotS
  rw [e]
  exact h

theorem energy_cast (l : List ℚ) : ∀ e : ℚ,
    (castL l).foldl (fun s v => s + v * v) (e : ℝ) = ((l.foldl (fun s v => s + v * v) e : ℚ) : ℝ) := by
  induction l with
  | nil => intro e; rfl
  | cons a l ih =>
    intro e
    simp only [castL, List.map_cons, List.foldl_cons]
    rw [← ih]
    push_cast
    rfl

theorem tnsCorrParts_cast (x : List ℚ) (k : Nat) : ∀ (ps : List (Nat × Nat)) (e r e' r' : ℚ),
    @tnsCorrParts ℚ ratTns x k ps e r = .ok (e', r') → tnsCorrParts (castL x) k ps (e : ℝ) (r : ℝ) = .ok ((e' : ℝ), (r' : ℝ))
  | [], e, r, e', r', h => by
    simp only [tnsCorrParts, Res.ok.injEq, Prod.mk.injEq] at h
    rw [h.1, h.2]; rfl
  | (a, b) :: ps, e, r, e', r', h => by
    unfold tnsCorrParts at h ⊢
    rw [Res.bind_eq_ok] at h
    obtain ⟨part, h1, h⟩ := h
    rw [sliceR_cast _ _ _ _ h1, Res.bind_ok, castL_length]
    have he : (castL part).foldl (fun s v => s + v * v) (zero : ℝ) = ((part.foldl (fun s v => s + v * v) 0 : ℚ) : ℝ) := by
      have := energy_cast part 0
      exact this
    simp only at h ⊢
    rw [Res.bind_eq_ok] at h
    obtain ⟨ac, h2, h⟩ := h
    have hac : (if a + k < x.length ∧ a + k < b then (sliceR (castL x) (a + k) b >>= fun sh => .ok (dotS (castL part) sh))
        else .ok (zero : ℝ)) = .ok ((ac : ℚ) : ℝ) := by
      split
      · rename_i hc
        rw [if_pos hc, Res.bind_eq_ok] at h2
        obtain ⟨sh, h3, h2⟩ := h2
        injection h2 with h2
        rw [sliceR_cast _ _ _ _ h3, Res.bind_ok, dotS_cast, h2]
      · rename_i hc
        rw [if_neg hc] at h2
        injection h2 with h2
        rw [← h2]
        rfl
    rw [hac, Res.bind_ok, he]
    have := tnsCorrParts_cast x k ps _ _ e' r' h
    rw [← this]
    congr 1
    · show _ = ((e * _ : ℚ) : ℝ)
      push_cast
      rfl
    · show _ = ((r + ac / _ : ℚ) : ℝ)
      push_cast
      rfl

theorem eq_cast (e : ℚ) : Scalar.eq (e : ℝ) zero = @Scalar.eq ℚ ratTns e (@zero ℚ ratTns) := by
  show (open Classical in decide ((e : ℝ) = ((0 : ℚ) : ℝ))) = decide (e = 0)
  rw [decide_eq_decide]
  exact Rat.cast_inj

theorem lt_cast (a b : ℚ) : Scalar.lt (a : ℝ) (b : ℝ) = decide (a < b) := by
  show (open Classical in decide ((a : ℝ) < (b : ℝ))) = decide (a < b)
  rw [decide_eq_decide]
  exact Rat.cast_lt

theorem tnsCorrFrom_cast (x : List ℚ) (sub : List (Nat × Nat)) : ∀ (ws : List ℚ) (k : Nat) (r : List ℚ),
    @tnsCorrFrom ℚ ratTns x sub k ws = .ok r → tnsCorrFrom (castL x) sub k ws = .ok (castL r)
  | [], k, r, h => by
    simp only [tnsCorrFrom, Res.ok.injEq] at h
    rw [← h]; rfl
  | w :: ws, k, r, h => by
    unfold tnsCorrFrom at h ⊢
    rw [Res.bind_eq_ok] at h
    obtain ⟨⟨e, r1⟩, h1, h⟩ := h
    simp only at h
    rw [Res.bind_eq_ok] at h
    obtain ⟨rest, h2, h⟩ := h
    injection h with h
    have e1 : tnsCorrParts (castL x) k sub (one : ℝ) zero = .ok ((e : ℝ), (r1 : ℝ)) :=
      tnsCorrParts_cast x k sub 1 0 e r1 h1
    rw [e1, Res.bind_ok]
    simp only
    rw [tnsCorrFrom_cast x sub ws (k + 1) rest h2, Res.bind_ok, ← h, eq_cast]
    congr 1
    simp only [castL, List.map_cons]
    congr 1
    change _ = (((if @Scalar.eq ℚ ratTns e (@zero ℚ ratTns) = true then (if k = 0 then (3 : ℚ) else 0) else r1) * w : ℚ) : ℝ)
    rw [Rat.cast_mul]
    change _ * (w : ℝ) = _
    congr 1
    split
    · split <;> rfl
    · rfl

theorem subFold_cast (f g : Nat → ℚ) (l : List Nat) : ∀ c : ℚ,
    l.foldl (fun c n => c - (f n : ℝ) * (g n : ℝ)) (c : ℝ) = ((l.foldl (fun c n => c - f n * g n) c : ℚ) : ℝ) := by
  induction l with
  | nil => intro c; rfl
  | cons a l ih =>
    intro c
    simp only [List.foldl_cons]
    rw [← ih]
    push_cast
    rfl

theorem levStep_cast (r a : List ℚ) (e : ℚ) (k : Nat) :
    levStep (castL r) k (castL a, (e : ℝ)) = (castL (@levStep ℚ ratTns r k (a, e)).1, (((@levStep ℚ ratTns r k (a, e)).2 : ℚ) : ℝ)) := by
  unfold levStep
  simp only [at0_cast]
  have h := subFold_cast (fun n => @at0 ℚ ratTns a n) (fun n => @at0 ℚ ratTns r (k - n)) (List.range k) 0
  change (List.range k).foldl (fun c n => c - ((@at0 ℚ ratTns a n : ℚ) : ℝ) * ((@at0 ℚ ratTns r (k - n) : ℚ) : ℝ)) zero = _ at h
  change (let rc := (List.range k).foldl (fun c n => c - ((@at0 ℚ ratTns a n : ℚ) : ℝ) * ((@at0 ℚ ratTns r (k - n) : ℚ) : ℝ)) zero;
    let rc := if Scalar.eq (e : ℝ) zero then rc else rc / (e : ℝ);
    ((one : ℝ) :: ((List.range (k - 1)).map fun n => ((@at0 ℚ ratTns a (n + 1) : ℚ) : ℝ) + rc * ((@at0 ℚ ratTns a (k - (n + 1)) : ℚ) : ℝ)) ++ [rc],
      (e : ℝ) * (((1 : ℚ) : ℝ) - rc * rc))) = _
  rw [h, eq_cast]
  simp only
  generalize hq : (List.range k).foldl (fun c n => c - @at0 ℚ ratTns a n * @at0 ℚ ratTns r (k - n)) (0 : ℚ) = q
  have hq' : (List.range k).foldl (fun c n => @HSub.hSub ℚ ℚ ℚ (@instHSub ℚ ratTns.toSub) c
    (@HMul.hMul ℚ ℚ ℚ (@instHMul ℚ ratTns.toMul) (@at0 ℚ ratTns a n) (@at0 ℚ ratTns r (k - n)))) (@zero ℚ ratTns) = q := hq
  rw [hq']
  have hrc : (if @Scalar.eq ℚ ratTns e (@zero ℚ ratTns) = true then ((q : ℚ) : ℝ) else (q : ℝ) / (e : ℝ))
      = (((if @Scalar.eq ℚ ratTns e (@zero ℚ ratTns) = true then q else q / e) : ℚ) : ℝ) := by
    split
    · rfl
    · push_cast; rfl
  rw [hrc]
  change _ = (castL ((1 : ℚ) :: ((List.range (k - 1)).map fun n => @at0 ℚ ratTns a (n + 1)
      + (if @Scalar.eq ℚ ratTns e (@zero ℚ ratTns) = true then q else q / e) * @at0 ℚ ratTns a (k - (n + 1)))
      ++ [if @Scalar.eq ℚ ratTns e (@zero ℚ ratTns) = true then q else q / e]),
    ((e * (1 - (if @Scalar.eq ℚ ratTns e (@zero ℚ ratTns) = true then q else q / e)
      * (if @Scalar.eq ℚ ratTns e (@zero ℚ ratTns) = true then q else q / e)) : ℚ) : ℝ))
  generalize (if @Scalar.eq ℚ ratTns e (@zero ℚ ratTns) = true then q else q / e) = c
  rw [Prod.mk.injEq]
  constructor
  · simp only [castL, List.cons_append, List.map_cons, List.map_append, List.map_map, List.map_nil]
    congr 2
    apply List.map_congr_left
    intro n _
    simp only [Function.comp]
    push_cast
    rfl
  · push_cast
    rfl

theorem levinson_cast (r : List ℚ) :
    levinson (castL r) = (castL (@levinson ℚ ratTns r).1, (((@levinson ℚ ratTns r).2 : ℚ) : ℝ)) := by
  unfold levinson
  have : ∀ (l : List Nat) (a : List ℚ) (e : ℚ),
      l.foldl (fun s k => levStep (castL r) (k + 1) s) (castL a, (e : ℝ))
        = (castL (l.foldl (fun s k => @levStep ℚ ratTns r (k + 1) s) (a, e)).1,
            (((l.foldl (fun s k => @levStep ℚ ratTns r (k + 1) s) (a, e)).2 : ℚ) : ℝ)) := by
    intro l
    induction l with
    | nil => intro a e; rfl
    | cons n l ih =>
      intro a e
      simp only [List.foldl_cons]
      rw [levStep_cast, ih]
  have h := this (List.range 8) [1] (@at0 ℚ ratTns r 0)
  rw [at0_cast]
  exact h

theorem stepDown_cast : ∀ (k : Nat) (a acc : List ℚ),
    stepDown k (castL a) (castL acc) = castL (@stepDown ℚ ratTns k a acc)
  | 0, a, acc => rfl
  | k + 1, a, acc => by
    unfold stepDown
    simp only [at0_cast]
    rw [← stepDown_cast k]
    congr 1
    change ((1 : ℚ) : ℝ) :: _ = _
    simp only [castL, List.map_cons, List.map_map]
    congr 1
    apply List.map_congr_left
    intro n _
    simp only [Function.comp]
    change (_ - _ * _) / (((1 : ℚ) : ℝ) - _ * _) = (((@at0 ℚ ratTns a (n + 1) - @at0 ℚ ratTns a (k + 1) * @at0 ℚ ratTns a (k + 1 - (n + 1)))
      / (1 - @at0 ℚ ratTns a (k + 1) * @at0 ℚ ratTns a (k + 1)) : ℚ) : ℝ)
    push_cast
    rfl

/-- without the weighting for low bit rates -/
theorem tnsAnalysis_cast (r : List ℚ) (nn : Bool) :
    tnsAnalysis (castL r) nn 0 = castL (@tnsAnalysis ℚ ratTns r nn 0) := by
  unfold tnsAnalysis
  rw [levinson_cast]
  simp only [at0_cast, eq_cast]
  generalize (@levinson ℚ ratTns r) = L
  obtain ⟨a, e⟩ := L
  simp only [Nat.lt_irrefl, gt_iff_lt, decide_false, Bool.false_and, Bool.false_eq_true, if_false]
  have hg : (if @Scalar.eq ℚ ratTns e (@zero ℚ ratTns) = true then ((@at0 ℚ ratTns r 0 : ℚ) : ℝ) else ((@at0 ℚ ratTns r 0 : ℚ) : ℝ) / (e : ℝ))
      = (((if @Scalar.eq ℚ ratTns e (@zero ℚ ratTns) = true then @at0 ℚ ratTns r 0 else @at0 ℚ ratTns r 0 / e) : ℚ) : ℝ) := by
    split
    · rfl
    · push_cast; rfl
  have hl : Scalar.lt (ofRat (3 / 2) : ℝ)
      (if @Scalar.eq ℚ ratTns e (@zero ℚ ratTns) = true then ((@at0 ℚ ratTns r 0 : ℚ) : ℝ) else ((@at0 ℚ ratTns r 0 : ℚ) : ℝ) / (e : ℝ))
      = decide ((3 / 2 : ℚ) < (if @Scalar.eq ℚ ratTns e (@zero ℚ ratTns) = true then @at0 ℚ ratTns r 0 else @at0 ℚ ratTns r 0 / e)) := by
    rw [hg]
    exact lt_cast (3 / 2) _
  erw [hl]
  have hd : @Scalar.lt ℚ ratTns (@ofRat ℚ ratTns (3 / 2))
      (if @Scalar.eq ℚ ratTns e (@zero ℚ ratTns) = true then @at0 ℚ ratTns r 0 else @at0 ℚ ratTns r 0 / e)
      = decide ((3 / 2 : ℚ) < (if @Scalar.eq ℚ ratTns e (@zero ℚ ratTns) = true then @at0 ℚ ratTns r 0 else @at0 ℚ ratTns r 0 / e)) := rfl
  erw [hd]
  generalize decide ((3 / 2 : ℚ) < (if @Scalar.eq ℚ ratTns e (@zero ℚ ratTns) = true then @at0 ℚ ratTns r 0 else @at0 ℚ ratTns r 0 / e)) = B
  split
  · have := stepDown_cast 8 (a.zipIdx.map fun p => p.1 * (1 : ℚ) ^ (p.2 : Int)) []
    refine Eq.trans ?_ this
    congr 1
    simp only [castL, List.map_map, List.zipIdx_map]
    apply List.map_congr_left
    intro p _
    simp only [Function.comp, Prod.map]
    change _ * ((1 : ℚ) : ℝ) ^ (p.2 : Int) = _
    push_cast
    rfl
  · show List.replicate 8 ((0 : ℚ) : ℝ) = castL (List.replicate 8 (0 : ℚ))
    simp [castL]

end Lc3
