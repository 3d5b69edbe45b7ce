import Verif.Model.EncTns
import Verif.Lemmas.F32Eval
import Verif.Lemmas.TnsReturns
/-!
# C75: a spectrum for which the temporal noise shaping panics in binary32
-/

namespace Lc3
open Scalar F32 Tables

/-- three bells, one in each part of the range of the filter -/
def smoothLines : List ℚ :=
  [0, 0, 0, 0, 0, 0, 0, 0, 0, 0, 0, 0, 0, 3, 15, 56, 186, 505, 1125, 2060, 3098, 3825, 3877, 3225, 2203, 1235, 569, 215, 66, 17, 4, 1, 0,
    1, 1, 5, 17, 51, 135, 316, 655, 1200, 1939, 2773, 3503, 3911, 3859, 3364, 2592, 1765, 1062, 564, 263, 110, 40, 14, 4, 0, 0, 3, 14, 57,
    191, 521, 1161, 2112, 3151, 3850, 3852, 3155, 2117, 1164, 524, 193, 58, 14, 3, 0, 0, 1]

/-- elementary functions for the evaluation: only the power is used -/
def onesElem : F32.Elem := ⟨id, id, .fin, .fin, .fin 0, id, id, id, id, id, id, fun _ _ => .fin 1⟩

/-! The elementary functions do not occur in the autocorrelation and the recursion. -/

theorem tnsCorrParts_elem (el el' : F32.Elem) (x : List F32) (k : Nat) : ∀ (ps : List (Nat × Nat)) (e r : F32),
    @tnsCorrParts F32 (evalScalar el) x k ps e r = @tnsCorrParts F32 (evalScalar el') x k ps e r
  | [], _, _ => rfl
  | (a, b) :: ps, e, r => by
    unfold tnsCorrParts
    refine congrArg (fun g => (sliceR x a b) >>= g) (funext fun part => ?_)
    refine congrArg (fun g => (_ : Res F32) >>= g) (funext fun ac => ?_)
    exact tnsCorrParts_elem el el' x k ps _ _

theorem tnsCorrFrom_elem (el el' : F32.Elem) (x : List F32) (sub : List (Nat × Nat)) : ∀ (ws : List Rat) (k : Nat),
    @tnsCorrFrom F32 (evalScalar el) x sub k ws = @tnsCorrFrom F32 (evalScalar el') x sub k ws
  | [], _ => rfl
  | w :: ws, k => by
    unfold tnsCorrFrom
    rw [tnsCorrFrom_elem el el' x sub ws (k + 1), tnsCorrParts_elem el el']
    rfl

theorem stepDown_elem (el el' : F32.Elem) : ∀ (k : Nat) (a acc : List F32),
    @stepDown F32 (evalScalar el) k a acc = @stepDown F32 (evalScalar el') k a acc
  | 0, _, _ => rfl
  | k + 1, a, acc => by
    unfold stepDown
    exact stepDown_elem el el' k _ _

theorem tnsAnalysis_unweighted {α : Type} [Scalar α] (r : List α) (nn : Bool) : tnsAnalysis r nn 0 =
    if lt (ofRat (3 / 2)) (if Scalar.eq (levinson r).2 zero then at0 r 0 else at0 r 0 / (levinson r).2) && !nn then
      stepDown 8 ((levinson r).1.zipIdx.map fun p => p.1 * powi one p.2) []
    else List.replicate 8 zero := by
  unfold tnsAnalysis
  simp

theorem tnsAnalysis_elem {el el' : F32.Elem} (h : ∀ n : Nat, el.powi (.fin 1) n = .fin 1) (h' : ∀ n : Nat, el'.powi (.fin 1) n = .fin 1)
    (r : List F32) (nn : Bool) : @tnsAnalysis F32 (evalScalar el) r nn 0 = @tnsAnalysis F32 (evalScalar el') r nn 0 := by
  have hone : rndK 1 = .fin 1 := by decide +kernel
  have hp : (fun p : F32 × ℕ => mulK p.1 (el.powi (rndK 1) (p.2 : ℤ))) = fun p => mulK p.1 (el'.powi (rndK 1) (p.2 : ℤ)) := by
    funext p
    rw [hone, h, h']
  have hl : @levinson F32 (evalScalar el) r = @levinson F32 (evalScalar el') r := rfl
  rw [@tnsAnalysis_unweighted F32 (evalScalar el), @tnsAnalysis_unweighted F32 (evalScalar el'), hl]
  generalize @levinson F32 (evalScalar el') r = ae
  obtain ⟨a, e⟩ := ae
  have hs : @stepDown F32 (evalScalar el) 8 (a.zipIdx.map fun p : F32 × ℕ => mulK p.1 (el.powi (rndK 1) (p.2 : ℤ))) [] =
      @stepDown F32 (evalScalar el') 8 (a.zipIdx.map fun p : F32 × ℕ => mulK p.1 (el'.powi (rndK 1) (p.2 : ℤ))) [] := by
    rw [hp, stepDown_elem el el']
  exact congrArg (fun t => if (F32.lt (rndK (3 / 2)) (if F32.eq e (rndK 0) then r.getD 0 (rndK 0) else divK (r.getD 0 (rndK 0)) e) && !nn) = true
    then t else List.replicate 8 (rndK 0)) hs

/-! ## The spectrum -/

set_option maxRecDepth 100000 in
theorem smooth_rc : (match @tnsCorr F32 (evalScalar onesElem) (smoothLines.map .fin) [(12, 34), (34, 57), (57, 80)] with
    | .ok r => decide ((@tnsAnalysis F32 (evalScalar onesElem) r false 0).drop 7 = [.fin 1])
    | _ => false) = true := by decide +kernel

/-- no `err` -/
def Plain {β : Type} (r : Res β) : Prop := r = .panic ∨ ∃ b, r = .ok b

theorem mapM_plain {β γ : Type} {f : β → Res γ} (h : ∀ a, Plain (f a)) : ∀ l : List β, Plain (l.mapM f)
  | [] => Or.inr ⟨[], rfl⟩
  | a :: l => by
    rw [List.mapM_cons]
    rcases h a with ha | ⟨b, hb⟩
    · left; rw [ha]; rfl
    · rw [hb, Res.bind_ok]
      rcases mapM_plain h l with hl | ⟨c, hc⟩
      · left; rw [hl]; rfl
      · right; exact ⟨b :: c, by rw [hc]; rfl⟩

theorem idx_plain {β : Type} (l : List β) (i : Nat) : Plain (idx l i) := by
  unfold idx
  split
  · exact Or.inr ⟨_, rfl⟩
  · exact Or.inl rfl

/-- index 17 has no cost in the table of the last coefficient -/
theorem tnsCoefBits_17 : ∀ (l : List Nat) (k : Nat), k + l.length = 7 → tnsCoefBits k (l ++ [17]) = .panic
  | [], k, h => by
    have : k = 7 := by simpa using h
    subst this
    decide
  | i :: l, k, h => by
    rw [List.cons_append]
    unfold tnsCoefBits
    rcases idx_plain AC_TNS_COEF_BITS k with e | ⟨row, e⟩
    · rw [e]; rfl
    · rw [e, Res.bind_ok]
      rcases idx_plain row i with e' | ⟨b, e'⟩
      · rw [e']; rfl
      · rw [e', Res.bind_ok, tnsCoefBits_17 l (k + 1) (by simp at h; omega)]
        rfl

theorem tnsOrder_17 : ∀ l : List Nat, tnsOrder (l ++ [17]) = l.length + 1
  | [] => rfl
  | i :: l => by
    rw [List.cons_append]
    unfold tnsOrder
    rw [tnsOrder_17 l]
    simp

/-- **C75** (limits) In `f32` a smooth spectrum makes the temporal noise shaping panic: for the integers `smoothLines` as lines of an 8 kHz
spectrum the last reflection coefficient is exactly one, the quotient of its arc sine and the step is exactly 8.5 and is rounded to 9, and
index 17 is outside of the table of bit costs. The assumptions on the elementary functions are the correctly rounded values of
π/2 and π/17 and `1.0.powi(n) = 1.0`. -/
theorem C75_panics {el : F32.Elem} (hasin : el.asin (.fin 1) = .fin (13176795 / 8388608))
    (hstep : el.piOver17 = .fin (12401689 / 67108864)) (hpow : ∀ n : Nat, el.powi (.fin 1) n = .fin 1) {nbits : Nat} (hn : 480 ≤ nbits) :
    (∀ q ∈ smoothLines, Rep q) ∧ smoothLines.length = (Lc3Config.new .hz8000 .tenMs).ne ∧
    @tnsEncRun F32 (F32.scalar el) (Lc3Config.new .hz8000 .tenMs) (smoothLines.map .fin) 0 nbits false = .panic := by
  refine ⟨?_, rfl, ?_⟩
  · have : ∀ q ∈ smoothLines, (q.den = 1 ∧ |q.num| < 2 ^ 24) := by decide +kernel
    intro q hq
    obtain ⟨h1, h2⟩ := this q hq
    refine ⟨q.num, 0, ?_, h2, by norm_num⟩
    rw [zpow_zero, mul_one]
    exact (Rat.coe_int_num_of_den_eq_one h1).symm
  rw [evalScalar_eq]
  have hi : @tnsIndex F32 (evalScalar el) (.fin 1) = .ok 17 := by
    have : @tnsToInt F32 (evalScalar el) (divK (.fin (13176795 / 8388608)) (.fin (12401689 / 67108864))) = 9 := by
      have h1 : divK (.fin (13176795 / 8388608)) (.fin (12401689 / 67108864)) = .fin (17 / 2) := by decide +kernel
      have h2 : addK (.fin (17 / 2)) (rndK (1 / 2)) = .fin 9 := by decide +kernel
      have h3 : F32.toI32 (.fin 9) = 9 := by decide +kernel
      have h4 : rndK 0 = .fin 0 := by decide +kernel
      rw [h1]
      unfold tnsToInt
      have h5 : @geS F32 (evalScalar el) (.fin (17 / 2)) (@zero F32 (evalScalar el)) = true := by
        show (F32.lt (rndK 0) (.fin (17 / 2)) || F32.eq (.fin (17 / 2)) (rndK 0)) = true
        rw [h4]
        decide +kernel
      rw [h5]
      show max (-128) (min 127 (F32.toI32 (addK (.fin (17 / 2)) (rndK (1 / 2))))) = 9
      rw [h2, h3]
      decide
    unfold tnsIndex
    have e : @tnsToInt F32 (evalScalar el) (divK (el.asin (.fin 1)) el.piOver17) = 9 := by rw [hasin, hstep]; exact this
    show ((i8Chk (@tnsToInt F32 (evalScalar el) (divK (el.asin (.fin 1)) el.piOver17) + 8)) >>= fun v => .ok (i32AsUsize v)) = .ok 17
    rw [e]
    decide
  have hno : ∀ q, Plain (@tnsIndex F32 (evalScalar el) q) := by
    intro q
    unfold tnsIndex i8Chk
    split
    · exact Or.inr ⟨_, rfl⟩
    · exact Or.inl rfl
  obtain ⟨r, hr, hd⟩ : ∃ r, @tnsCorr F32 (evalScalar el) (smoothLines.map .fin) [(12, 34), (34, 57), (57, 80)] = .ok r ∧
      (@tnsAnalysis F32 (evalScalar el) r false 0).drop 7 = [.fin 1] := by
    have hc : @tnsCorr F32 (evalScalar el) (smoothLines.map .fin) [(12, 34), (34, 57), (57, 80)] =
      @tnsCorr F32 (evalScalar onesElem) (smoothLines.map .fin) [(12, 34), (34, 57), (57, 80)] := tnsCorrFrom_elem el onesElem _ _ _ _
    have h := smooth_rc
    split at h
    · rename_i r hr
      refine ⟨r, by rw [hc, hr], ?_⟩
      rw [tnsAnalysis_elem (el' := onesElem) hpow (fun _ => rfl)]
      exact of_decide_eq_true h
    · cases h
  have hw : lpcWeightingOf (Lc3Config.new .hz8000 .tenMs).nMs nbits = 0 := by
    show (if nbits < 480 then 1 else 0) = 0
    rw [if_neg (by omega)]
  have hl : (@tnsAnalysis F32 (evalScalar el) r false 0).length = 8 := @tnsAnalysis_length F32 (evalScalar el) r false 0
  unfold tnsEncRun
  rw [if_neg (by decide)]
  have hp : tnsParams (Lc3Config.new .hz8000 .tenMs).nMs 0 = .ok ⟨1, [(12, 80)], [[(12, 34), (34, 57), (57, 80)]]⟩ := rfl
  rw [hp, Res.bind_ok]
  simp only [hw]
  rw [List.mapM_cons]
  have hf : @tnsFilterInts F32 (evalScalar el) (smoothLines.map .fin) false 0 [(12, 34), (34, 57), (57, 80)] =
      (@tnsAnalysis F32 (evalScalar el) r false 0).mapM (@tnsIndex F32 (evalScalar el)) := by
    unfold tnsFilterInts
    rw [hr, Res.bind_ok]
  rw [hf]
  have hsplit : @tnsAnalysis F32 (evalScalar el) r false 0 = (@tnsAnalysis F32 (evalScalar el) r false 0).take 7 ++ [.fin 1] := by
    rw [← hd, List.take_append_drop]
  have hl7 : ((@tnsAnalysis F32 (evalScalar el) r false 0).take 7).length = 7 := by rw [List.length_take, hl]; rfl
  rw [hsplit, List.mapM_append]
  generalize (@tnsAnalysis F32 (evalScalar el) r false 0).take 7 = l7 at hl7
  rcases mapM_plain hno l7 with e | ⟨ints, e⟩
  · rw [e]; rfl
  · rw [e, Res.bind_ok, List.mapM_cons, hi]
    have hil : ints.length = 7 := by
      have := (mapM_forall₂ e).length_eq
      omega
    have hb : @tnsFilterBits F32 (evalScalar el) 0 (ints ++ [17]) = .panic := by
      unfold tnsFilterBits
      simp only [tnsOrder_17, hil]
      rw [List.take_of_length_le (by simp [hil]), tnsCoefBits_17 ints 0 (by omega)]
      rcases idx_plain AC_TNS_ORDER_BITS 0 with e1 | ⟨row, e1⟩
      · rw [e1]; rfl
      · rw [e1]
        rcases idx_plain row 7 with e2 | ⟨row2, e2⟩
        · show ((idx row 7) >>= _) = _
          rw [e2]; rfl
        · show ((idx row 7) >>= _) = _
          rw [e2]; rfl
    show ((([ints ++ [17]] : List (List Nat)).mapM (@tnsFilterBits F32 (evalScalar el) 0)) >>= _) = _
    rw [List.mapM_cons, hb]
    rfl

/-- elementary functions with these values -/
example : @tnsEncRun F32 (F32.scalar ⟨id, id, .fin, .fin, .fin (12401689 / 67108864), id, id, id, id, fun _ => .fin (13176795 / 8388608), id,
    fun _ _ => .fin 1⟩) (Lc3Config.new .hz8000 .tenMs) (smoothLines.map .fin) 0 640 false = .panic :=
  (C75_panics rfl rfl (fun _ => rfl) (by norm_num)).2.2

end Lc3
