import Verif.Props.SnsPulses
import Verif.Model.EncSns
/-! # Helpers for C45: transmitted indices and scale factors -/

namespace Lc3
open Spec Tables Scalar

/-- the quantised scale factor data of a frame as the decoder reports it -/
def vqOf (lf hf shape gind lsa : Nat) (q : PulseIdx) : SnsVq :=
  { indLf := lf, indHf := hf, lsInda := lsa, lsIndb := if shape = 0 then q.lsIndb else 0,
    idxA := q.idxa, idxB := if shape = 0 then q.idxb else 0,
    submodeLsb := shape % 2, submodeMsb := shape / 2, gInd := gind }

theorem vqOf_expected (p : FrameParams) (q : PulseIdx) :
    (expectedSide p q).snsVq = vqOf p.indLf p.indHf p.shapeJ p.gind p.lsInda q := rfl

/-- enumeration of a candidate of the right shape: the joint index is built from indices in range, and the decoder's pulses are
the candidate -/
theorem snsEnumerate_vq {shape gind : Nat} {c : SnsCands} (hj : shape < 4) (h1 : c.y1.length = 10)
    (hv : ShapeVector shape (candidateOf shape c)) :
    ∃ J lsa lsb, ∃ q : PulseIdx, snsEnumerate shape gind c.y0 c.y1 c.y2 c.y3 = .ok (J, lsa, lsb) ∧ (lsa = 0 ∨ lsa = 1) ∧
      J = jointIndex shape gind q.idxa q.idxb q.lsIndb ∧
      q.idxa < (if shape ≤ 1 then 2390004 else if shape = 2 then 15158272 else 774912) ∧
      (shape = 0 → q.idxb < 6 ∧ q.lsIndb ≤ 1) ∧
      ∀ lf hf, snsPulses (vqOf lf hf shape gind lsa.toNat q) = .ok (candidateOf shape c) := by
  have hsh : shape = 0 ∨ shape = 1 ∨ shape = 2 ∨ shape = 3 := by omega
  rcases hsh with rfl | rfl | rfl | rfl
  · obtain ⟨hl, hA, hB⟩ := hv
    simp only [candidateOf] at hl hA hB ⊢
    obtain ⟨i, ls, e1, e2, e3, e4⟩ := mvpqEnum_ok (dim := 10) (l := c.y0) (by norm_num) (by omega)
      (by rw [← unitPulses_eq, hA]; norm_num) (by rw [← unitPulses_eq, hA])
    rw [← unitPulses_eq, hA] at e3 e4
    rw [mpvqM_10_10] at e3
    obtain ⟨i', ls', f1, f2, f3, f4⟩ := C17 (k := 1) (y := c.y0.drop 10) (.inr (.inl ⟨rfl, rfl, rfl⟩)) (by simp; omega) hB
    have hu : ∀ n, n < 18446744073709551616 → usizeChk n = .ok n := fun n h => if_pos h
    have hls' : i32AsUsize ls' = ls'.toNat := by rcases f2 with rfl | rfl <;> rfl
    have hb : ls'.toNat ≤ 1 := by rcases f2 with rfl | rfl <;> decide
    refine ⟨(2 * i' + ls'.toNat + 2) * 2390004 + i, ls, ls', ⟨i, i', ls'.toNat⟩, ?_, e2, rfl, by simpa using e3, fun _ => ⟨f3, hb⟩, ?_⟩
    · unfold snsEnumerate
      simp only
      rw [e1, Res.bind_ok]
      simp only
      rw [f1, Res.bind_ok]
      simp only
      rw [hls', hu _ (by omega), Res.bind_ok, hu _ (by omega), Res.bind_ok, hu _ (by omega), Res.bind_ok, hu _ (by omega), Res.bind_ok]
    · intro lf hf
      show (do
        let y ← mpvqDeenum 10 10 ls.toNat i
        let z ← mpvqDeenum 6 1 ls'.toNat i'
        Res.ok (y ++ z)) = _
      rw [e4, Res.bind_ok, f4, Res.bind_ok, List.take_append_drop]
  · obtain ⟨hl, hA, hB⟩ := hv
    simp only [candidateOf] at hl hA hB ⊢
    rw [List.take_left' h1] at hA
    obtain ⟨i, ls, e1, e2, e3, e4⟩ := C17 (k := 10) (.inl ⟨rfl, rfl, rfl⟩) h1 hA
    refine ⟨_, ls, 0, ⟨i, 0, 0⟩, ?_, e2, rfl, by simpa using e3, by simp, ?_⟩
    · unfold snsEnumerate
      simp only
      rw [e1, Res.bind_ok]
      rfl
    · intro lf hf
      show (do
        let y ← mpvqDeenum 10 10 ls.toNat i
        Res.ok (y ++ List.replicate 6 0)) = _
      rw [e4, Res.bind_ok]
  · obtain ⟨hl, hA⟩ := hv
    simp only [candidateOf] at hl hA ⊢
    obtain ⟨i, ls, e1, e2, e3, e4⟩ := C17 (k := 8) (.inr (.inr (.inl ⟨rfl, rfl, rfl⟩))) hl hA
    refine ⟨_, ls, 0, ⟨i, 0, 0⟩, ?_, e2, rfl, by simpa using e3, by simp, ?_⟩
    · unfold snsEnumerate
      simp only
      rw [e1, Res.bind_ok]
      rfl
    · intro lf hf
      exact e4
  · obtain ⟨hl, hA⟩ := hv
    simp only [candidateOf] at hl hA ⊢
    obtain ⟨i, ls, e1, e2, e3, e4⟩ := C17 (k := 6) (.inr (.inr (.inr ⟨rfl, rfl, rfl⟩))) hl hA
    refine ⟨_, ls, 0, ⟨i, 0, 0⟩, ?_, e2, rfl, by simpa using e3, by simp, ?_⟩
    · unfold snsEnumerate
      simp only
      rw [e1, Res.bind_ok]
      rfl
    · intro lf hf
      exact e4

/-- a candidate of shape 0 without a pulse in its last six entries is not enumerated (with overflow checks) -/
theorem snsEnumerate_zero_panics {gind : Nat} {y0 y1 y2 y3 : List Int} (h : unitPulses (y0.drop 10) = 0)
    {r : Nat × Int × Int} : snsEnumerate 0 gind y0 y1 y2 y3 ≠ .ok r := by
  have hz := pulseSum_eq_zero (l := y0.drop 10) (by rw [← unitPulses_eq]; exact h)
  intro e
  unfold snsEnumerate at e
  simp only at e
  rw [hz] at e
  obtain ⟨⟨i, l⟩, -, e⟩ := bind_ok_inv e
  simp only at e
  obtain ⟨⟨i', l'⟩, e1, e⟩ := bind_ok_inv e
  have e2 : (i', l') = (0, -2147483648) := by
    unfold mvpqEnum at e1
    rw [List.length_replicate] at e1
    split at e1
    · cases e1
    · rename_i hk
      rw [List.take_replicate, Nat.min_eq_left (by omega)] at e1
      have h6 : enumLoop 0 (List.replicate 6 0) = .ok ⟨0, -2147483648, 0, 5, 0⟩ := by decide
      rw [h6] at e1
      simpa using e1.symm
  simp only [Prod.mk.injEq] at e2
  obtain ⟨rfl, rfl⟩ := e2
  simp only at e
  have ha : i32AsUsize (-2147483648) = 18446744071562067968 := by decide
  rw [ha] at e
  obtain ⟨t, h1, e⟩ := bind_ok_inv e
  obtain ⟨t', h2, e⟩ := bind_ok_inv e
  obtain ⟨t'', h3, e⟩ := bind_ok_inv e
  have hu : ∀ {n m : Nat}, usizeChk n = .ok m → m = n ∧ n < 18446744073709551616 := by
    intro n m h
    unfold usizeChk at h
    split at h
    · rename_i hn
      exact ⟨by simpa using h.symm, hn⟩
    · cases h
  obtain ⟨rfl, _⟩ := hu h1
  obtain ⟨rfl, _⟩ := hu h2
  obtain ⟨_, h4⟩ := hu h3
  omega

section
variable {α : Type} [Scalar α]

/-- the gains of a shape -/
def gainsOf (shape : Nat) : List Rat :=
  match shape with
  | 0 => SNS_VQ_REG_ADJ_GAINS
  | 1 => SNS_VQ_REG_LF_ADJ_GAINS
  | 2 => SNS_VQ_NEAR_ADJ_GAINS
  | _ => SNS_VQ_FAR_ADJ_GAINS

/-- what the choice of shape and gain means -/
def ChoiceOk (xs : Nat → List α) (s : SnsChoice α) : Prop :=
  s.shapeJ < 4 ∧ s.gind < gainCount s.shapeJ ∧ (∃ g, (gainsOf s.shapeJ)[s.gind]? = some g ∧ s.gain = ofRat g) ∧ s.xq = xs s.shapeJ

theorem snsTryGains_cases (t xq : List α) (j : Nat) : ∀ (gs : List Rat) (i : Nat) (s : SnsChoice α),
    snsTryGains t xq j gs i s = s ∨ ∃ k g d, gs[k]? = some g ∧ snsTryGains t xq j gs i s = ⟨j, i + k, ofRat g, xq, d⟩
  | [], _, s => .inl rfl
  | g :: gs, i, s => by
    rw [snsTryGains]
    have key : ∀ s' : SnsChoice α, s' = s ∨ s' = ⟨j, i, ofRat g, xq, some (snsDist t xq (ofRat g))⟩ →
        snsTryGains t xq j gs (i + 1) s' = s ∨
          ∃ k g' d, (g :: gs)[k]? = some g' ∧ snsTryGains t xq j gs (i + 1) s' = ⟨j, i + k, ofRat g', xq, d⟩ := by
      intro s' hs'
      rcases snsTryGains_cases t xq j gs (i + 1) s' with h | ⟨k, g', d, h1, h2⟩
      · rw [h]
        rcases hs' with rfl | rfl
        · left; rfl
        · right; exact ⟨0, g, _, rfl, rfl⟩
      · right
        exact ⟨k + 1, g', d, by simpa using h1, by rw [h2]; congr 1; omega⟩
    apply key
    split <;> split
    · right; rfl
    · left; rfl
    · right; rfl
    · left; rfl

theorem snsTryGains_first (hinf : ∀ d : α, ltInf d = true) (t xq : List α) (j : Nat) (g : Rat) (gs : List Rat) (i : Nat) (s : SnsChoice α)
    (hs : s.dmin = none) : ∃ k g' d, (g :: gs)[k]? = some g' ∧ snsTryGains t xq j (g :: gs) i s = ⟨j, i + k, ofRat g', xq, d⟩ := by
  rw [snsTryGains, hs]
  simp only [hinf, if_true]
  rcases snsTryGains_cases t xq j gs (i + 1) ⟨j, i, ofRat g, xq, some (snsDist t xq (ofRat g))⟩ with h | ⟨k, g', d, h1, h2⟩
  · exact ⟨0, g, _, rfl, by rw [h]; rfl⟩
  · exact ⟨k + 1, g', d, by simpa using h1, by rw [h2]; congr 1; omega⟩

theorem choiceOk_step (xs : Nat → List α) {j : Nat} (hj : j < 4) (t : List α) {n : Nat} {s : SnsChoice α} (hn : n ≤ gainCount j)
    (h : ChoiceOk xs s) : ChoiceOk xs (snsTryGains t (xs j) j ((gainsOf j).take n) 0 s) := by
  rcases snsTryGains_cases t (xs j) j ((gainsOf j).take n) 0 s with e | ⟨k, g, d, h1, h2⟩
  · rw [e]; exact h
  · rw [h2]
    rw [List.getElem?_take] at h1
    split at h1
    · rename_i hk
      exact ⟨hj, by simp only; omega, ⟨g, by simpa using h1, rfl⟩, rfl⟩
    · cases h1

theorem snsChoose_ok (hinf : ∀ d : α, ltInf d = true) (t : List α) (xs : Nat → List α) :
    ChoiceOk xs (snsChoose t (xs 0) (xs 1) (xs 2) (xs 3)) := by
  unfold snsChoose
  simp only
  refine choiceOk_step xs (j := 3) (by norm_num) t (n := 7) (by decide) ?_
  refine choiceOk_step xs (j := 2) (by norm_num) t (n := 3) (by decide) ?_
  refine choiceOk_step xs (j := 1) (by norm_num) t (n := 3) (by decide) ?_
  obtain ⟨g, hg⟩ : ∃ g, SNS_VQ_REG_ADJ_GAINS.take 1 = [g] := ⟨_, rfl⟩
  obtain ⟨k, g', d, h1, h2⟩ := snsTryGains_first hinf t (xs 0) 0 g [] 0 ⟨0, 0, zero, xs 0, none⟩ rfl
  rw [hg, h2]
  rw [← hg, List.getElem?_take] at h1
  split at h1
  · rename_i hk
    exact ⟨by norm_num, by simp only; unfold gainCount; simp; omega, ⟨g', by simpa [gainsOf] using h1, rfl⟩, rfl⟩
  · cases h1

end
end Lc3
