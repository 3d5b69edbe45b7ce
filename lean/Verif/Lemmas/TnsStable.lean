import Verif.Props.Levinson
import Verif.Lemmas.SnsRotation
/-!
# The normalised autocorrelation of the temporal noise shaping

In exact arithmetic. The lag window of the code is, as a matrix, positive definite up to 10⁻¹⁶ (its 16 digits are not enough for
more): `lagL` is a Cholesky factor of the window plus 10⁻¹⁶ on the diagonal, rounded to 24 digits.
-/

namespace Lc3
open Scalar Spec Finset

/-! ## The lag window -/

/-- the numerators of the lag window over 10^16 -/
def lagNum : List ℤ :=
  [10000000000000000, 9980280260203829, 9921354055113971, 9823915844707989, 9689107911912967, 9518498073692735, 9314049334023056,
    9078082299969592, 8813231366694713]

/-- the factor times 10^24 -/
def lagL : List (List ℤ) :=
  [[1000000000000000050000000],
    [998028026020382850098599, 62769891491527310933746],
    [992135405511397050393230, 125045392407133677693302, 5566593974935706608127],
    [982391584470798850880421, 186093545892878284805369, 16601268256532984236024, 604011790629952462427],
    [968910791191296651554460, 245204504621125441617575, 32876708617517428864895, 2397069277354651618889, 75603720335995005265],
    [951849807369273452407510, 301705267042166326141246, 54043162355189686756958, 5922198213726216939235, 374311802106078106293,
      10570476720310684746],
    [931404933402305553429753, 354972419589603854282746, 79638356163369472248927, 11659030695933973922662, 1107548870092913356061,
      62675500994334176231, 1630519723961979433],
    [907808229996959154609589, 404443547856211831717115, 109100615057969355180263, 20004936247096681677950, 2538841405431575269504,
      215928954810170168557, 11215647259417085993, 452198954901126465],
    [881323136669471255933843, 449627025792202629166037, 141784714796637334015862, 31259425917680169933441, 4968773407648024278574,
      564569439892728472442, 43954114744487937756, 3110967644239198415, 452198673614321206]]

/-- an entry of the factor -/
def lagEntry (m p : ℕ) : ℤ := (lagL.getD m []).getD p 0

/-- the window minus the factor times its transpose, times 10^48 -/
def lagDev (m n : ℕ) : ℤ := lagNum.getD (lag m n) 0 * 10 ^ 32 - ∑ p ∈ range 9, lagEntry m p * lagEntry n p

theorem lagDev_row : ∀ m < 9, ∑ n ∈ range 9, |lagDev m n| ≤ 2 * 10 ^ 32 := by decide +kernel

theorem lagDev_symm (m n : ℕ) : lagDev m n = lagDev n m := by
  unfold lagDev
  rw [lag_comm]
  congr 1
  exact Finset.sum_congr rfl fun p _ => by ring

theorem lagDev_diag : ∀ m < 9, lagDev m m ≤ 0 := by decide +kernel

theorem lagWindow_num : ∀ k < 9, LAG_WINDOW.getD k 0 = (lagNum.getD k 0 : ℚ) / 10 ^ 16 := by
  intro k hk
  interval_cases k <;> simp [LAG_WINDOW, lagNum] <;> norm_num

/-- the window as a real function of the lag -/
noncomputable def lagW (k : ℕ) : ℝ := ((LAG_WINDOW.getD k 0 : ℚ) : ℝ)

theorem lagW_split {m n : ℕ} (hm : m < 9) (hn : n < 9) : lagW (lag m n) =
    (∑ p ∈ range 9, ((lagEntry m p : ℝ) / 10 ^ 24) * ((lagEntry n p : ℝ) / 10 ^ 24)) + (lagDev m n : ℝ) / 10 ^ 48 := by
  unfold lagW
  rw [lagWindow_num _ (by unfold lag; omega)]
  unfold lagDev
  push_cast
  have : ∑ p ∈ range 9, ((lagEntry m p : ℝ) / 10 ^ 24) * ((lagEntry n p : ℝ) / 10 ^ 24) =
      (∑ p ∈ range 9, (lagEntry m p : ℝ) * lagEntry n p) / 10 ^ 48 := by
    rw [Finset.sum_div]
    exact Finset.sum_congr rfl fun p _ => by ring
  rw [this]
  ring

/-- the window keeps a positive definite autocorrelation positive definite, up to its precision -/
theorem lagW_posDef {c : ℕ → ℝ} {B : ℝ} (hB : ∀ k, |c k| ≤ B) {μ : ℝ} (hμ0 : 0 ≤ μ) (hμ : 2 / 10 ^ 16 * B < μ)
    (hc : ∀ b : ℕ → ℝ, μ * ∑ i ∈ range 9, b i ^ 2 ≤ filteredEnergy c b) : Nonsingular (fun k => c k * lagW k) := by
  intro b hb
  have hsum : 0 < ∑ i ∈ range 9, b i ^ 2 := by
    obtain ⟨n, hn, h⟩ := hb
    exact Finset.sum_pos' (fun i _ => sq_nonneg _) ⟨n, by simpa using hn, by positivity⟩
  obtain ⟨l, hl⟩ : ∃ l : ℕ → ℕ → ℝ, ∀ m p, l m p = (lagEntry m p : ℝ) / 10 ^ 24 := ⟨fun m p => (lagEntry m p : ℝ) / 10 ^ 24, fun _ _ => rfl⟩
  obtain ⟨d, hd⟩ : ∃ d : ℕ → ℕ → ℝ, ∀ m n, d m n = (lagDev m n : ℝ) / 10 ^ 48 := ⟨fun m p => (lagDev m p : ℝ) / 10 ^ 48, fun _ _ => rfl⟩
  have split : filteredEnergy (fun k => c k * lagW k) b =
      (∑ p ∈ range 9, filteredEnergy c (fun m => b m * l m p)) + ∑ m ∈ range 9, ∑ n ∈ range 9, b m * b n * c (lag m n) * d m n := by
    have hsw : ∑ p ∈ range 9, filteredEnergy c (fun m => b m * l m p) =
        ∑ m ∈ range 9, ∑ n ∈ range 9, ∑ p ∈ range 9, b m * l m p * (b n * l n p) * c (lag m n) := by
      unfold filteredEnergy
      rw [Finset.sum_comm]
      exact Finset.sum_congr rfl fun m _ => Finset.sum_comm
    rw [hsw]
    unfold filteredEnergy
    rw [← Finset.sum_add_distrib]
    refine Finset.sum_congr rfl fun m hm => ?_
    rw [← Finset.sum_add_distrib]
    refine Finset.sum_congr rfl fun n hn => ?_
    show b m * b n * (c (lag m n) * lagW (lag m n)) = _
    rw [lagW_split (by simpa using hm) (by simpa using hn), ← hd, mul_add, mul_add, Finset.mul_sum, Finset.mul_sum]
    congr 1
    · refine Finset.sum_congr rfl fun p _ => ?_
      rw [hl, hl]
      ring
    · ring
  -- the part with the factor
  have h1 : μ * ∑ m ∈ range 9, b m ^ 2 ≤ ∑ p ∈ range 9, filteredEnergy c (fun m => b m * l m p) := by
    have : ∀ p ∈ range 9, μ * ∑ m ∈ range 9, (b m * l m p) ^ 2 ≤ filteredEnergy c (fun m => b m * l m p) := fun p _ => hc _
    refine le_trans ?_ (Finset.sum_le_sum this)
    rw [← Finset.mul_sum, Finset.sum_comm]
    refine mul_le_mul_of_nonneg_left (Finset.sum_le_sum fun m hm => ?_) hμ0
    have hm' : m < 9 := by simpa using hm
    have hs := lagW_split hm' hm'
    have hw : lagW (lag m m) = 1 := by
      rw [show lag m m = 0 by unfold lag; omega]
      unfold lagW
      rw [lagWindow_num 0 (by norm_num)]
      norm_num [lagNum]
    have hdm : (lagDev m m : ℝ) / 10 ^ 48 ≤ 0 := by
      have : (lagDev m m : ℝ) ≤ 0 := by exact_mod_cast lagDev_diag m hm'
      exact div_nonpos_of_nonpos_of_nonneg this (by positivity)
    have hone : 1 ≤ ∑ p ∈ range 9, l m p ^ 2 := by
      have : ∑ p ∈ range 9, l m p ^ 2 = ∑ p ∈ range 9, ((lagEntry m p : ℝ) / 10 ^ 24) * ((lagEntry m p : ℝ) / 10 ^ 24) :=
        Finset.sum_congr rfl fun p _ => by rw [hl]; ring
      rw [this]
      linarith
    have : ∑ p ∈ range 9, (b m * l m p) ^ 2 = b m ^ 2 * ∑ p ∈ range 9, l m p ^ 2 := by
      rw [Finset.mul_sum]
      exact Finset.sum_congr rfl fun p _ => by ring
    rw [this]
    nlinarith [sq_nonneg (b m)]
  -- the deviation
  have hB0 : 0 ≤ B := (abs_nonneg _).trans (hB 0)
  have h2 : |∑ m ∈ range 9, ∑ n ∈ range 9, b m * b n * c (lag m n) * d m n| ≤ 2 / 10 ^ 16 * B * ∑ m ∈ range 9, b m ^ 2 := by
    have e1 : |∑ m ∈ range 9, ∑ n ∈ range 9, b m * b n * c (lag m n) * d m n| ≤
        ∑ m ∈ range 9, ∑ n ∈ range 9, B * |d m n| * ((b m ^ 2 + b n ^ 2) / 2) := by
      refine (Finset.abs_sum_le_sum_abs _ _).trans (Finset.sum_le_sum fun m _ => (Finset.abs_sum_le_sum_abs _ _).trans
        (Finset.sum_le_sum fun n _ => ?_))
      rw [abs_mul, abs_mul]
      have hbb : |b m * b n| ≤ (b m ^ 2 + b n ^ 2) / 2 := by
        rw [abs_le]
        constructor <;> nlinarith [sq_nonneg (b m + b n), sq_nonneg (b m - b n)]
      calc |b m * b n| * |c (lag m n)| * |d m n| ≤ ((b m ^ 2 + b n ^ 2) / 2) * B * |d m n| := by
            refine mul_le_mul_of_nonneg_right (mul_le_mul hbb (hB _) (abs_nonneg _) (by positivity)) (abs_nonneg _)
        _ = B * |d m n| * ((b m ^ 2 + b n ^ 2) / 2) := by ring
    have hdsymm : ∀ m n, d m n = d n m := fun m n => by rw [hd, hd, lagDev_symm]
    have e2 : ∑ m ∈ range 9, ∑ n ∈ range 9, B * |d m n| * ((b m ^ 2 + b n ^ 2) / 2) =
        ∑ m ∈ range 9, ∑ n ∈ range 9, B * |d m n| * b m ^ 2 := by
      have s1 : ∑ m ∈ range 9, ∑ n ∈ range 9, B * |d m n| * ((b m ^ 2 + b n ^ 2) / 2) =
          (∑ m ∈ range 9, ∑ n ∈ range 9, B * |d m n| * b m ^ 2) / 2 + (∑ m ∈ range 9, ∑ n ∈ range 9, B * |d m n| * b n ^ 2) / 2 := by
        rw [Finset.sum_div, Finset.sum_div, ← Finset.sum_add_distrib]
        refine Finset.sum_congr rfl fun m _ => ?_
        rw [Finset.sum_div, Finset.sum_div, ← Finset.sum_add_distrib]
        exact Finset.sum_congr rfl fun n _ => by ring
      have s2 : ∑ m ∈ range 9, ∑ n ∈ range 9, B * |d m n| * b n ^ 2 = ∑ m ∈ range 9, ∑ n ∈ range 9, B * |d m n| * b m ^ 2 := by
        rw [Finset.sum_comm]
        exact Finset.sum_congr rfl fun n _ => Finset.sum_congr rfl fun m _ => by rw [hdsymm m n]
      rw [s1, s2]
      ring
    rw [e2] at e1
    refine e1.trans ?_
    rw [Finset.mul_sum]
    refine Finset.sum_le_sum fun m hm => ?_
    rw [← Finset.sum_mul, ← Finset.mul_sum]
    have hrow : ∑ n ∈ range 9, |d m n| ≤ 2 / 10 ^ 16 := by
      have h := lagDev_row m (by simpa using hm)
      have h' : ∑ n ∈ range 9, |(lagDev m n : ℝ)| ≤ 2 * 10 ^ 32 := by exact_mod_cast h
      have : ∑ n ∈ range 9, |d m n| = (∑ n ∈ range 9, |(lagDev m n : ℝ)|) / 10 ^ 48 := by
        rw [Finset.sum_div]
        refine Finset.sum_congr rfl fun n _ => ?_
        rw [hd, abs_div, abs_of_pos (by positivity : (0 : ℝ) < 10 ^ 48)]
      rw [this, div_le_iff₀ (by positivity)]
      refine h'.trans ?_
      norm_num
    have : B * ∑ n ∈ range 9, |d m n| ≤ 2 / 10 ^ 16 * B := by
      rw [mul_comm (2 / 10 ^ 16) B]
      exact mul_le_mul_of_nonneg_left hrow hB0
    exact mul_le_mul_of_nonneg_right this (sq_nonneg _)
  rw [split]
  have h3 := (abs_le.1 h2).1
  nlinarith

/-! ## Autocorrelations of the parts -/

/-- a part as a function that is zero outside -/
def partFn (x : List ℝ) (p : ℕ × ℕ) (s : ℕ) : ℝ := if s < p.2 - p.1 then x.getD (p.1 + s) 0 else 0

/-- the autocorrelation of a part -/
def partCorr (x : List ℝ) (p : ℕ × ℕ) (k : ℕ) : ℝ := ∑ s ∈ range (p.2 - p.1), partFn x p s * partFn x p (s + k)

theorem partFn_sq (x : List ℝ) (p : ℕ × ℕ) : ∑ s ∈ range (p.2 - p.1), partFn x p s ^ 2 = partEnergy x p := by
  unfold partEnergy partFn
  refine Finset.sum_congr rfl fun s hs => ?_
  rw [if_pos (by simpa using hs)]

theorem partCorr_bound (x : List ℝ) (p : ℕ × ℕ) (k : ℕ) : |partCorr x p k| ≤ partEnergy x p := by
  unfold partCorr
  have h2 : ∑ s ∈ range (p.2 - p.1), partFn x p (s + k) ^ 2 ≤ partEnergy x p := by
    rw [← partFn_sq]
    have e : ∑ s ∈ range (p.2 - p.1), partFn x p (s + k) ^ 2 = ∑ s ∈ Ico k (k + (p.2 - p.1)), partFn x p s ^ 2 := by
      rw [Finset.sum_Ico_eq_sum_range, Nat.add_sub_cancel_left]
      exact Finset.sum_congr rfl fun s _ => by rw [add_comm]
    rw [e]
    have hz : ∀ s ∈ Ico k (k + (p.2 - p.1)), s ∉ Ico k (p.2 - p.1) → partFn x p s ^ 2 = 0 := by
      intro s hs hn
      unfold partFn
      rw [if_neg (by simp at hs hn; omega)]
      norm_num
    rw [← Finset.sum_subset (s₁ := Ico k (p.2 - p.1)) (fun s hs => by simp at hs ⊢; omega) hz]
    exact Finset.sum_le_sum_of_subset_of_nonneg (fun s hs => by simp at hs ⊢; omega) fun s _ _ => sq_nonneg _
  have h1 := partFn_sq x p
  refine (Finset.abs_sum_le_sum_abs _ _).trans ?_
  have : ∀ s ∈ range (p.2 - p.1), |partFn x p s * partFn x p (s + k)| ≤ (partFn x p s ^ 2 + partFn x p (s + k) ^ 2) / 2 := by
    intro s _
    rw [abs_le]
    constructor <;> nlinarith [sq_nonneg (partFn x p s + partFn x p (s + k)), sq_nonneg (partFn x p s - partFn x p (s + k))]
  refine (Finset.sum_le_sum this).trans ?_
  rw [← Finset.sum_div, Finset.sum_add_distrib]
  linarith

/-- the correlation of two shifts -/
theorem shift_corr (x : List ℝ) (p : ℕ × ℕ) {i j : ℕ} (hij : i ≤ j) (hj : j < 9) :
    ∑ t ∈ range (p.2 - p.1 + 8), (if i ≤ t then partFn x p (t - i) else 0) * (if j ≤ t then partFn x p (t - j) else 0) =
      partCorr x p (j - i) := by
  obtain ⟨L, hL⟩ : ∃ L, L = p.2 - p.1 := ⟨_, rfl⟩
  unfold partCorr
  rw [← hL]
  have e1 : ∑ t ∈ range (L + 8), (if i ≤ t then partFn x p (t - i) else 0) * (if j ≤ t then partFn x p (t - j) else 0) =
      ∑ t ∈ Ico j (L + 8), partFn x p (t - i) * partFn x p (t - j) := by
    rw [Finset.range_eq_Ico, ← Finset.sum_Ico_consecutive _ (Nat.zero_le j) (show j ≤ L + 8 by omega)]
    have z : ∑ t ∈ Ico 0 j, (if i ≤ t then partFn x p (t - i) else 0) * (if j ≤ t then partFn x p (t - j) else 0) = 0 := by
      refine Finset.sum_eq_zero fun t ht => ?_
      rw [if_neg (show ¬ j ≤ t by simp at ht; omega), mul_zero]
    rw [z, zero_add]
    refine Finset.sum_congr rfl fun t ht => ?_
    have : j ≤ t := by simp at ht; exact ht.1
    rw [if_pos (by omega), if_pos this]
  rw [e1, Finset.sum_Ico_eq_sum_range]
  have hz : ∀ s ∈ range (L + 8 - j), s ∉ range L → partFn x p (j + s - i) * partFn x p (j + s - j) = 0 := by
    intro s _ hn
    rw [show j + s - j = s by omega]
    have : partFn x p s = 0 := by unfold partFn; rw [if_neg (by rw [← hL]; simpa using hn)]
    rw [this, mul_zero]
  rw [← Finset.sum_subset (s₁ := range L) (fun s hs => by simp at hs ⊢; omega) hz]
  refine Finset.sum_congr rfl fun s _ => ?_
  rw [show j + s - j = s by omega, show j + s - i = s + (j - i) by omega, mul_comm]

theorem partFiltered_eq (x : List ℝ) (p : ℕ × ℕ) (b : ℕ → ℝ) : partFiltered x p b = filteredEnergy (partCorr x p) b := by
  have hf : ∀ i t, (if i ≤ t ∧ t - i < p.2 - p.1 then x.getD (p.1 + (t - i)) 0 else 0) = if i ≤ t then partFn x p (t - i) else 0 := by
    intro i t
    unfold partFn
    by_cases h1 : i ≤ t
    · by_cases h2 : t - i < p.2 - p.1
      · rw [if_pos ⟨h1, h2⟩, if_pos h1, if_pos h2]
      · rw [if_neg (fun h => h2 h.2), if_pos h1, if_neg h2]
    · rw [if_neg (fun h => h1 h.1), if_neg h1]
  unfold partFiltered filteredEnergy
  simp only [hf]
  have sq : ∀ t, (∑ i ∈ range 9, b i * if i ≤ t then partFn x p (t - i) else 0) ^ 2 =
      ∑ i ∈ range 9, ∑ j ∈ range 9, b i * b j *
        ((if i ≤ t then partFn x p (t - i) else 0) * (if j ≤ t then partFn x p (t - j) else 0)) := by
    intro t
    rw [_root_.sq, Finset.sum_mul_sum]
    refine Finset.sum_congr rfl fun i _ => Finset.sum_congr rfl fun j _ => by ring
  simp only [sq]
  rw [Finset.sum_comm]
  refine Finset.sum_congr rfl fun i hi => ?_
  rw [Finset.sum_comm]
  refine Finset.sum_congr rfl fun j hj => ?_
  rw [← Finset.mul_sum]
  congr 1
  have hi' : i < 9 := by simpa using hi
  have hj' : j < 9 := by simpa using hj
  rcases Nat.le_total i j with h | h
  · rw [shift_corr x p h hj', show lag i j = j - i by unfold lag; omega]
  · have := shift_corr x p h hi'
    rw [show lag i j = i - j by unfold lag; omega, ← this]
    exact Finset.sum_congr rfl fun t _ => mul_comm _ _

/-! ## The code's autocorrelation -/

theorem slice_getD {x : List ℝ} {a b s : ℕ} (hb : b ≤ x.length) (hs : a + s < b) :
    ((x.take b).drop a).getD s 0 = x.getD (a + s) 0 := by
  simp [List.getD_eq_getElem?_getD, List.getElem?_drop, List.getElem?_take, hs]

theorem sum_getD (l : List ℝ) (f : ℝ → ℝ) : (l.map f).sum = ∑ s ∈ range l.length, f (l.getD s 0) := by
  induction l with
  | nil => simp
  | cons y l ih =>
    rw [List.map_cons, List.sum_cons, List.length_cons, Finset.sum_range_succ', ih, add_comm]
    rfl

theorem dotS_getD (l m : List ℝ) (h : m.length ≤ l.length) : dotS l m = ∑ s ∈ range m.length, l.getD s 0 * m.getD s 0 := by
  unfold dotS
  rw [foldl_sum_real (fun p : ℝ × ℝ => p.1 * p.2), show ((zero : ℝ)) = 0 from Rat.cast_zero, zero_add]
  induction m generalizing l with
  | nil => simp
  | cons y m ih =>
    cases l with
    | nil => simp at h
    | cons z l =>
      rw [List.zip_cons_cons, List.map_cons, List.sum_cons, ih l (by simpa using h), List.length_cons, Finset.sum_range_succ', add_comm]
      rfl

theorem tnsCorrParts_real (x : List ℝ) (k : ℕ) : ∀ (ps : List (ℕ × ℕ)) (e r e' r' : ℝ), (∀ p ∈ ps, p.1 ≤ p.2 ∧ p.2 ≤ x.length) →
    tnsCorrParts x k ps e r = .ok (e', r') →
    e' = e * (ps.map (partEnergy x)).prod ∧ r' = r + (ps.map fun p => partCorr x p k / partEnergy x p).sum
  | [], e, r, e', r', _, h => by
    unfold tnsCorrParts at h
    simp only [Res.ok.injEq, Prod.mk.injEq] at h
    simp [h.1, h.2]
  | (a, b) :: ps, e, r, e', r', hp, h => by
    obtain ⟨h1, h2⟩ := hp (a, b) (by simp)
    simp only at h1 h2
    unfold tnsCorrParts at h
    rw [sliceR_ok h1 h2, Res.bind_ok] at h
    simp only at h
    have hlen : ((x.take b).drop a).length = b - a := by rw [List.length_drop, List.length_take]; omega
    have hes : ((x.take b).drop a).foldl (fun s v => s + v * v) (zero : ℝ) = partEnergy x (a, b) := by
      rw [foldl_sum_real (fun v : ℝ => v * v), show ((zero : ℝ)) = 0 from Rat.cast_zero, zero_add, sum_getD, hlen]
      unfold partEnergy
      refine Finset.sum_congr rfl fun s hs => ?_
      rw [slice_getD h2 (by simp at hs; omega)]
      ring
    rw [hes] at h
    have hac : (if a + k < x.length ∧ a + k < b then do
        let sh ← sliceR x (a + k) b
        Res.ok (dotS ((x.take b).drop a) sh)
      else .ok zero) = .ok (partCorr x (a, b) k) := by
      have hcorr : partCorr x (a, b) k = ∑ s ∈ range (b - (a + k)), x.getD (a + s) 0 * x.getD (a + k + s) 0 := by
        unfold partCorr
        simp only
        have hz : ∀ s ∈ range (b - a), s ∉ range (b - (a + k)) → partFn x (a, b) s * partFn x (a, b) (s + k) = 0 := by
          intro s _ hn
          have : partFn x (a, b) (s + k) = 0 := by unfold partFn; rw [if_neg (by simp at hn ⊢; omega)]
          rw [this, mul_zero]
        rw [← Finset.sum_subset (s₁ := range (b - (a + k))) (fun s hs => by simp at hs ⊢; omega) hz]
        refine Finset.sum_congr rfl fun s hs => ?_
        have hs' : s < b - (a + k) := by simpa using hs
        unfold partFn
        simp only
        rw [if_pos (by omega), if_pos (by omega), show a + (s + k) = a + k + s by omega]
      split
      · rename_i hc
        rw [sliceR_ok hc.2.le h2, Res.bind_ok, hcorr]
        have hl2 : ((x.take b).drop (a + k)).length = b - (a + k) := by rw [List.length_drop, List.length_take]; omega
        rw [dotS_getD _ _ (by rw [hlen, hl2]; omega), hl2]
        congr 1
        refine Finset.sum_congr rfl fun s hs => ?_
        have hs' : s < b - (a + k) := by simpa using hs
        rw [slice_getD h2 (by omega), slice_getD h2 (by omega)]
      · rename_i hc
        have : b - (a + k) = 0 := by omega
        rw [hcorr, this]
        simp only [Finset.range_zero, Finset.sum_empty]
        rw [show ((zero : ℝ)) = 0 from Rat.cast_zero]
    rw [hac, Res.bind_ok] at h
    obtain ⟨i1, i2⟩ := tnsCorrParts_real x k ps _ _ _ _ (fun p hpm => hp p (by simp [hpm])) h
    rw [i1, i2]
    simp only [List.map_cons, List.prod_cons, List.sum_cons]
    constructor <;> ring

theorem tnsCorrFrom_real (x : List ℝ) (sub : List (ℕ × ℕ)) (hp : ∀ p ∈ sub, p.1 ≤ p.2 ∧ p.2 ≤ x.length) : ∀ (ws : List ℚ) (k : ℕ) (r : List ℝ),
    tnsCorrFrom x sub k ws = .ok r → r.length = ws.length ∧ ∀ i < ws.length, r.getD i 0 =
      (if (sub.map (partEnergy x)).prod = 0 then (if k + i = 0 then 3 else 0)
        else (sub.map fun p => partCorr x p (k + i) / partEnergy x p).sum) * ((ws.getD i 0 : ℚ) : ℝ)
  | [], k, r, h => by
    unfold tnsCorrFrom at h
    simp only [Res.ok.injEq] at h
    rw [← h]
    simp
  | w :: ws, k, r, h => by
    unfold tnsCorrFrom at h
    obtain ⟨⟨e, c⟩, h1, h⟩ := Res.bind_eq_ok.1 h
    simp only at h
    obtain ⟨rest, h2, h⟩ := Res.bind_eq_ok.1 h
    simp only [Res.ok.injEq] at h
    obtain ⟨i1, i2⟩ := tnsCorrFrom_real x sub hp ws (k + 1) rest h2
    obtain ⟨j1, j2⟩ := tnsCorrParts_real x k sub _ _ _ _ hp h1
    rw [show ((one : ℝ)) = 1 from Rat.cast_one, one_mul] at j1
    rw [show ((zero : ℝ)) = 0 from Rat.cast_zero, zero_add] at j2
    rw [← h]
    refine ⟨by simp [i1], fun i hi => ?_⟩
    rcases i with _ | i
    · rw [List.getD_cons_zero, List.getD_cons_zero, Nat.add_zero]
      show (if decide (e = ((0 : ℚ) : ℝ)) = true then (if k = 0 then ((3 : ℚ) : ℝ) else ((0 : ℚ) : ℝ)) else c) * (w : ℝ) = _
      rw [j1, j2]
      by_cases hz : (sub.map (partEnergy x)).prod = 0
      · by_cases hk : k = 0 <;> simp [hz, hk]
      · simp [hz]
    · rw [List.getD_cons_succ, List.getD_cons_succ, i2 i (by simpa using hi), show k + 1 + i = k + (i + 1) by omega]

/-- the autocorrelation of a spectrum that is not too smooth cannot be cancelled -/
theorem tnsCorr_nonsingular {x : List ℝ} {sub : List (ℕ × ℕ)} (hp : ∀ p ∈ sub, p.1 ≤ p.2 ∧ p.2 ≤ x.length) (h3 : sub.length = 3)
    (hs : (∀ p ∈ sub, partEnergy x p ≠ 0) → NotSmooth x sub) {r : List ℝ} (h : tnsCorr x sub = .ok r) : Nonsingular (at0 r) := by
  obtain ⟨hl, hr⟩ := tnsCorrFrom_real x sub hp LAG_WINDOW 0 r h
  have hl9 : r.length = 9 := by rw [hl]; rfl
  have hat : ∀ i < 9, at0 r i = (if (sub.map (partEnergy x)).prod = 0 then (if i = 0 then 3 else 0)
        else (sub.map fun p => partCorr x p i / partEnergy x p).sum) * lagW i := by
    intro i hi
    have := hr i (by show i < 9; exact hi)
    rw [Nat.zero_add] at this
    unfold at0 lagW
    rw [← this, show ((zero : ℝ)) = 0 from Rat.cast_zero]
  have congrQ : ∀ c : ℕ → ℝ, (∀ i < 9, at0 r i = c i) → Nonsingular c → Nonsingular (at0 r) := by
    intro c hc hn b hb
    have : filteredEnergy (at0 r) b = filteredEnergy c b := by
      unfold filteredEnergy
      refine Finset.sum_congr rfl fun m hm => Finset.sum_congr rfl fun n hn' => ?_
      rw [hc _ (by simp at hm hn'; unfold lag; omega)]
    rw [this]
    exact hn b hb
  by_cases hz : (sub.map (partEnergy x)).prod = 0
  · refine congrQ (fun k => (if k = 0 then (3 : ℝ) else 0) * lagW k) (fun i hi => by rw [hat i hi, if_pos hz]) ?_
    refine lagW_posDef (B := 3) (μ := 3) ?_ (by norm_num) (by norm_num) ?_
    · intro k
      split <;> norm_num
    · intro b
      unfold filteredEnergy
      rw [Finset.mul_sum]
      refine Finset.sum_le_sum fun m hm => ?_
      rw [Finset.sum_eq_single m]
      · show 3 * b m ^ 2 ≤ b m * b m * (if lag m m = 0 then 3 else 0)
        rw [if_pos (by unfold lag; omega)]
        nlinarith
      · intro n _ hne
        show b m * b n * (if lag m n = 0 then 3 else 0) = 0
        rw [if_neg (by unfold lag; omega), mul_zero]
      · intro hn; exact absurd hm hn
  · refine congrQ (fun k => (sub.map fun p => partCorr x p k / partEnergy x p).sum * lagW k) (fun i hi => by rw [hat i hi, if_neg hz]) ?_
    have hpos : ∀ p, 0 ≤ partEnergy x p := fun p => Finset.sum_nonneg fun t _ => sq_nonneg _
    refine lagW_posDef (B := 3) (μ := 1 / 10 ^ 15) ?_ (by norm_num) (by norm_num) ?_
    · intro k
      have key : ∀ l : List (ℕ × ℕ), |(l.map fun p => partCorr x p k / partEnergy x p).sum| ≤ l.length := by
        intro l
        induction l with
        | nil => simp
        | cons p l ih =>
          rw [List.map_cons, List.sum_cons, List.length_cons]
          refine (abs_add_le _ _).trans ?_
          have : |partCorr x p k / partEnergy x p| ≤ 1 := by
            rw [abs_div, abs_of_nonneg (hpos p)]
            exact div_le_one_of_le₀ (partCorr_bound x p k) (hpos p)
          push_cast
          linarith
      have := key sub
      rw [h3] at this
      exact_mod_cast this
    · intro b
      refine (hs (fun p hpm h0 => hz (List.prod_eq_zero (List.mem_map.2 ⟨p, hpm, h0⟩))) b).trans (le_of_eq ?_)
      have key : ∀ l : List (ℕ × ℕ), (l.map fun p => partFiltered x p b / partEnergy x p).sum =
          filteredEnergy (fun k => (l.map fun p => partCorr x p k / partEnergy x p).sum) b := by
        intro l
        induction l with
        | nil => simp [filteredEnergy]
        | cons p l ih =>
          rw [List.map_cons, List.sum_cons, ih, partFiltered_eq]
          unfold filteredEnergy
          rw [Finset.sum_div, ← Finset.sum_add_distrib]
          refine Finset.sum_congr rfl fun m _ => ?_
          rw [Finset.sum_div, ← Finset.sum_add_distrib]
          refine Finset.sum_congr rfl fun n _ => ?_
          simp only [List.map_cons, List.sum_cons]
          ring
      exact key sub

end Lc3
