import Verif.Model.ScalarReal
import Verif.Lemmas.SafeDecoder
import Verif.Props.PostFilter
import Mathlib.Tactic.Linarith
import Mathlib.Tactic.Positivity
/-! Two runs of the post filter in lock step (exact arithmetic): distances of the memories and of the outputs. The factor
`κ` of the second run is 1 for the distance of two runs and 0 for the size of the first one. -/

namespace Lc3
open Scalar Tables Spec

/-- the entries of the first list and `κ` times those of the second one differ by at most `B` -/
def Near (κ B : ℝ) (l m : List ℝ) : Prop := ∀ (i : Nat) (v w : ℝ), l[i]? = some v → m[i]? = some w → |v - κ * w| ≤ B

theorem Near.mono {κ B B' : ℝ} {l m : List ℝ} (h : Near κ B l m) (hB : B ≤ B') : Near κ B' l m :=
  fun i v w h1 h2 => (h i v w h1 h2).trans hB

theorem Near.set {κ B : ℝ} {l m : List ℝ} (h : Near κ B l m) {i : Nat} {v w : ℝ} (hv : |v - κ * w| ≤ B) :
    Near κ B (l.set i v) (m.set i w) := by
  intro j a b h1 h2
  by_cases hj : i = j
  · subst hj
    rw [List.getElem?_set] at h1 h2
    simp only [if_true] at h1 h2
    split at h1
    · split at h2
      · cases h1; cases h2; exact hv
      · cases h2
    · cases h1
  · rw [List.getElem?_set_ne hj] at h1 h2
    exact h j a b h1 h2

/-- sum of the absolute values of the coefficients -/
def absSum (l : List ℝ) : ℝ := (l.map fun c => |c|).sum

theorem absSum_nonneg (l : List ℝ) : 0 ≤ absSum l := by
  unfold absSum
  apply List.sum_nonneg
  intro x hx
  obtain ⟨c, -, rfl⟩ := List.mem_map.1 hx
  exact abs_nonneg c

/-- the values read at one index are near each other -/
def ReadNear (κ B : ℝ) (l m : List ℝ) (ring : Nat) (i : Int) : Prop :=
  ∀ v w, ringRead l ring i = .ok v → ringRead m ring i = .ok w → |v - κ * w| ≤ B

theorem Near.read {κ B : ℝ} {l m : List ℝ} (h : Near κ B l m) (ring : Nat) (i : Int) : ReadNear κ B l m ring i := by
  intro v w h1 h2
  unfold ringRead at h1 h2
  split at h1
  · rename_i hn
    rw [if_pos hn] at h2
    split at h1
    · cases h1
    · rename_i hn2
      rw [if_neg hn2] at h2
      exact h _ _ _ (idx_ok_iff.1 h1) (idx_ok_iff.1 h2)
  · rename_i hn
    rw [if_neg hn] at h2
    exact h _ _ _ (idx_ok_iff.1 h1) (idx_ok_iff.1 h2)

theorem firAdd_near {κ B : ℝ} {l m : List ℝ} {ring : Nat} : ∀ (cs : List ℝ) (i : Int) (a b r s : ℝ),
    (∀ j : Nat, j < cs.length → ReadNear κ B l m ring (i - j)) → firAdd l ring cs i a = .ok r → firAdd m ring cs i b = .ok s →
    |r - κ * s| ≤ |a - κ * b| + absSum cs * B
  | [], i, a, b, r, s, _, h1, h2 => by
    simp only [firAdd, Res.ok.injEq] at h1 h2
    subst h1 h2
    simp [absSum]
  | c :: cs, i, a, b, r, s, hr, h1, h2 => by
    rw [firAdd] at h1 h2
    obtain ⟨v, hv, h1⟩ := bind_ok_inv h1
    obtain ⟨w, hw, h2⟩ := bind_ok_inv h2
    have h0 := hr 0 (by simp) v w (by simpa using hv) (by simpa using hw)
    have ih := firAdd_near cs (i - 1) (a + c * v) (b + c * w) r s (fun j hj => by
      have := hr (j + 1) (by simp; omega)
      rwa [show i - 1 - (j : Int) = i - ((j + 1 : Nat) : Int) by push_cast; ring]) h1 h2
    have e : a + c * v - κ * (b + c * w) = (a - κ * b) + c * (v - κ * w) := by ring
    rw [e] at ih
    have h3 := abs_add_le (a - κ * b) (c * (v - κ * w))
    rw [abs_mul] at h3
    have h4 := mul_le_mul_of_nonneg_left h0 (abs_nonneg c)
    have e2 : absSum (c :: cs) = |c| + absSum cs := by simp [absSum]
    rw [e2]
    nlinarith

theorem firSub_near {κ B : ℝ} {l m : List ℝ} {ring : Nat} : ∀ (cs : List ℝ) (i : Int) (a b r s : ℝ),
    (∀ j : Nat, j < cs.length → ReadNear κ B l m ring (i - j)) → firSub l ring cs i a = .ok r → firSub m ring cs i b = .ok s →
    |r - κ * s| ≤ |a - κ * b| + absSum cs * B
  | [], i, a, b, r, s, _, h1, h2 => by
    simp only [firSub, Res.ok.injEq] at h1 h2
    subst h1 h2
    simp [absSum]
  | c :: cs, i, a, b, r, s, hr, h1, h2 => by
    rw [firSub] at h1 h2
    obtain ⟨v, hv, h1⟩ := bind_ok_inv h1
    obtain ⟨w, hw, h2⟩ := bind_ok_inv h2
    have h0 := hr 0 (by simp) v w (by simpa using hv) (by simpa using hw)
    have ih := firSub_near cs (i - 1) (a - c * v) (b - c * w) r s (fun j hj => by
      have := hr (j + 1) (by simp; omega)
      rwa [show i - 1 - (j : Int) = i - ((j + 1 : Nat) : Int) by push_cast; ring]) h1 h2
    have e : a - c * v - κ * (b - c * w) = (a - κ * b) + -c * (v - κ * w) := by ring
    rw [e] at ih
    have h3 := abs_add_le (a - κ * b) (-c * (v - κ * w))
    rw [abs_mul, abs_neg] at h3
    have h4 := mul_le_mul_of_nonneg_left h0 (abs_nonneg c)
    have e2 : absSum (c :: cs) = |c| + absSum cs := by simp [absSum]
    rw [e2]
    nlinarith

theorem computeFilter_near {κ X M : ℝ} {ring : Nat} {cn cd x1 x2 y1 y2 : List ℝ} {start pitch : Nat} {r s : ℝ}
    (hx : Near κ X x1 x2) (hy : Near κ M y1 y2) (h1 : computeFilter ring cn cd x1 y1 start pitch = .ok r)
    (h2 : computeFilter ring cn cd x2 y2 start pitch = .ok s) : |r - κ * s| ≤ absSum cn * X + absSum cd * M := by
  unfold computeFilter at h1 h2
  obtain ⟨a, ha, h1⟩ := bind_ok_inv h1
  obtain ⟨b, hb, h2⟩ := bind_ok_inv h2
  have k1 := firAdd_near cn _ _ _ _ _ (fun j _ => hx.read ring _) ha hb
  have k2 := firSub_near cd _ _ _ _ _ (fun j _ => hy.read ring _) h1 h2
  have z : |(zero : ℝ) - κ * zero| = 0 := by rw [show (zero : ℝ) = 0 from Rat.cast_zero]; simp
  rw [z] at k1
  linarith

/-- one filtered sample replaces one entry -/
theorem ltpfSample_inv {ring : Nat} {cn cd x y y' : List ℝ} {blk pitch : Nat} {scale : Nat → ℝ → ℝ} {n : Nat}
    (e : ltpfSample ring cn cd x blk pitch scale n y = .ok y') :
    ∃ v f, x[blk + n]? = some v ∧ blk + n < y.length ∧
      computeFilter ring cn cd x (y.set (blk + n) v) (blk + n) pitch = .ok f ∧ y' = y.set (blk + n) (v - scale n f) := by
  unfold ltpfSample at e
  obtain ⟨v, hv, e⟩ := bind_ok_inv e
  obtain ⟨y1, h1, e⟩ := bind_ok_inv e
  obtain ⟨f, hf, e⟩ := bind_ok_inv e
  obtain ⟨w, hw, e⟩ := bind_ok_inv e
  unfold setIdx at h1 e
  split at h1
  · rename_i hlt
    simp only [Res.ok.injEq] at h1
    subst h1
    split at e
    · simp only [Res.ok.injEq] at e
      have hw' := idx_ok_iff.1 hw
      rw [List.getElem?_set_self hlt] at hw'
      cases hw'
      exact ⟨v, f, idx_ok_iff.1 hv, hlt, hf, by rw [← e, List.set_set]⟩
    · cases e
  · cases h1

/-- lock step rule for two loops -/
theorem forRange_two {σ τ : Type} {f : Nat → σ → Res σ} {g : Nat → τ → Res τ} (P : Nat → σ → τ → Prop) :
    ∀ (count a : Nat) (s : σ) (t : τ) (s' : σ) (t' : τ), P a s t →
    (∀ n s t s' t', a ≤ n → n < a + count → P n s t → f n s = .ok s' → g n t = .ok t' → P (n + 1) s' t') →
    forRange f a count s = .ok s' → forRange g a count t = .ok t' → P (a + count) s' t'
  | 0, a, s, t, s', t', h, _, h1, h2 => by
    simp only [forRange, Res.ok.injEq] at h1 h2
    subst h1 h2
    exact h
  | n + 1, a, s, t, s', t', h, hs, h1, h2 => by
    rw [forRange] at h1 h2
    obtain ⟨s1, k1, h1⟩ := bind_ok_inv h1
    obtain ⟨t1, k2, h2⟩ := bind_ok_inv h2
    have := forRange_two P n (a + 1) s1 t1 s' t' (hs a s t s1 t1 (by omega) (by omega) h k1 k2)
      (fun m s t s' t' q1 q2 => hs m s t s' t' (by omega) (by omega)) h1 h2
    rwa [show a + 1 + n = a + (n + 1) by omega] at this

/-- bound of one filtered sample -/
theorem sample_bound {κ φ v w f g X F : ℝ} (h0 : 0 ≤ φ) (hv : |v - κ * w| ≤ X) (hf : |f - κ * g| ≤ F) :
    |(v - f * φ) - κ * (w - g * φ)| ≤ X + φ * F := by
  have e : (v - f * φ) - κ * (w - g * φ) = (v - κ * w) + -φ * (f - κ * g) := by ring
  rw [e]
  have h1 := abs_add_le (v - κ * w) (-φ * (f - κ * g))
  rw [abs_mul, abs_neg, abs_of_nonneg h0] at h1
  nlinarith

/-- the filter with a fade factor `φ n` -/
theorem filt_near {κ X M : ℝ} {ring : Nat} {cn cd x1 x2 y1 y2 y1' y2' : List ℝ} {blk pitch : Nat} {scale : Nat → ℝ → ℝ}
    (hx : Near κ X x1 x2) (hXM : X ≤ M) {a count : Nat} {φ : Nat → ℝ}
    (hs : ∀ n f, a ≤ n → n < a + count → scale n f = f * φ n) (hφ0 : ∀ n, a ≤ n → n < a + count → 0 ≤ φ n)
    (hφ : ∀ n, a ≤ n → n < a + count → X + φ n * (absSum cn * X + absSum cd * M) ≤ M) (hy : Near κ M y1 y2)
    (e1 : forRange (ltpfSample ring cn cd x1 blk pitch scale) a count y1 = .ok y1')
    (e2 : forRange (ltpfSample ring cn cd x2 blk pitch scale) a count y2 = .ok y2') :
    Near κ M y1' y2' ∧ ∀ n, a ≤ n → n < a + count → ∀ v w, y1'[blk + n]? = some v → y2'[blk + n]? = some w →
      |v - κ * w| ≤ X + φ n * (absSum cn * X + absSum cd * M) := by
  have key := forRange_two (fun m l r => Near κ M l r ∧ ∀ n, a ≤ n → n < m → ∀ v w, l[blk + n]? = some v →
      r[blk + n]? = some w → |v - κ * w| ≤ X + φ n * (absSum cn * X + absSum cd * M)) count a y1 y2 y1' y2'
    ⟨hy, fun n h1 h2 => by omega⟩ ?_ e1 e2
  · exact key
  · rintro n l r l' r' hn1 hn2 ⟨hl, hw⟩ k1 k2
    obtain ⟨v, f, hv, hlt, hf, rfl⟩ := ltpfSample_inv k1
    obtain ⟨w, g, hw', hlt', hg, rfl⟩ := ltpfSample_inv k2
    have hvw := hx _ _ _ hv hw'
    have hF := computeFilter_near hx (hl.set (hvw.trans hXM)) hf hg
    have hb := sample_bound (hφ0 n hn1 hn2) hvw hF
    rw [← hs n f hn1 hn2, ← hs n g hn1 hn2] at hb
    refine ⟨hl.set (hb.trans (hφ n hn1 hn2)), ?_⟩
    intro m h1 h2 p q hp hq
    by_cases hm : m = n
    · subst hm
      rw [List.getElem?_set_self (by assumption)] at hp hq
      cases hp; cases hq
      exact hb
    · rw [List.getElem?_set_ne (by omega)] at hp hq
      exact hw m h1 (by omega) p q hp hq

/-- copying -/
theorem copy_near {κ X M : ℝ} {x1 x2 y1 y2 y1' y2' : List ℝ} {blk : Nat} (hx : Near κ X x1 x2) (hXM : X ≤ M) {a count : Nat}
    (hy : Near κ M y1 y2)
    (e1 : forRange (fun n y => do
      let x ← idx x1 (blk + n)
      setIdx y (blk + n) x) a count y1 = .ok y1')
    (e2 : forRange (fun n y => do
      let x ← idx x2 (blk + n)
      setIdx y (blk + n) x) a count y2 = .ok y2') : Near κ M y1' y2' := by
  refine forRange_two (fun _ l r => Near κ M l r) count a y1 y2 y1' y2' hy ?_ e1 e2
  intro n l r l' r' _ _ hl k1 k2
  obtain ⟨v, hv, k1⟩ := bind_ok_inv k1
  obtain ⟨w, hw, k2⟩ := bind_ok_inv k2
  unfold setIdx at k1 k2
  split at k1
  · split at k2
    · simp only [Res.ok.injEq] at k1 k2
      subst k1 k2
      exact hl.set ((hx _ _ _ (idx_ok_iff.1 hv) (idx_ok_iff.1 hw)).trans hXM)
    · cases k2
  · cases k1

/-- the entries of the scratch copy are entries of the memory, at positions that do not depend on the contents -/
def scratchPos (ring lNum blk k : Nat) : Nat :=
  if blk < lNum then (if k < lNum then ring - lNum + k else k - lNum) else blk - lNum + k

theorem ltpfScratch_get {ring norm lNum blk : Nat} {y scr : List ℝ} (e : ltpfScratch ring norm lNum blk y = .ok scr) {k : Nat} {v : ℝ}
    (h : scr[k]? = some v) : y[scratchPos ring lNum blk k]? = some v := by
  unfold ltpfScratch at e
  unfold scratchPos
  split at e
  · rename_i hb
    rw [if_pos hb]
    obtain ⟨st, h1, e⟩ := bind_ok_inv e
    have hst := usub_ok_inv h1
    split at e
    · cases e
    rename_i hl
    rw [not_or] at hl
    simp only [Res.ok.injEq] at e
    subst e
    have hlen : ((y.drop st).take lNum).length = lNum := by simp; omega
    by_cases hk : k < lNum
    · rw [if_pos hk]
      rw [List.getElem?_append_left (by omega), List.getElem?_take_of_lt hk, List.getElem?_drop] at h
      rw [← hst]; exact h
    · rw [if_neg hk]
      rw [List.getElem?_append_right (by omega), hlen, List.getElem?_take] at h
      split at h
      · exact h
      · cases h
  · rename_i hb
    rw [if_neg hb]
    split at e
    · cases e
    simp only [Res.ok.injEq] at e
    subst e
    rw [List.getElem?_drop, List.getElem?_take] at h
    split at h
    · exact h
    · cases h

theorem ltpfSampleFromMem_inv {ring norm : Nat} {cn cd scr y y' : List ℝ} {blk pitch lNum n : Nat}
    (e : ltpfSampleFromMem ring norm cn cd scr blk pitch lNum n y = .ok y') :
    ∃ v a f, scr[n + lNum]? = some v ∧ blk + n < y.length ∧ firAdd scr 0 cn ((lNum + n : Nat) : Int) zero = .ok a ∧
      firSub (y.set (blk + n) v) ring cd (((blk + n : Nat) : Int) - pitch + ((cd.length : Int) - 1) / 2) a = .ok f ∧
      y' = y.set (blk + n) (v - fadeIn norm n f) := by
  unfold ltpfSampleFromMem at e
  obtain ⟨v, hv, e⟩ := bind_ok_inv e
  obtain ⟨y1, h1, e⟩ := bind_ok_inv e
  obtain ⟨a, ha, e⟩ := bind_ok_inv e
  obtain ⟨f, hf, e⟩ := bind_ok_inv e
  obtain ⟨w, hw, e⟩ := bind_ok_inv e
  unfold setIdx at h1 e
  split at h1
  · rename_i hlt
    simp only [Res.ok.injEq] at h1
    subst h1
    split at e
    · simp only [Res.ok.injEq] at e
      have hw' := idx_ok_iff.1 hw
      rw [List.getElem?_set_self hlt] at hw'
      cases hw'
      exact ⟨v, a, f, idx_ok_iff.1 hv, hlt, ha, hf, by rw [← e, List.set_set]⟩
    · cases e
  · cases h1

theorem fadeIn_real (N n : Nat) (f : ℝ) : fadeIn N n f = f * ((n : ℝ) / N) := by
  show f * ((((n : ℕ) : ℚ) : ℝ) / (((N : ℕ) : ℚ) : ℝ)) = _
  push_cast; rfl

theorem fadeOut_real (N n : Nat) (f : ℝ) : fadeOut N n f = f * (1 - (n : ℝ) / N) := by
  show f * (((1 : ℚ) : ℝ) - (((n : ℕ) : ℚ) : ℝ) / (((N : ℕ) : ℚ) : ℝ)) = _
  push_cast; rfl

theorem ramp_mem {N n : Nat} (h : n < N) : 0 ≤ (n : ℝ) / N ∧ (n : ℝ) / N ≤ 1 := by
  have hN : (0 : ℝ) < N := by exact_mod_cast (by omega : 0 < N)
  constructor
  · positivity
  · rw [div_le_one hN]; exact_mod_cast h.le

/-- the second pass of a lag change -/
theorem fromMem_near {κ X M : ℝ} (hX : 0 ≤ X) (hM : 5 * X ≤ M) {ring norm lNum blk pitch : Nat} {cn cd cn0 cd0 : List ℝ}
    (hcn : absSum cn ≤ 36 / 100) (hcd : absSum cd ≤ 402 / 1000) (hcn0 : absSum cn0 ≤ 36 / 100) (hcd0 : absSum cd0 ≤ 402 / 1000)
    (hlen : cn.length = lNum + 1) (hnorm : 3 * lNum ≤ norm) (hblk : blk = 0 ∨ lNum ≤ blk)
    {y1 y2 scr1 scr2 y1' y2' : List ℝ} (hy : Near κ M y1 y2)
    (hfirst : ∀ n, n < norm → ∀ v w, y1[blk + n]? = some v → y2[blk + n]? = some w →
      |v - κ * w| ≤ X + (1 - (n : ℝ) / norm) * (absSum cn0 * X + absSum cd0 * M))
    (hs1 : ltpfScratch ring norm lNum blk y1 = .ok scr1) (hs2 : ltpfScratch ring norm lNum blk y2 = .ok scr2)
    (e1 : forRange (ltpfSampleFromMem ring norm cn cd scr1 blk pitch lNum) 0 norm y1 = .ok y1')
    (e2 : forRange (ltpfSampleFromMem ring norm cn cd scr2 blk pitch lNum) 0 norm y2 = .ok y2') : Near κ M y1' y2' := by
  have hM0 : 0 ≤ M := by linarith
  have a0 := absSum_nonneg cn0
  have d0 := absSum_nonneg cd0
  have a1 := absSum_nonneg cn
  have d1 := absSum_nonneg cd
  have hT : absSum cn0 * X + absSum cd0 * M ≤ 36 / 100 * X + 402 / 1000 * M :=
    add_le_add (mul_le_mul_of_nonneg_right hcn0 hX) (mul_le_mul_of_nonneg_right hcd0 hM0)
  have hT0 : 0 ≤ absSum cn0 * X + absSum cd0 * M := by positivity
  -- the scratch copies
  have hscr : Near κ M scr1 scr2 := fun i v w h1 h2 => hy _ _ _ (ltpfScratch_get hs1 h1) (ltpfScratch_get hs2 h2)
  have hpos : ∀ i, scratchPos ring lNum blk (lNum + i) = blk + i := by
    intro i
    unfold scratchPos
    split
    · rw [if_neg (by omega)]; omega
    · omega
  have hlen1 : ∀ i v, scr1[lNum + i]? = some v → i < norm := by
    intro i v h
    have hl : lNum + i < scr1.length := (List.getElem?_eq_some_iff.1 h).1
    unfold ltpfScratch at hs1
    split at hs1
    · obtain ⟨st, -, hs1⟩ := bind_ok_inv hs1
      split at hs1
      · cases hs1
      simp only [Res.ok.injEq] at hs1
      subst hs1
      simp only [List.length_append, List.length_take, List.length_drop] at hl
      omega
    · split at hs1
      · cases hs1
      simp only [Res.ok.injEq] at hs1
      subst hs1
      simp only [List.length_drop, List.length_take] at hl
      omega
  have hin : ∀ i v w, scr1[lNum + i]? = some v → scr2[lNum + i]? = some w →
      |v - κ * w| ≤ X + (1 - (i : ℝ) / norm) * (absSum cn0 * X + absSum cd0 * M) := by
    intro i v w h1 h2
    have hi := hlen1 i v h1
    have g1 := ltpfScratch_get hs1 h1
    have g2 := ltpfScratch_get hs2 h2
    rw [hpos] at g1 g2
    exact hfirst i hi v w g1 g2
  refine forRange_two (fun _ l r => Near κ M l r) norm 0 y1 y2 y1' y2' hy ?_ e1 e2
  intro n l r l' r' _ hn hl k1 k2
  rw [Nat.zero_add] at hn
  obtain ⟨v, a, f, hv, hlt, ha, hf, rfl⟩ := ltpfSampleFromMem_inv k1
  obtain ⟨w, b, g, hw, hlt', hb, hg, rfl⟩ := ltpfSampleFromMem_inv k2
  obtain ⟨r0, r1⟩ := ramp_mem hn
  have hvw := hin n v w (by rw [Nat.add_comm]; exact hv) (by rw [Nat.add_comm]; exact hw)
  have hvM : |v - κ * w| ≤ M := hscr _ _ _ hv hw
  have z : |(zero : ℝ) - κ * zero| = 0 := by rw [show (zero : ℝ) = 0 from Rat.cast_zero]; simp
  refine hl.set ?_
  rw [fadeIn_real, fadeIn_real]
  have hsub := firSub_near cd _ _ _ _ _ (fun j _ => (hl.set hvM).read ring _) hf hg
  by_cases hc : lNum ≤ n
  · -- the window lies in this frame
    have hadd := firAdd_near (κ := κ) (B := X + (absSum cn0 * X + absSum cd0 * M)) cn _ _ _ _ _ (fun j hj => by
      intro p q hp hq
      unfold ringRead at hp hq
      have hpos' : ¬ (((lNum + n : Nat) : Int) - j < 0) := by omega
      rw [if_neg hpos'] at hp hq
      have e3 : (((lNum + n : Nat) : Int) - j).toNat = lNum + (n - j) := by omega
      rw [e3] at hp hq
      have h4 := hin (n - j) p q (idx_ok_iff.1 hp) (idx_ok_iff.1 hq)
      have h5 := hlen1 _ _ (idx_ok_iff.1 hp)
      obtain ⟨q0, q1⟩ := ramp_mem h5
      nlinarith) ha hb
    rw [z] at hadd
    have hF : |f - κ * g| ≤ 36 / 100 * (X + (36 / 100 * X + 402 / 1000 * M)) + 402 / 1000 * M := by
      have h6 : absSum cn * (X + (absSum cn0 * X + absSum cd0 * M)) ≤ 36 / 100 * (X + (36 / 100 * X + 402 / 1000 * M)) :=
        mul_le_mul hcn (by linarith) (by linarith) (by norm_num)
      have h7 : absSum cd * M ≤ 402 / 1000 * M := mul_le_mul_of_nonneg_right hcd hM0
      linarith
    have hS := sample_bound r0 hvw hF
    refine hS.trans ?_
    generalize (n : ℝ) / norm = φ at *
    have h8 : (1 - φ) * (absSum cn0 * X + absSum cd0 * M) ≤ (1 - φ) * (36 / 100 * X + 402 / 1000 * M) :=
      mul_le_mul_of_nonneg_left hT (by linarith)
    nlinarith
  · have hadd := firAdd_near cn _ _ _ _ _ (fun j _ => hscr.read 0 _) ha hb
    rw [z] at hadd
    have hF : |f - κ * g| ≤ 36 / 100 * M + 402 / 1000 * M := by
      have h6 : absSum cn * M ≤ 36 / 100 * M := mul_le_mul_of_nonneg_right hcn hM0
      have h7 : absSum cd * M ≤ 402 / 1000 * M := mul_le_mul_of_nonneg_right hcd hM0
      linarith
    have hS := sample_bound r0 hvw hF
    refine hS.trans ?_
    have r3 : (n : ℝ) / norm ≤ 1 / 3 := by
      have hN : (0 : ℝ) < norm := by exact_mod_cast (by omega : 0 < norm)
      rw [div_le_iff₀ hN]
      have : ((3 * n : Nat) : ℝ) ≤ (norm : Nat) := by exact_mod_cast (by omega : 3 * n ≤ norm)
      push_cast at this
      linarith
    generalize (n : ℝ) / norm = φ at *
    have h8 : (1 - φ) * (absSum cn0 * X + absSum cd0 * M) ≤ (1 - φ) * (36 / 100 * X + 402 / 1000 * M) :=
      mul_le_mul_of_nonneg_left hT (by linarith)
    nlinarith

end Lc3
