import Verif.Lemmas.ListM
import Verif.Model.MdctDec
import Mathlib.Tactic.Ring
/-! The transforms do not panic and have the right lengths. -/

namespace Lc3
open Scalar Tables
variable {α : Type} [Scalar α]

/-- a valid sequence of radices and remaining sizes for a transform of size `n` -/
inductive FacOk : List (Nat × Nat) → Nat → Prop
  | last {p : Nat} (hp : 2 ≤ p ∧ p ≤ 5) : FacOk [(p, 1)] p
  | step {p m : Nat} {fac : List (Nat × Nat)} (hp : 2 ≤ p ∧ p ≤ 5) (hm : m ≠ 1) (h : FacOk fac m) :
      FacOk ((p, m) :: fac) (p * m)

theorem FacOk.pos {fac : List (Nat × Nat)} {n : Nat} (h : FacOk fac n) : 0 < n := by
  induction h with
  | last hp => omega
  | step hp hm h ih => exact Nat.mul_pos (by omega) ih

theorem FacOk.cons {p m : Nat} {fac : List (Nat × Nat)} {n : Nat} (h : FacOk ((p, m) :: fac) n) :
    (2 ≤ p ∧ p ≤ 5) ∧ n = p * m ∧ ((m = 1 ∧ fac = []) ∨ (m ≠ 1 ∧ FacOk fac m)) := by
  cases h with
  | last hp => exact ⟨hp, by omega, .inl ⟨rfl, rfl⟩⟩
  | step hp hm h => exact ⟨hp, rfl, .inr ⟨hm, h⟩⟩

/-- decidable test for `FacOk` -/
def facOkB : List (Nat × Nat) → Nat → Bool
  | [], _ => false
  | (p, m) :: fac, n =>
    (decide (2 ≤ p ∧ p ≤ 5 ∧ n = p * m)) && ((m == 1 && fac.isEmpty) || (m != 1 && facOkB fac m))

theorem facOk_of_bool : ∀ {fac : List (Nat × Nat)} {n : Nat}, facOkB fac n = true → FacOk fac n
  | [], n, h => by simp [facOkB] at h
  | (p, m) :: fac, n, h => by
    simp only [facOkB, Bool.and_eq_true, decide_eq_true_eq, Bool.or_eq_true, beq_iff_eq, bne_iff_ne] at h
    obtain ⟨⟨h1, h2, h3⟩, h4⟩ := h
    subst h3
    rcases h4 with ⟨rfl, h4⟩ | ⟨hm, h4⟩
    · rw [List.isEmpty_iff] at h4
      subst h4
      have := FacOk.last (p := p) ⟨h1, h2⟩
      simpa using this
    · exact .step ⟨h1, h2⟩ hm (facOk_of_bool h4)

/-- the transform sizes used by the codec: half of each frame length -/
def fftSizes : List Nat := [30, 60, 90, 120, 180, 40, 80, 160, 240]

theorem kfFactor_sizes : ∀ n ∈ fftSizes, ∃ fac, kfFactor n = .ok fac ∧ FacOk fac n := by
  intro n hn
  simp only [fftSizes, List.mem_cons, List.not_mem_nil, or_false] at hn
  rcases hn with rfl | rfl | rfl | rfl | rfl | rfl | rfl | rfl | rfl
  · exact ⟨[(2, 15), (3, 5), (5, 1)], by decide +kernel, facOk_of_bool (by decide)⟩
  · exact ⟨[(4, 15), (3, 5), (5, 1)], by decide +kernel, facOk_of_bool (by decide)⟩
  · exact ⟨[(2, 45), (3, 15), (3, 5), (5, 1)], by decide +kernel, facOk_of_bool (by decide)⟩
  · exact ⟨[(4, 30), (2, 15), (3, 5), (5, 1)], by decide +kernel, facOk_of_bool (by decide)⟩
  · exact ⟨[(4, 45), (3, 15), (3, 5), (5, 1)], by decide +kernel, facOk_of_bool (by decide)⟩
  · exact ⟨[(4, 10), (2, 5), (5, 1)], by decide +kernel, facOk_of_bool (by decide)⟩
  · exact ⟨[(4, 20), (4, 5), (5, 1)], by decide +kernel, facOk_of_bool (by decide)⟩
  · exact ⟨[(4, 40), (4, 10), (2, 5), (5, 1)], by decide +kernel, facOk_of_bool (by decide)⟩
  · exact ⟨[(4, 60), (4, 15), (3, 5), (5, 1)], by decide +kernel, facOk_of_bool (by decide)⟩

theorem safe_bflyCol {inv : Bool} {p : Nat} {tw blk : List (Cx α)} {fs m rest i : Nat} (hp : 2 ≤ p ∧ p ≤ 5)
    (hi : i < m) (hb : blk.length = p * m) (ht : tw.length = fs * (p * m)) (hfs : 1 ≤ fs) :
    Safe (bflyCol inv p tw blk fs m rest i) (fun c => c.length = p) := by
  have e1 : i * fs < m * fs := Nat.mul_lt_mul_of_pos_right hi hfs
  have key : ∀ j, j ≤ p → i * (fs * j) ≤ m * fs * j := by
    intro j _
    calc i * (fs * j) = i * fs * j := by ring
      _ ≤ m * fs * j := Nat.mul_le_mul_right _ (by omega)
  have key2 : ∀ j, 1 ≤ j → i * fs * j < m * fs * j := fun j hj => Nat.mul_lt_mul_of_pos_right e1 hj
  have htl : tw.length = m * fs * p := by rw [ht]; ring
  have hmul : ∀ j, j ≤ p → m * fs * j ≤ tw.length := by
    intro j hj; rw [htl]; exact Nat.mul_le_mul_left _ hj
  obtain rfl | rfl | rfl | rfl : p = 2 ∨ p = 3 ∨ p = 4 ∨ p = 5 := by omega
  · simp only [bflyCol, bfly2]
    have := hmul 1 (by omega)
    refine (safe_idx (by omega)).bind fun _ _ => (safe_idx (by omega)).bind fun _ _ =>
      (safe_idx (by omega)).bind fun _ _ => ?_
    rfl
  · simp only [bflyCol, bfly3]
    have h1 := hmul 1 (by omega)
    have h2 := key2 2 (by omega)
    have h3 := hmul 2 (by omega)
    have e : i * (fs * 2) = i * fs * 2 := by ring
    have e' : fs * m = m * fs := by ring
    have hpos : 0 < m * fs := by omega
    refine (safe_idx (by omega)).bind fun _ _ => (safe_idx (by omega)).bind fun _ _ =>
      (safe_idx (by omega)).bind fun _ _ => (safe_idx (by omega)).bind fun _ _ =>
      (safe_idx (by omega)).bind fun _ _ => (safe_idx (by omega)).bind fun _ _ => ?_
    rfl
  · simp only [bflyCol, bfly4]
    have h1 := hmul 1 (by omega)
    have h2 := key2 2 (by omega)
    have h3 := hmul 2 (by omega)
    have h4 := key2 3 (by omega)
    have h5 := hmul 3 (by omega)
    have e : i * (fs * 2) = i * fs * 2 := by ring
    have e' : i * (fs * 3) = i * fs * 3 := by ring
    refine (safe_idx (by omega)).bind fun _ _ => (safe_idx (by omega)).bind fun _ _ =>
      (safe_idx (by omega)).bind fun _ _ => (safe_idx (by omega)).bind fun _ _ =>
      (safe_idx (by omega)).bind fun _ _ => (safe_idx (by omega)).bind fun _ _ =>
      (safe_idx (by omega)).bind fun _ _ => ?_
    refine Safe.ite (fun _ => ?_) (fun _ => ?_) <;> rfl
  · simp only [bflyCol, bfly5]
    have h1 := hmul 1 (by omega)
    have h2 := key2 2 (by omega)
    have h3 := hmul 2 (by omega)
    have h4 := key2 3 (by omega)
    have h5 := hmul 3 (by omega)
    have h6 := key2 4 (by omega)
    have h7 := hmul 4 (by omega)
    have e : i * 2 * fs = i * fs * 2 := by ring
    have e' : i * 3 * fs = i * fs * 3 := by ring
    have e'' : i * 4 * fs = i * fs * 4 := by ring
    have ea : fs * m = m * fs := by ring
    have eb : fs * 2 * m = m * fs * 2 := by ring
    have hpos : 0 < m * fs := by omega
    refine (safe_idx (by omega)).bind fun _ _ => (safe_idx (by omega)).bind fun _ _ =>
      (safe_idx (by omega)).bind fun _ _ => (safe_idx (by omega)).bind fun _ _ =>
      (safe_idx (by omega)).bind fun _ _ => (safe_idx (by omega)).bind fun _ _ =>
      (safe_idx (by omega)).bind fun _ _ => (safe_idx (by omega)).bind fun _ _ =>
      (safe_idx (by omega)).bind fun _ _ => (safe_idx (by omega)).bind fun _ _ =>
      (safe_idx (by omega)).bind fun _ _ => ?_
    rfl

theorem safe_bflyBlock {inv : Bool} {p : Nat} {tw blk : List (Cx α)} {fs m rest : Nat} (hp : 2 ≤ p ∧ p ≤ 5)
    (hb : blk.length = p * m) (ht : tw.length = fs * (p * m)) (hfs : 1 ≤ fs) :
    Safe (bflyBlock inv p tw blk fs m rest) (fun l => l.length = p * m) := by
  unfold bflyBlock
  refine (safe_mapM (P := fun c => c.length = p) ?_).bind ?_
  · intro i hi
    exact safe_bflyCol hp (List.mem_range.1 hi) hb ht hfs
  · rintro cols ⟨h1, h2⟩
    refine (safe_mapM (P := fun r => r.length = m) ?_).bind ?_
    · intro j hj
      refine (safe_mapM (P := fun _ => True) ?_).mono ?_
      · intro c hc
        exact (safe_idx (by rw [h2 c hc]; exact List.mem_range.1 hj)).mono fun _ _ => trivial
      · rintro r ⟨h3, -⟩
        rw [h3, h1, List.length_range]
    · rintro rows ⟨h3, h4⟩
      simp only [safe_ok]
      rw [flatten_length_const h4, h3, List.length_range]

theorem safe_kfWork {inv : Bool} {tw fin : List (Cx α)} : ∀ (fac : List (Nat × Nat)) (n fs fi rest : Nat), FacOk fac n →
    tw.length = fs * n → fin.length = fs * n → fi < fs →
    Safe (kfWork inv tw fin fac fs fi rest) (fun l => l.length = n)
  | [], n, _, _, _, h, _, _, _ => by cases h
  | (p, m) :: fac, n, fs, fi, rest, h, ht, hf, hfi => by
    obtain ⟨hp, rfl, hm⟩ := h.cons
    rw [kfWork]
    have hread : ∀ i, i < p → fi + i * fs < fs * p := by
      intro i hi
      calc fi + i * fs < fs + i * fs := by omega
        _ = (i + 1) * fs := by ring
        _ ≤ p * fs := Nat.mul_le_mul_right _ hi
        _ = fs * p := by ring
    have hblk : Safe (if m = 1 then (List.range p).mapM fun i => idx fin (fi + i * fs)
        else do
          let parts ← (List.range p).mapM fun i => kfWork inv tw fin fac (fs * p) (fi + i * fs) (rest + (p - 1 - i) * m)
          .ok parts.flatten) (fun l => l.length = p * m) := by
      rcases hm with ⟨rfl, -⟩ | ⟨hm, hfac⟩
      · rw [if_pos rfl]
        refine (safe_mapM (P := fun _ => True) ?_).mono ?_
        · intro i hi
          refine (safe_idx ?_).mono fun _ _ => trivial
          rw [hf, Nat.mul_one]
          exact hread i (List.mem_range.1 hi)
        · rintro l ⟨h1, -⟩; simpa using h1
      · rw [if_neg hm]
        refine (safe_mapM (P := fun l => l.length = m) ?_).bind ?_
        · intro i hi
          exact safe_kfWork fac m (fs * p) _ _ hfac (by rw [ht]; ring) (by rw [hf]; ring) (hread i (List.mem_range.1 hi))
        · rintro parts ⟨h1, h2⟩
          simp only [safe_ok]
          rw [flatten_length_const h2, h1, List.length_range]
    refine hblk.bind ?_
    intro blk hb
    exact safe_bflyBlock hp hb ht (by omega)

theorem safe_fft {inv : Bool} {fin : List (Cx α)} {n : Nat} (hn : n ∈ fftSizes) (h : fin.length = n) :
    Safe (fft inv fin) (fun l => l.length = n) := by
  unfold fft
  subst h
  obtain ⟨fac, e, hfac⟩ := kfFactor_sizes _ hn
  rw [e]
  simp only [Res.bind_ok]
  exact safe_kfWork fac _ 1 0 0 hfac (by simp [fftTwiddle]) (by simp) (by omega)

theorem dctTwiddle_length (n : Nat) : (dctTwiddle n : List (Cx α)).length = n := by simp [dctTwiddle]

theorem safe_dctIv {nf : Nat} {buf : List α} (hn : nf / 2 ∈ fftSizes) (he : nf % 2 = 0) (hb : buf.length = nf) :
    Safe (dctIv nf buf) (fun l => l.length = nf) := by
  unfold dctIv
  refine Safe.ite (fun h => absurd hb h) (fun _ => ?_)
  refine (safe_mapM (P := fun _ => True) ?_).bind ?_
  · intro n hn'
    have := List.mem_range.1 hn'
    unfold dctIn
    refine (safe_idx (by rw [dctTwiddle_length]; exact this)).bind fun _ _ => ?_
    refine (safe_idx (by omega)).bind fun _ _ => ?_
    refine (safe_usub (by omega)).bind fun j hj => ?_
    refine (safe_usub (by omega)).bind fun j' hj' => ?_
    refine (safe_idx (by omega)).bind fun _ _ => ?_
    trivial
  · rintro inp ⟨h1, -⟩
    rw [List.length_range] at h1
    refine (safe_fft hn h1).bind ?_
    intro out hout
    refine (safe_mapM (P := fun _ => True) ?_).mono ?_
    · intro k hk
      have := List.mem_range.1 hk
      unfold dctOut
      refine Safe.ite (fun _ => ?_) (fun _ => ?_)
      · refine (safe_idx (by rw [dctTwiddle_length]; omega)).bind fun _ _ => ?_
        refine (safe_idx (by omega)).bind fun _ _ => ?_
        trivial
      · refine (safe_idx (by rw [dctTwiddle_length]; omega)).bind fun _ _ => ?_
        refine (safe_idx (by omega)).bind fun _ _ => ?_
        trivial
    · rintro l ⟨h, -⟩; simpa using h

theorem safe_mdctUnfold {nf : Nat} {buf : List α} (hn : nf / 2 ∈ fftSizes) (he : nf % 2 = 0)
    (hb : buf.length = nf) : Safe (mdctUnfold nf buf) (fun l => l.length = 2 * nf) := by
  unfold mdctUnfold
  refine (safe_dctIv hn he hb).bind ?_
  intro y hy
  simp [hy]
  omega

theorem windowOf_ok (f : SamplingFrequency) (d : FrameDuration) :
    ∃ w, windowOf (Lc3Config.new f d).nMs (Lc3Config.new f d).nf = .ok w ∧ w.length = 2 * (Lc3Config.new f d).nf := by
  cases f <;> cases d <;>
  refine ⟨_, rfl, ?_⟩ <;>
  simp only [W_N80_10MS, W_N160_10MS, W_N240_10MS, W_N320_10MS, W_N480_10MS, W_N60_7P5MS, W_N120_7P5MS, W_N180_7P5MS,
    W_N240_7P5MS, W_N360_7P5MS, List.length_map] <;> decide +kernel

theorem fftSizes_config (f : SamplingFrequency) (d : FrameDuration) :
    (Lc3Config.new f d).nf / 2 ∈ fftSizes ∧ (Lc3Config.new f d).nf % 2 = 0 := by
  cases f <;> cases d <;> decide

theorem safe_mdctDecRun {f : SamplingFrequency} {d : FrameDuration} {memOla lines : List α}
    (hl : lines.length = (Lc3Config.new f d).ne)
    (hm : memOla.length = (Lc3Config.new f d).nf - (Lc3Config.new f d).z) :
    Safe (mdctDecRun (Lc3Config.new f d) memOla lines) (fun p =>
      p.1.length = (Lc3Config.new f d).nf - (Lc3Config.new f d).z ∧ p.2.length = (Lc3Config.new f d).nf) := by
  have hne : (Lc3Config.new f d).ne ≤ (Lc3Config.new f d).nf := by cases f <;> cases d <;> decide
  have hz : (Lc3Config.new f d).z ≤ (Lc3Config.new f d).nf := by cases f <;> cases d <;> decide
  obtain ⟨w, hw, hwl⟩ := windowOf_ok f d
  have hs := fftSizes_config f d
  generalize Lc3Config.new f d = cfg at *
  unfold mdctDecRun
  refine Safe.ite (fun h => absurd hl h) (fun _ => ?_)
  rw [hw]
  simp only [Res.bind_ok]
  refine (safe_usub hne).bind ?_
  intro pad hpad
  refine (safe_mdctUnfold hs.1 hs.2 (by simp [hl, hpad]; omega)).bind ?_
  intro t ht
  refine (safe_usub hz).bind ?_
  intro n hn
  refine Safe.ite (fun h => absurd h (by omega)) (fun _ => ?_)
  simp only [safe_ok, List.length_append, List.length_zipWith, List.length_take, List.length_drop,
    List.length_reverse, hwl, ht, hm, hn]
  omega

end Lc3
