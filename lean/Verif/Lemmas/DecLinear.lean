import Verif.Model.Decoder
import Verif.Model.ScalarReal
import Verif.Lemmas.EncTns
import Verif.Lemmas.SafeDecoder
/-! # In exact arithmetic the decoder's noise shaping stages are linear -/

namespace Lc3
open Scalar

/-- difference of two spectra -/
noncomputable def subL (l m : List ℝ) : List ℝ := List.zipWith (· - ·) l m

theorem subL_length {l m : List ℝ} (h : l.length = m.length) : (subL l m).length = l.length := by simp [subL, h]

theorem subL_getElem? {l m : List ℝ} {i : Nat} {a b : ℝ} (h1 : l[i]? = some a) (h2 : m[i]? = some b) : (subL l m)[i]? = some (a - b) := by
  simp [subL, List.getElem?_zipWith, h1, h2]

theorem idx_subL {l m : List ℝ} {i : Nat} {a b : ℝ} (h1 : idx l i = .ok a) (h2 : idx m i = .ok b) : idx (subL l m) i = .ok (a - b) := by
  rw [idx_ok_iff] at *
  exact subL_getElem? h1 h2

theorem subL_set {l m : List ℝ} (i : Nat) (a b : ℝ) (h : l.length = m.length) : subL (l.set i a) (m.set i b) = (subL l m).set i (a - b) := by
  apply List.ext_getElem?
  intro j
  simp only [subL, List.getElem?_zipWith, List.getElem?_set, List.length_zipWith]
  by_cases hj : i = j
  · subst hj
    by_cases hl : i < l.length
    · simp [hl, h ▸ hl]
    · simp [hl, h ▸ hl]
  · simp [hj]

theorem setIdx_inv {β : Type} {l r : List β} {i : Nat} {v : β} (h : setIdx l i v = .ok r) : i < l.length ∧ r = l.set i v := by
  unfold setIdx at h
  split at h
  · exact ⟨by assumption, (Res.ok.inj h).symm⟩
  · cases h

theorem latticeLoop_lin (rc : List ℝ) (off : Nat) : ∀ (k : Nat) (t u : ℝ) (st sv : List ℝ) (r : ℝ × List ℝ),
    latticeLoop rc off k t st = .ok r → sv.length = st.length →
    ∃ w, latticeLoop rc off k u sv = .ok w ∧ r.2.length = st.length ∧ w.2.length = st.length ∧
      latticeLoop rc off k (u - t) (subL sv st) = .ok (w.1 - r.1, subL w.2 r.2)
  | 0, t, u, st, sv, r, h, hl => by
    simp only [latticeLoop, Res.ok.injEq] at h
    subst h
    exact ⟨(u, sv), rfl, rfl, hl, rfl⟩
  | k + 1, t, u, st, sv, r, h, hl => by
    unfold latticeLoop at h
    obtain ⟨c, h1, h⟩ := bind_ok_inv h
    obtain ⟨a, h2, h⟩ := bind_ok_inv h
    obtain ⟨st', h3, h⟩ := bind_ok_inv h
    obtain ⟨h4, rfl⟩ := setIdx_inv h3
    have hk : k < sv.length := by omega
    obtain ⟨w, w1, w2, w3, w4⟩ := latticeLoop_lin rc off k _ (u - c * sv[k]) _ (sv.set (k + 1) (c * (u - c * sv[k]) + sv[k])) r h
      (by simpa using hl)
    simp only [List.length_set] at w2 w3
    refine ⟨w, ?_, w2, w3, ?_⟩
    · unfold latticeLoop
      rw [h1, Res.bind_ok, idx_eq_ok hk, Res.bind_ok]
      simp only
      rw [setIdx_okT (by omega), Res.bind_ok, w1]
    · unfold latticeLoop
      rw [h1, Res.bind_ok, idx_subL (idx_eq_ok hk) h2, Res.bind_ok]
      simp only
      rw [setIdx_okT (by rw [subL_length hl]; omega), Res.bind_ok]
      rw [← w4, subL_set _ _ _ hl]
      congr 1
      · ring
      · congr 1; ring

theorem latticeLine_lin (rc : List ℝ) (off order : Nat) (t u : ℝ) (st sv : List ℝ) (r : ℝ × List ℝ)
    (h : latticeLine rc off order t st = .ok r) (hl : sv.length = st.length) :
    ∃ w, latticeLine rc off order u sv = .ok w ∧ r.2.length = st.length ∧ w.2.length = st.length ∧
      latticeLine rc off order (u - t) (subL sv st) = .ok (w.1 - r.1, subL w.2 r.2) := by
  unfold latticeLine at h
  obtain ⟨c, h1, h⟩ := bind_ok_inv h
  obtain ⟨a, h2, h⟩ := bind_ok_inv h
  obtain ⟨⟨t', st'⟩, h3, h⟩ := bind_ok_inv h
  obtain ⟨st'', h4, h⟩ := bind_ok_inv h
  obtain ⟨h5, rfl⟩ := setIdx_inv h4
  simp only [Res.ok.injEq] at h
  subst h
  have hk : order - 1 < sv.length := by
    rw [idx_ok_iff] at h2
    have := (List.getElem?_eq_some_iff.1 h2).1
    omega
  obtain ⟨⟨u', sv'⟩, w1, w2, w3, w4⟩ := latticeLoop_lin rc off (order - 1) _ (u - c * sv[order - 1]) _ sv _ h3 hl
  simp only at w2 w3 w4 h5
  refine ⟨(u', sv'.set 0 u'), ?_, by simpa using w2, by simpa using w3, ?_⟩
  · unfold latticeLine
    rw [h1, Res.bind_ok, idx_eq_ok hk, Res.bind_ok, w1, Res.bind_ok]
    simp only
    rw [setIdx_okT (by omega), Res.bind_ok]
  · unfold latticeLine
    rw [h1, Res.bind_ok, idx_subL (idx_eq_ok hk) h2, Res.bind_ok,
      show u - t - c * (sv[order - 1] - a) = u - c * sv[order - 1] - (t - c * a) by ring, w4, Res.bind_ok]
    simp only
    rw [setIdx_okT (by rw [subL_length (by omega)]; omega), Res.bind_ok, subL_set _ _ _ (by omega)]

theorem latticeBand_lin (rc : List ℝ) (off order : Nat) : ∀ (xs ys st sv : List ℝ) (r : List ℝ × List ℝ),
    latticeBand rc off order xs st = .ok r → ys.length = xs.length → sv.length = st.length →
    ∃ w, latticeBand rc off order ys sv = .ok w ∧ r.1.length = xs.length ∧ w.1.length = xs.length ∧ r.2.length = st.length ∧
      w.2.length = st.length ∧ latticeBand rc off order (subL ys xs) (subL sv st) = .ok (subL w.1 r.1, subL w.2 r.2)
  | [], ys, st, sv, r, h, hl, hs => by
    obtain rfl := List.eq_nil_of_length_eq_zero hl
    simp only [latticeBand, Res.ok.injEq] at h
    subst h
    exact ⟨([], sv), rfl, rfl, rfl, rfl, hs, rfl⟩
  | x :: xs, [], st, sv, r, h, hl, hs => by simp at hl
  | x :: xs, y :: ys, st, sv, r, h, hl, hs => by
    unfold latticeBand at h
    obtain ⟨⟨t, st1⟩, h1, h⟩ := bind_ok_inv h
    obtain ⟨⟨l, st2⟩, h2, h⟩ := bind_ok_inv h
    simp only [Res.ok.injEq] at h
    subst h
    obtain ⟨⟨u, sv1⟩, w1, w2, w3, w4⟩ := latticeLine_lin rc off order x y st sv _ h1 hs
    simp only at w2 w3 w4
    obtain ⟨⟨m, sv2⟩, z1, z2, z3, z4, z5, z6⟩ := latticeBand_lin rc off order xs ys st1 sv1 _ h2 (by simpa using hl) (by omega)
    simp only at z2 z3 z4 z5 z6
    refine ⟨(u :: m, sv2), ?_, by simp [z2], by simp [z3], by simp only; omega, by simp only; omega, ?_⟩
    · unfold latticeBand
      rw [w1, Res.bind_ok]
      simp only
      rw [z1, Res.bind_ok]
    · show latticeBand rc off order ((y - x) :: subL ys xs) _ = _
      unfold latticeBand
      rw [w4, Res.bind_ok]
      simp only
      rw [z6, Res.bind_ok]
      rfl

theorem subL_take (l m : List ℝ) (n : Nat) : (subL l m).take n = subL (l.take n) (m.take n) := by simp [subL, List.take_zipWith]
theorem subL_drop (l m : List ℝ) (n : Nat) : (subL l m).drop n = subL (l.drop n) (m.drop n) := by simp [subL, List.drop_zipWith]
theorem subL_append {a b c d : List ℝ} (h : a.length = c.length) : subL (a ++ b) (c ++ d) = subL a c ++ subL b d := by
  simp [subL, List.zipWith_append h]

theorem tnsLoop_lin (rc : List ℝ) : ∀ (f : Nat) (bands : List (Nat × Nat)) (orders : List Nat) (xs ys st sv r : List ℝ),
    tnsLoop rc f bands orders xs st = .ok r → ys.length = xs.length → sv.length = st.length →
    ∃ w, tnsLoop rc f bands orders ys sv = .ok w ∧ w.length = r.length ∧
      tnsLoop rc f bands orders (subL ys xs) (subL sv st) = .ok (subL w r)
  | f, [], orders, xs, ys, st, sv, r, h, hl, hs => by
    simp only [tnsLoop, Res.ok.injEq] at h ⊢
    subst h
    exact ⟨ys, rfl, hl, rfl⟩
  | f, (a, b) :: bands, [], xs, ys, st, sv, r, h, hl, hs => by
    simp only [tnsLoop, Res.ok.injEq] at h ⊢
    subst h
    exact ⟨ys, rfl, hl, rfl⟩
  | f, (a, b) :: bands, o :: orders, xs, ys, st, sv, r, h, hl, hs => by
    rw [tnsLoop] at h ⊢
    rw [tnsLoop]
    split at h
    · rename_i ho
      obtain ⟨⟨l, st1⟩, h1, h⟩ := bind_ok_inv h
      simp only at h
      simp only [if_pos ho]
      obtain ⟨⟨m, sv1⟩, w1, w2, w3, w4, w5, w6⟩ := latticeBand_lin rc (f * 8) o _ ((ys.take b).drop a) st sv _ h1
        (by simp [hl]) hs
      simp only at w2 w3 w4 w5 w6
      obtain ⟨z, z1, z2, z3⟩ := tnsLoop_lin rc (f + 1) bands orders _ (ys.take a ++ m ++ ys.drop b) st1 sv1 r h
        (by simp [hl, w2, w3]) (by omega)
      rw [w1, Res.bind_ok]
      refine ⟨z, z1, z2, ?_⟩
      rw [subL_take, subL_drop, w6, Res.bind_ok]
      simp only
      rw [← z3, subL_append (by simp [hl, w2, w3]), subL_append (by simp [hl]), subL_take, subL_drop]
    · rename_i ho
      simp only [if_neg ho]
      exact tnsLoop_lin rc (f + 1) bands orders xs ys st sv r h hl hs

theorem tnsDecode_lin {d : FrameDuration} {bw n : Nat} {orders ints : List Nat} {xs ys r : List ℝ}
    (h : tnsDecode d bw n orders ints xs = .ok r) (hl : ys.length = xs.length) :
    ∃ w, tnsDecode d bw n orders ints ys = .ok w ∧ w.length = r.length ∧
      tnsDecode d bw n orders ints (subL ys xs) = .ok (subL w r) := by
  unfold tnsDecode at h ⊢
  simp only at h ⊢
  split at h
  · cases h
  · split at h
    · cases h
    · rename_i h1 h2
      rw [subL_length hl, hl, if_neg h1, if_neg h2]
      obtain ⟨w, w1, w2, w3⟩ := tnsLoop_lin _ _ _ _ _ ys _ (List.replicate 8 zero) _ h hl rfl
      refine ⟨w, w1, w2, ?_⟩
      rw [if_neg h1, if_neg h2, ← w3]
      congr 1
      apply List.ext_getElem?
      intro i
      rw [subL, List.getElem?_zipWith, List.getElem?_replicate]
      split <;> simp
      show ((0 : ℚ) : ℝ) = 0
      norm_num

theorem scaleRange_lin {xs ys r : List ℝ} {a b : Nat} {g : ℝ} (h : scaleRange xs a b g = .ok r) (hl : ys.length = xs.length) :
    ∃ w, scaleRange ys a b g = .ok w ∧ w.length = ys.length ∧ r.length = ys.length ∧ scaleRange (subL ys xs) a b g = .ok (subL w r) := by
  unfold scaleRange at h ⊢
  split at h
  · rename_i hc
    obtain rfl := Res.ok.inj h
    rw [subL_length hl, hl, if_pos hc]
    refine ⟨_, rfl, by simp; omega, by simp; omega, ?_⟩
    rw [if_pos hc, subL_append (by simp [hl]), subL_append (by simp [hl]), subL_take, subL_drop, subL_take, subL_drop]
    congr 3
    apply List.ext_getElem?
    intro i
    simp only [subL, List.getElem?_map, List.getElem?_zipWith]
    cases (List.drop a (List.take b ys))[i]? <;> cases (List.drop a (List.take b xs))[i]? <;> simp
    ring
  · cases h

theorem shapeLoop_lin {tab : List Nat} : ∀ (gs : List ℝ) (b : Nat) (xs ys r : List ℝ), shapeLoop tab b gs xs = .ok r →
    ys.length = xs.length → ∃ w, shapeLoop tab b gs ys = .ok w ∧ w.length = r.length ∧ shapeLoop tab b gs (subL ys xs) = .ok (subL w r)
  | [], b, xs, ys, r, h, hl => by
    simp only [shapeLoop, Res.ok.injEq] at h ⊢
    subst h
    exact ⟨ys, rfl, hl, rfl⟩
  | g :: gs, b, xs, ys, r, h, hl => by
    unfold shapeLoop at h
    obtain ⟨i0, h1, h⟩ := bind_ok_inv h
    obtain ⟨i1, h2, h⟩ := bind_ok_inv h
    obtain ⟨l, h3, h⟩ := bind_ok_inv h
    obtain ⟨w, w1, w2, w3, w4⟩ := scaleRange_lin h3 hl
    obtain ⟨z, z1, z2, z3⟩ := shapeLoop_lin gs (b + 1) l w r h (by omega)
    refine ⟨z, ?_, z2, ?_⟩
    · unfold shapeLoop
      rw [h1, Res.bind_ok, h2, Res.bind_ok, w1, Res.bind_ok, z1]
    · unfold shapeLoop
      rw [h1, Res.bind_ok, h2, Res.bind_ok, w4, Res.bind_ok, z3]

theorem snsDecode_lin {cfg : Lc3Config} {sns : SnsVq} {xs ys r : List ℝ} (h : snsDecode cfg sns xs = .ok r) (hl : ys.length = xs.length) :
    ∃ w, snsDecode cfg sns ys = .ok w ∧ w.length = r.length ∧ snsDecode cfg sns (subL ys xs) = .ok (subL w r) := by
  unfold snsDecode at h ⊢
  obtain ⟨g, h1, h⟩ := bind_ok_inv h
  obtain ⟨tab, h2, h⟩ := bind_ok_inv h
  obtain ⟨w, w1, w2, w3⟩ := shapeLoop_lin g 0 xs ys r h hl
  rw [h1, Res.bind_ok, h2, Res.bind_ok]
  refine ⟨w, w1, w2, ?_⟩
  rw [Res.bind_ok, Res.bind_ok, w3]

end Lc3
