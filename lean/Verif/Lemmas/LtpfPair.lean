import Verif.Lemmas.FinLtpfRun
/-! The post filter in binary32 and in exact arithmetic, in lock step. `X` is the size of the input; `X / 2 ^ 24` is the unit of the rounding
errors. -/

namespace Lc3.F32
open Scalar Tables Spec

variable {el : Elem}

/-- a binary32 number within `E` of a real number of size at most `S` -/
def Cl (E S : ℝ) (v : F32) (w : ℝ) : Prop := IsFin v ∧ |val v - w| ≤ E ∧ |w| ≤ S

theorem Cl.mono {E S E' S' : ℝ} {v : F32} {w : ℝ} (h : Cl E S v w) (hE : E ≤ E') (hS : S ≤ S') : Cl E' S' v w :=
  ⟨h.1, h.2.1.trans hE, h.2.2.trans hS⟩

/-- a coefficient and its exact value -/
def CoefNear (c : F32) (c' : ℝ) : Prop := IsFin c ∧ |val c - c'| ≤ 6 / 2 ^ 24 * |c'| + 1 / 2 ^ 100

/-- one step of a sum of products -/
theorem mac_pair {X : ℝ} (h1 : 1 ≤ X) (h2 : X ≤ 2 ^ 104) {a c v : F32} {a' c' v' e E S A : ℝ} (ha : Cl e A a a') (hc : CoefNear c c')
    (hv : Cl E S v v') (hSE : S + E ≤ 6 * X) (hc1 : |c'| ≤ 1) (hsz : A + |c'| * S + (e + |c'| * E) + X / 8 ≤ 17 / 4 * X) :
    Cl (e + |c'| * E + |c'| * (43 * (X / 2 ^ 24)) + 9 / 2 * (X / 2 ^ 24)) (A + |c'| * S) (F32.add a (F32.mul c v)) (a' + c' * v') ∧
      Cl (e + |c'| * E + |c'| * (43 * (X / 2 ^ 24)) + 9 / 2 * (X / 2 ^ 24)) (A + |c'| * S) (F32.sub a (F32.mul c v)) (a' - c' * v') := by
  obtain ⟨fa, ea, sa⟩ := ha
  obtain ⟨fc, ec⟩ := hc
  obtain ⟨fv, ev, sv⟩ := hv
  have hE0 : 0 ≤ E := (abs_nonneg _).trans ev
  have hS0 : 0 ≤ S := (abs_nonneg _).trans sv
  have he0 : 0 ≤ e := (abs_nonneg _).trans ea
  obtain ⟨C, hC⟩ : ∃ C, C = |c'| := ⟨_, rfl⟩
  have hC0 : 0 ≤ C := by rw [hC]; exact abs_nonneg _
  rw [← hC] at ec hc1 hsz ⊢
  have hvv : |val v| ≤ 6 * X := by
    have := abs_sub_abs_le_abs_sub (val v) v'
    linarith
  -- the product
  have p1 : |val c * val v - c' * v'| ≤ C * E + (6 / 2 ^ 24 * C + 1 / 2 ^ 100) * (6 * X) := by
    have e0 : val c * val v - c' * v' = c' * (val v - v') + (val c - c') * val v := by ring
    rw [e0]
    refine (abs_add_le _ _).trans ?_
    rw [abs_mul, abs_mul, ← hC]
    exact add_le_add (mul_le_mul_of_nonneg_left ev hC0) (mul_le_mul ec hvv (abs_nonneg _) (by positivity))
  have p2 : |c' * v'| ≤ C * S := by rw [abs_mul, ← hC]; exact mul_le_mul_of_nonneg_left sv hC0
  have hCSE : C * S + C * E ≤ C * (6 * X) := by rw [← mul_add]; exact mul_le_mul_of_nonneg_left hSE hC0
  have hCX : C * X ≤ X := by nlinarith
  have p3 : |val c * val v| ≤ C * (6 * X) + (6 / 2 ^ 24 * C + 1 / 2 ^ 100) * (6 * X) := by
    have := abs_sub_abs_le_abs_sub (val c * val v) (c' * v')
    linarith
  have p3' : |val c * val v| ≤ C * (63 / 10 * X) + X / 2 ^ 97 := by
    have : C * (6 * X) + (6 / 2 ^ 24 * C + 1 / 2 ^ 100) * (6 * X) ≤ C * (63 / 10 * X) + X / 2 ^ 97 := by
      have hCX0 : 0 ≤ C * X := by positivity
      have e0 : C * (6 * X) + (6 / 2 ^ 24 * C + 1 / 2 ^ 100) * (6 * X) = (6 + 36 / 2 ^ 24) * (C * X) + 6 / 2 ^ 100 * X := by ring
      rw [e0]
      norm_num
      nlinarith
    linarith
  obtain ⟨fp, ep⟩ := mul_val fc fv (p3'.trans (by
    have : C * (63 / 10 * X) + X / 2 ^ 97 ≤ 7 * X := by norm_num; nlinarith
    refine this.trans ?_
    calc 7 * X ≤ 7 * 2 ^ 104 := by gcongr
      _ ≤ 2 ^ 127 := by norm_num))
  have p4 : |val (F32.mul c v) - c' * v'| ≤ C * E + C * (43 * (X / 2 ^ 24)) + X / 2 ^ 90 := by
    have t := abs_sub_le (val (F32.mul c v)) (val c * val v) (c' * v')
    have hCX0 : 0 ≤ C * X := by positivity
    have e0 : (C * (63 / 10 * X) + X / 2 ^ 97) / 2 ^ 24 + 1 / 2 ^ 150 + (C * E + (6 / 2 ^ 24 * C + 1 / 2 ^ 100) * (6 * X)) ≤
        C * E + C * (43 * (X / 2 ^ 24)) + X / 2 ^ 90 := by
      norm_num
      nlinarith
    have e1 : |val c * val v| / 2 ^ 24 ≤ (C * (63 / 10 * X) + X / 2 ^ 97) / 2 ^ 24 := by gcongr
    linarith
  have hC43 : C * (43 * (X / 2 ^ 24)) ≤ 43 * (X / 2 ^ 24) := by
    have : 0 ≤ 43 * (X / 2 ^ 24) := by positivity
    nlinarith
  generalize F32.mul c v = p at *
  have k : X / 2 ^ 90 + 43 * (X / 2 ^ 24) ≤ X / 8 := by norm_num; linarith
  have sz : |a' + c' * v'| ≤ A + C * S ∧ |a' - c' * v'| ≤ A + C * S :=
    ⟨(abs_add_le _ _).trans (add_le_add sa p2), (abs_sub _ _).trans (add_le_add sa p2)⟩
  have d1 : |(val a + val p) - (a' + c' * v')| ≤ e + C * E + C * (43 * (X / 2 ^ 24)) + X / 2 ^ 90 := by
    have e0 : (val a + val p) - (a' + c' * v') = (val a - a') + (val p - c' * v') := by ring
    rw [e0]
    have := abs_add_le (val a - a') (val p - c' * v')
    linarith
  have d2 : |(val a - val p) - (a' - c' * v')| ≤ e + C * E + C * (43 * (X / 2 ^ 24)) + X / 2 ^ 90 := by
    have e0 : (val a - val p) - (a' - c' * v') = (val a - a') - (val p - c' * v') := by ring
    rw [e0]
    have := abs_sub (val a - a') (val p - c' * v')
    linarith
  have b1 : |val a + val p| ≤ 17 / 4 * X := by
    have := abs_sub_abs_le_abs_sub (val a + val p) (a' + c' * v')
    linarith [sz.1]
  have b2 : |val a - val p| ≤ 17 / 4 * X := by
    have := abs_sub_abs_le_abs_sub (val a - val p) (a' - c' * v')
    linarith [sz.2]
  have big : 17 / 4 * X ≤ 2 ^ 127 := by
    calc 17 / 4 * X ≤ 17 / 4 * 2 ^ 104 := by gcongr
      _ ≤ 2 ^ 127 := by norm_num
  obtain ⟨f1, e1⟩ := add_val fa fp (b1.trans big)
  obtain ⟨f2, e2⟩ := sub_val fa fp (b2.trans big)
  have j1 : |val a + val p| / 2 ^ 24 ≤ 17 / 4 * X / 2 ^ 24 := by gcongr
  have j2 : |val a - val p| / 2 ^ 24 ≤ 17 / 4 * X / 2 ^ 24 := by gcongr
  have i : 17 / 4 * X / 2 ^ 24 + 1 / 2 ^ 150 + X / 2 ^ 90 ≤ 9 / 2 * (X / 2 ^ 24) := by norm_num; linarith
  have t1 := abs_sub_le (val (F32.add a p)) (val a + val p) (a' + c' * v')
  have t2 := abs_sub_le (val (F32.sub a p)) (val a - val p) (a' - c' * v')
  exact ⟨⟨f1, by linarith, sz.1⟩, ⟨f2, by linarith, sz.2⟩⟩

/-- the values read at one index are close -/
def ReadCl (E S : ℝ) (l : List F32) (m : List ℝ) (ring : ℕ) (i : ℤ) : Prop :=
  ∀ v w, ringRead l ring i = .ok v → ringRead m ring i = .ok w → Cl E S v w

theorem absSum_cons (c : ℝ) (l : List ℝ) : absSum (c :: l) = |c| + absSum l := by simp [absSum]

theorem firAdd_pair {X E S : ℝ} (h1 : 1 ≤ X) (h2 : X ≤ 2 ^ 104) (hE : 0 ≤ E) (hS : 0 ≤ S) (hSE : S + E ≤ 6 * X) {l : List F32} {m : List ℝ} {ring : ℕ} :
    ∀ (cs : List F32) (ds : List ℝ) (i : ℤ) (a r : F32) (b s e A : ℝ), List.Forall₂ CoefNear cs ds → absSum ds ≤ 1 →
    (∀ j : ℕ, j < cs.length → ReadCl E S l m ring (i - j)) → Cl e A a b →
    A + absSum ds * S + (e + absSum ds * E + absSum ds * (43 * (X / 2 ^ 24)) + cs.length * (9 / 2 * (X / 2 ^ 24))) + X / 8 ≤ 17 / 4 * X →
    @firAdd F32 (scalar el) l ring cs i a = .ok r → firAdd m ring ds i b = .ok s →
    Cl (e + absSum ds * E + absSum ds * (43 * (X / 2 ^ 24)) + cs.length * (9 / 2 * (X / 2 ^ 24))) (A + absSum ds * S) r s
  | [], [], i, a, r, b, s, e, A, _, _, _, ha, _, e1, e2 => by
    letI := scalar el
    simp only [firAdd, Res.ok.injEq] at e1 e2
    subst e1 e2
    simpa [absSum] using ha
  | [], _ :: _, _, _, _, _, _, _, _, h, _, _, _, _, _, _ => by cases h
  | _ :: _, [], _, _, _, _, _, _, _, h, _, _, _, _, _, _ => by cases h
  | c :: cs, d :: ds, i, a, r, b, s, e, A, h, hs, hr, ha, hA, e1, e2 => by
    letI := scalar el
    rw [firAdd] at e1 e2
    obtain ⟨v, hv, e1⟩ := bind_ok_inv e1
    obtain ⟨w, hw, e2⟩ := bind_ok_inv e2
    cases h with
    | cons hcd htl =>
    have h0 := hr 0 (by simp) v w (by simpa using hv) (by simpa using hw)
    rw [absSum_cons] at hs hA ⊢
    rw [List.length_cons] at hA ⊢
    push_cast at hA ⊢
    have n0 := absSum_nonneg ds
    have d0 := abs_nonneg d
    have q1 : 0 ≤ absSum ds * S := by positivity
    have q2 : 0 ≤ absSum ds * E := by positivity
    have q3 : 0 ≤ (|d| + absSum ds) * (43 * (X / 2 ^ 24)) := by positivity
    have q4 : (0 : ℝ) ≤ (cs.length + 1) * (9 / 2 * (X / 2 ^ 24)) := by positivity
    have m1 := (mac_pair h1 h2 ha hcd h0 hSE (by linarith) (by linarith)).1
    have ih := firAdd_pair h1 h2 hE hS hSE cs ds (i - 1) _ r _ s _ _ htl (by linarith) (fun j hj => by
        have := hr (j + 1) (by simp; omega)
        rwa [show i - 1 - (j : Int) = i - ((j + 1 : Nat) : Int) by push_cast; ring]) m1 (by linarith) e1 e2
    exact ih.mono (le_of_eq (by ring)) (le_of_eq (by ring))

theorem firSub_pair {X E S : ℝ} (h1 : 1 ≤ X) (h2 : X ≤ 2 ^ 104) (hE : 0 ≤ E) (hS : 0 ≤ S) (hSE : S + E ≤ 6 * X) {l : List F32} {m : List ℝ} {ring : ℕ} :
    ∀ (cs : List F32) (ds : List ℝ) (i : ℤ) (a r : F32) (b s e A : ℝ), List.Forall₂ CoefNear cs ds → absSum ds ≤ 1 →
    (∀ j : ℕ, j < cs.length → ReadCl E S l m ring (i - j)) → Cl e A a b →
    A + absSum ds * S + (e + absSum ds * E + absSum ds * (43 * (X / 2 ^ 24)) + cs.length * (9 / 2 * (X / 2 ^ 24))) + X / 8 ≤ 17 / 4 * X →
    @firSub F32 (scalar el) l ring cs i a = .ok r → firSub m ring ds i b = .ok s →
    Cl (e + absSum ds * E + absSum ds * (43 * (X / 2 ^ 24)) + cs.length * (9 / 2 * (X / 2 ^ 24))) (A + absSum ds * S) r s
  | [], [], i, a, r, b, s, e, A, _, _, _, ha, _, e1, e2 => by
    letI := scalar el
    simp only [firSub, Res.ok.injEq] at e1 e2
    subst e1 e2
    simpa [absSum] using ha
  | [], _ :: _, _, _, _, _, _, _, _, h, _, _, _, _, _, _ => by cases h
  | _ :: _, [], _, _, _, _, _, _, _, h, _, _, _, _, _, _ => by cases h
  | c :: cs, d :: ds, i, a, r, b, s, e, A, h, hs, hr, ha, hA, e1, e2 => by
    letI := scalar el
    rw [firSub] at e1 e2
    obtain ⟨v, hv, e1⟩ := bind_ok_inv e1
    obtain ⟨w, hw, e2⟩ := bind_ok_inv e2
    cases h with
    | cons hcd htl =>
    have h0 := hr 0 (by simp) v w (by simpa using hv) (by simpa using hw)
    rw [absSum_cons] at hs hA ⊢
    rw [List.length_cons] at hA ⊢
    push_cast at hA ⊢
    have n0 := absSum_nonneg ds
    have d0 := abs_nonneg d
    have q1 : 0 ≤ absSum ds * S := by positivity
    have q2 : 0 ≤ absSum ds * E := by positivity
    have q3 : 0 ≤ (|d| + absSum ds) * (43 * (X / 2 ^ 24)) := by positivity
    have q4 : (0 : ℝ) ≤ (cs.length + 1) * (9 / 2 * (X / 2 ^ 24)) := by positivity
    have m1 := (mac_pair h1 h2 ha hcd h0 hSE (by linarith) (by linarith)).2
    have ih := firSub_pair h1 h2 hE hS hSE cs ds (i - 1) _ r _ s _ _ htl (by linarith) (fun j hj => by
        have := hr (j + 1) (by simp; omega)
        rwa [show i - 1 - (j : Int) = i - ((j + 1 : Nat) : Int) by push_cast; ring]) m1 (by linarith) e1 e2
    exact ih.mono (le_of_eq (by ring)) (le_of_eq (by ring))

/-- coefficients in binary32 and their exact values -/
structure CoefPair (cn cd : List F32) (cn' cd' : List ℝ) : Prop where
  n : List.Forall₂ CoefNear cn cn'
  d : List.Forall₂ CoefNear cd cd'
  nSum : absSum cn' ≤ 36 / 100
  dSum : absSum cd' ≤ 402 / 1000
  nLen : cn.length ≤ 13
  dLen : cd.length ≤ 13

/-- the memories hold close values -/
def Rl (E S : ℝ) (l : List F32) (m : List ℝ) : Prop := ∀ (i : ℕ) (v : F32) (w : ℝ), l[i]? = some v → m[i]? = some w → Cl E S v w

theorem Rl.mono {E S E' S' : ℝ} {l : List F32} {m : List ℝ} (h : Rl E S l m) (hE : E ≤ E') (hS : S ≤ S') : Rl E' S' l m :=
  fun i v w h1 h2 => (h i v w h1 h2).mono hE hS

theorem Rl.set {E S : ℝ} {l : List F32} {m : List ℝ} (h : Rl E S l m) {i : ℕ} {v : F32} {w : ℝ} (hv : Cl E S v w) :
    Rl E S (l.set i v) (m.set i w) := by
  intro j a b h1 h2
  by_cases hj : i = j
  · subst hj
    rw [List.getElem?_set] at h1 h2
    simp only [if_true] at h1 h2
    split at h1
    · split at h2
      · cases h1; cases h2; exact hv
      · cases h2
    · cases h1
  · rw [List.getElem?_set_ne hj] at h1 h2
    exact h j a b h1 h2

theorem Rl.read {E S : ℝ} {l : List F32} {m : List ℝ} (h : Rl E S l m) (ring : ℕ) (i : ℤ) : ReadCl E S l m ring i := by
  intro v w h1 h2
  unfold ringRead at h1 h2
  split at h1
  · rename_i hn
    rw [if_pos hn] at h2
    split at h1
    · cases h1
    · rename_i hn2
      rw [if_neg hn2] at h2
      exact h _ _ _ (idx_ok_iff.1 h1) (idx_ok_iff.1 h2)
  · rename_i hn
    rw [if_neg hn] at h2
    exact h _ _ _ (idx_ok_iff.1 h1) (idx_ok_iff.1 h2)

/-- the two sums of the filter -/
theorem filter_pair {X Ex Sx Ey Sy : ℝ} (h1 : 1 ≤ X) (h2 : X ≤ 2 ^ 104) (hEx : 0 ≤ Ex) (hEx1 : Ex ≤ X / 16) (hSx : 0 ≤ Sx) (hSx1 : Sx ≤ 5 * X)
    (hEy : 0 ≤ Ey) (hEy1 : Ey ≤ X / 16) (hSy : 0 ≤ Sy) (hSy1 : Sy ≤ 5 * X) {cn cd : List F32} {cn' cd' : List ℝ} (hc : CoefPair cn cd cn' cd')
    {lx ly : List F32} {mx my : List ℝ} {rx ry : ℕ} {i j : ℤ} {a r : F32} {b s : ℝ}
    (hx : ∀ k : ℕ, k < cn.length → ReadCl Ex Sx lx mx rx (i - k)) (hy : ∀ k : ℕ, k < cd.length → ReadCl Ey Sy ly my ry (j - k))
    (e1 : @firAdd F32 (scalar el) lx rx cn i (@Scalar.zero F32 (scalar el)) = .ok a) (e2 : @firSub F32 (scalar el) ly ry cd j a = .ok r)
    (g1 : firAdd mx rx cn' i (zero : ℝ) = .ok b) (g2 : firSub my ry cd' j b = .ok s) :
    Cl (36 / 100 * Ex + 402 / 1000 * Ey + 150 * (X / 2 ^ 24)) (36 / 100 * Sx + 402 / 1000 * Sy) r s := by
  have n0 := absSum_nonneg cn'
  have d0 := absSum_nonneg cd'
  have hn := hc.nSum
  have hd := hc.dSum
  obtain ⟨u, hu⟩ : ∃ u, u = X / 2 ^ 24 := ⟨_, rfl⟩
  have hu0 : 0 ≤ u := by rw [hu]; positivity
  have hXu : X = 2 ^ 24 * u := by rw [hu]; ring
  have ln : (cn.length : ℝ) * (9 / 2 * u) ≤ 13 * (9 / 2 * u) := by
    gcongr
    exact_mod_cast hc.nLen
  have ld : (cd.length : ℝ) * (9 / 2 * u) ≤ 13 * (9 / 2 * u) := by
    gcongr
    exact_mod_cast hc.dLen
  have a1 : absSum cn' * Ex ≤ 36 / 100 * Ex := by gcongr
  have a2 : absSum cn' * Sx ≤ 36 / 100 * Sx := by gcongr
  have a3 : absSum cn' * (43 * u) ≤ 36 / 100 * (43 * u) := by gcongr
  have a4 : absSum cd' * Ey ≤ 402 / 1000 * Ey := by gcongr
  have a5 : absSum cd' * Sy ≤ 402 / 1000 * Sy := by gcongr
  have a6 : absSum cd' * (43 * u) ≤ 402 / 1000 * (43 * u) := by gcongr
  have z : Cl 0 0 (@Scalar.zero F32 (scalar el)) (zero : ℝ) := by
    rw [zero_eq, show (zero : ℝ) = 0 from Rat.cast_zero]
    refine ⟨⟨0, rfl⟩, ?_, by simp⟩
    show |((0 : ℚ) : ℝ) - 0| ≤ 0
    simp
  have k1 := firAdd_pair h1 h2 hEx hSx (by linarith) cn cn' i _ a _ b 0 0 hc.n (by linarith) hx z (by
    rw [← hu]; norm_num at hXu; linarith) e1 g1
  have k2 := firSub_pair h1 h2 hEy hSy (by linarith) cd cd' j _ r _ s _ _ hc.d (by linarith) hy k1 (by
    rw [← hu]; norm_num at hXu; linarith) e2 g2
  rw [← hu] at k2 ⊢
  exact k2.mono (by linarith) (by linarith)

end Lc3.F32
