import Verif.Lemmas.SilenceDec
import Verif.Lemmas.F32Fin
import Verif.Lemmas.FinEncTns
/-!
# Digital silence in binary32: the stages of the decoder

All stages map values that are zero or NaN to such values, whatever the elementary functions are; the conversion to integers makes zeros
of them.
-/

namespace Lc3.F32
open Scalar Tables Spec

/-- zero or NaN -/
def Zn (a : F32) : Prop := a = fin 0 ∨ a = nan

theorem rnd_zero : rnd 0 = fin 0 := by
  unfold rnd rndQ roundEven
  norm_num

theorem zn_zero : Zn (fin 0) := Or.inl rfl

theorem Zn.neg {a : F32} (h : Zn a) : Zn (F32.neg a) := by
  rcases h with rfl | rfl
  · left; show fin (-0) = fin 0; rw [neg_zero]
  · exact Or.inr rfl

theorem Zn.add {a b : F32} (h : Zn a) (h' : Zn b) : Zn (F32.add a b) := by
  rcases h with rfl | rfl <;> rcases h' with rfl | rfl
  · left; show rnd (0 + 0) = fin 0; rw [add_zero, rnd_zero]
  · exact Or.inr rfl
  · exact Or.inr rfl
  · exact Or.inr rfl

theorem Zn.sub {a b : F32} (h : Zn a) (h' : Zn b) : Zn (F32.sub a b) := h.add h'.neg

theorem Zn.mul {a : F32} (h : Zn a) (b : F32) : Zn (F32.mul a b) := by
  rcases h with rfl | rfl
  · cases b with
    | nan => exact Or.inr rfl
    | inf s => right; simp [F32.mul, isZero]
    | fin q => left; show rnd (0 * q) = fin 0; rw [zero_mul, rnd_zero]
  · exact Or.inr rfl

theorem Zn.mul' {a : F32} (h : Zn a) (b : F32) : Zn (F32.mul b a) := by
  rcases h with rfl | rfl
  · cases b with
    | nan => exact Or.inr rfl
    | inf s => right; simp [F32.mul, isZero]
    | fin q => left; show rnd (q * 0) = fin 0; rw [mul_zero, rnd_zero]
  · right; cases b <;> rfl

theorem Zn.div {a : F32} (h : Zn a) (b : F32) : Zn (F32.div a b) := by
  rcases h with rfl | rfl
  · cases b with
    | nan => exact Or.inr rfl
    | inf s => exact Or.inl rfl
    | fin q =>
      show Zn (if q = 0 then (if (0 : ℚ) = 0 then nan else inf _) else rnd (0 / q))
      split
      · rw [if_pos rfl]; exact Or.inr rfl
      · rw [zero_div, rnd_zero]; exact Or.inl rfl
  · exact Or.inr rfl

theorem Zn.eq_zero {a : F32} (h : Zn a) (hf : IsFin a) : a = fin 0 := by
  rcases h with h | rfl
  · exact h
  · exact absurd hf (by simp [IsFin])

/-- all values are zero or NaN -/
def AllZn (l : List F32) : Prop := ∀ v ∈ l, Zn v

theorem AllZn.take {l : List F32} (h : AllZn l) (n : Nat) : AllZn (l.take n) := fun v hv => h v (List.mem_of_mem_take hv)

theorem AllZn.drop {l : List F32} (h : AllZn l) (n : Nat) : AllZn (l.drop n) := fun v hv => h v (List.mem_of_mem_drop hv)

theorem AllZn.append {l m : List F32} (h : AllZn l) (h' : AllZn m) : AllZn (l ++ m) := fun v hv => (List.mem_append.1 hv).elim (h v) (h' v)

theorem AllZn.map {l : List F32} {g : F32 → F32} (h : AllZn l) (hg : ∀ a, Zn a → Zn (g a)) : AllZn (l.map g) := by
  intro v hv
  obtain ⟨a, ha, rfl⟩ := List.mem_map.1 hv
  exact hg a (h a ha)

theorem AllZn.zipWith {β : Type} {l : List F32} {m : List β} {g : F32 → β → F32} (h : AllZn l) (hg : ∀ a, Zn a → ∀ b ∈ m, Zn (g a b)) :
    AllZn (List.zipWith g l m) := by
  intro v hv
  rw [← List.map_uncurry_zip_eq_zipWith] at hv
  obtain ⟨⟨a, b⟩, hab, rfl⟩ := List.mem_map.1 hv
  have := List.of_mem_zip hab
  exact hg a (h a this.1) b this.2

theorem allZn_zeros (n : Nat) : AllZn (List.replicate n (fin 0)) := fun _ h => Or.inl (List.eq_of_mem_replicate h)

theorem AllZn.idx {l : List F32} (h : AllZn l) {i : Nat} {v : F32} (e : Lc3.idx l i = .ok v) : Zn v := by
  unfold Lc3.idx at e
  cases hg : l[i]? with
  | none => rw [hg] at e; cases e
  | some w => rw [hg] at e; cases e; exact h _ (List.mem_of_getElem? hg)

theorem AllZn.setIdx {l : List F32} (h : AllZn l) {i : Nat} {l' : List F32} {a : F32} (ha : Zn a) (e : Lc3.setIdx l i a = .ok l') : AllZn l' := by
  unfold Lc3.setIdx at e
  split at e
  · cases e
    intro v hv
    rcases List.mem_or_eq_of_mem_set hv with hv | rfl
    · exact h v hv
    · exact ha
  · cases e

theorem mapM_from_mem {β γ : Type} {f : β → Res γ} : ∀ {l : List β} {r : List γ}, l.mapM f = .ok r → ∀ {b}, b ∈ r → ∃ a ∈ l, f a = .ok b
  | [], _, h, b, hb => by
    cases h
    cases hb
  | x :: l, r, h, b, hb => by
    rw [List.mapM_cons] at h
    obtain ⟨c, hc, h⟩ := bind_ok_inv h
    obtain ⟨cs, hcs, h⟩ := bind_ok_inv h
    have h' : c :: cs = r := by injection h
    subst h'
    rcases List.mem_cons.1 hb with rfl | hb
    · exact ⟨x, by simp, hc⟩
    · obtain ⟨a, ha, e⟩ := mapM_from_mem hcs hb
      exact ⟨a, by simp [ha], e⟩

/-- both parts are zero or NaN -/
def CZn (c : Cx F32) : Prop := Zn c.r ∧ Zn c.i

variable {el : Elem}

theorem CZn.add {a b : Cx F32} (h : CZn a) (h' : CZn b) : CZn (letI := scalar el; a + b) := ⟨h.1.add h'.1, h.2.add h'.2⟩
theorem CZn.sub {a b : Cx F32} (h : CZn a) (h' : CZn b) : CZn (letI := scalar el; a - b) := ⟨h.1.sub h'.1, h.2.sub h'.2⟩
theorem CZn.mul {a : Cx F32} (h : CZn a) (b : Cx F32) : CZn (letI := scalar el; a * b) :=
  ⟨(h.1.mul _).sub (h.2.mul _), (h.1.mul _).add (h.2.mul _)⟩
theorem CZn.mul' {a : Cx F32} (h : CZn a) (b : Cx F32) : CZn (letI := scalar el; b * a) :=
  ⟨(h.1.mul' _).sub (h.2.mul' _), (h.2.mul' _).add (h.1.mul' _)⟩

theorem CZn.mk' {a b : F32} (h : Zn a) (h' : Zn b) : CZn ⟨a, b⟩ := ⟨h, h'⟩

/-- all values are zero or NaN -/
def AllCZn (l : List (Cx F32)) : Prop := ∀ v ∈ l, CZn v

theorem AllCZn.idx {l : List (Cx F32)} (h : AllCZn l) {i : Nat} {v : Cx F32} (e : Lc3.idx l i = .ok v) : CZn v := by
  unfold Lc3.idx at e
  cases hg : l[i]? with
  | none => rw [hg] at e; cases e
  | some w => rw [hg] at e; cases e; exact h _ (List.mem_of_getElem? hg)

theorem allCZn_nil : AllCZn [] := fun v hv => absurd hv (by simp)

theorem AllCZn.cons {a : Cx F32} {l : List (Cx F32)} (h : CZn a) (h' : AllCZn l) : AllCZn (a :: l) := by
  intro v hv
  rcases List.mem_cons.1 hv with rfl | hv
  · exact h
  · exact h' v hv

theorem bfly2_zn {tw blk : List (Cx F32)} {fs m i : Nat} {r : List (Cx F32)} (h : AllCZn blk) (e : @bfly2 F32 (scalar el) tw blk fs m i = .ok r) : AllCZn r := by
  letI := scalar el
  unfold bfly2 at e
  obtain ⟨a0, h0, e⟩ := bind_ok_inv e
  obtain ⟨a1, h1, e⟩ := bind_ok_inv e
  obtain ⟨w, -, e⟩ := bind_ok_inv e
  cases e
  have z0 := h.idx h0
  have z1 := (h.idx h1).mul (el := el) w
  exact AllCZn.cons (z0.add z1) (AllCZn.cons (z0.sub z1) allCZn_nil)

theorem bfly4_zn {inv : Bool} {tw blk : List (Cx F32)} {fs m i : Nat} {r : List (Cx F32)} (h : AllCZn blk) (e : @bfly4 F32 (scalar el) inv tw blk fs m i = .ok r) :
    AllCZn r := by
  letI := scalar el
  unfold bfly4 at e
  obtain ⟨a0, h0, e⟩ := bind_ok_inv e
  obtain ⟨a1, h1, e⟩ := bind_ok_inv e
  obtain ⟨a2, h2, e⟩ := bind_ok_inv e
  obtain ⟨a3, h3, e⟩ := bind_ok_inv e
  obtain ⟨w1, -, e⟩ := bind_ok_inv e
  obtain ⟨w2, -, e⟩ := bind_ok_inv e
  obtain ⟨w3, -, e⟩ := bind_ok_inv e
  have z0 := h.idx h0
  have s0 := (h.idx h1).mul (el := el) w1
  have s1 := (h.idx h2).mul (el := el) w2
  have s2 := (h.idx h3).mul (el := el) w3
  have s5 := z0.sub (el := el) s1
  have b0 := z0.add (el := el) s1
  have s3 := s0.add (el := el) s2
  have s4 := s0.sub (el := el) s2
  simp only at e
  split at e
  · cases e
    exact AllCZn.cons (b0.add s3) (AllCZn.cons ⟨s5.1.sub s4.2, s5.2.add s4.1⟩ (AllCZn.cons (b0.sub s3) (AllCZn.cons ⟨s5.1.add s4.2, s5.2.sub s4.1⟩ allCZn_nil)))
  · cases e
    exact AllCZn.cons (b0.add s3) (AllCZn.cons ⟨s5.1.add s4.2, s5.2.sub s4.1⟩ (AllCZn.cons (b0.sub s3) (AllCZn.cons ⟨s5.1.sub s4.2, s5.2.add s4.1⟩ allCZn_nil)))

theorem bfly3_zn {tw blk : List (Cx F32)} {fs m i : Nat} {r : List (Cx F32)} (h : AllCZn blk) (e : @bfly3 F32 (scalar el) tw blk fs m i = .ok r) : AllCZn r := by
  letI := scalar el
  unfold bfly3 at e
  obtain ⟨ep, -, e⟩ := bind_ok_inv e
  obtain ⟨a0, h0, e⟩ := bind_ok_inv e
  obtain ⟨a1, h1, e⟩ := bind_ok_inv e
  obtain ⟨a2, h2, e⟩ := bind_ok_inv e
  obtain ⟨w1, -, e⟩ := bind_ok_inv e
  obtain ⟨w2, -, e⟩ := bind_ok_inv e
  have z0 := h.idx h0
  have s1 := (h.idx h1).mul (el := el) w1
  have s2 := (h.idx h2).mul (el := el) w2
  have s3 := s1.add (el := el) s2
  have s0 := s1.sub (el := el) s2
  cases e
  have f1 := z0.1.sub (s3.1.mul (rnd (1 / 2)))
  have f2 := z0.2.sub (s3.2.mul (rnd (1 / 2)))
  exact AllCZn.cons (z0.add s3) (AllCZn.cons ⟨f1.sub (s0.2.mul _), f2.add (s0.1.mul _)⟩ (AllCZn.cons ⟨f1.add (s0.2.mul _), f2.sub (s0.1.mul _)⟩ allCZn_nil))

theorem bfly5_zn {tw blk : List (Cx F32)} {fs m i : Nat} {r : List (Cx F32)} (h : AllCZn blk) (e : @bfly5 F32 (scalar el) tw blk fs m i = .ok r) : AllCZn r := by
  letI := scalar el
  unfold bfly5 at e
  obtain ⟨ya, -, e⟩ := bind_ok_inv e
  obtain ⟨yb, -, e⟩ := bind_ok_inv e
  obtain ⟨a0, h0, e⟩ := bind_ok_inv e
  obtain ⟨a1, h1, e⟩ := bind_ok_inv e
  obtain ⟨a2, h2, e⟩ := bind_ok_inv e
  obtain ⟨a3, h3, e⟩ := bind_ok_inv e
  obtain ⟨a4, h4, e⟩ := bind_ok_inv e
  obtain ⟨w1, -, e⟩ := bind_ok_inv e
  obtain ⟨w2, -, e⟩ := bind_ok_inv e
  obtain ⟨w3, -, e⟩ := bind_ok_inv e
  obtain ⟨w4, -, e⟩ := bind_ok_inv e
  have z0 := h.idx h0
  have s1 := (h.idx h1).mul (el := el) w1
  have s2 := (h.idx h2).mul (el := el) w2
  have s3 := (h.idx h3).mul (el := el) w3
  have s4 := (h.idx h4).mul (el := el) w4
  have s7 := s1.add (el := el) s4
  have s10 := s1.sub (el := el) s4
  have s8 := s2.add (el := el) s3
  have s9 := s2.sub (el := el) s3
  cases e
  have b0 := CZn.mk' (z0.1.add (s7.1.add s8.1)) (z0.2.add (s7.2.add s8.2))
  have s5 := CZn.mk' ((z0.1.add (s7.1.mul ya.r)).add (s8.1.mul yb.r)) ((z0.2.add (s7.2.mul ya.r)).add (s8.2.mul yb.r))
  have s6 := CZn.mk' ((s10.2.mul ya.i).add (s9.2.mul yb.i)) ((s10.1.mul ya.i).neg.sub (s9.1.mul yb.i))
  have s11 := CZn.mk' ((z0.1.add (s7.1.mul yb.r)).add (s8.1.mul ya.r)) ((z0.2.add (s7.2.mul yb.r)).add (s8.2.mul ya.r))
  have s12 := CZn.mk' ((s10.2.mul yb.i).neg.add (s9.2.mul ya.i)) ((s10.1.mul yb.i).sub (s9.1.mul ya.i))
  exact AllCZn.cons b0 (AllCZn.cons (s5.sub s6) (AllCZn.cons (s11.add s12) (AllCZn.cons (s11.sub s12) (AllCZn.cons (s5.add s6) allCZn_nil))))

theorem genericSum_zn {tw : List (Cx F32)} {step : Nat} : ∀ (s : List (Cx F32)) (t : Nat) (a r : Cx F32), AllCZn s → CZn a →
    @genericSum F32 (scalar el) tw step s t a = .ok r → CZn r
  | [], _, _, _, _, h, e => by cases e; exact h
  | x :: s, t, a, r, hs, h, e => by
    letI := scalar el
    rw [genericSum] at e
    obtain ⟨w, -, e⟩ := bind_ok_inv e
    exact genericSum_zn s _ _ _ (fun v hv => hs v (List.mem_cons_of_mem _ hv)) (h.add ((hs x (by simp)).mul w)) e

theorem bflyGeneric_zn {p : Nat} {tw blk : List (Cx F32)} {fs m rest i : Nat} {r : List (Cx F32)} (h : AllCZn blk)
    (e : @bflyGeneric F32 (scalar el) p tw blk fs m rest i = .ok r) : AllCZn r := by
  letI := scalar el
  unfold bflyGeneric at e
  split at e
  · cases e
  split at e
  · cases e
  obtain ⟨s, h1, e⟩ := bind_ok_inv e
  obtain ⟨s0, h2, e⟩ := bind_ok_inv e
  have hs : AllCZn s := by
    intro v hv
    obtain ⟨j, hj⟩ := mapM_from h1 hv
    split at hj
    · exact h.idx hj
    · cases hj
      exact ⟨Or.inl rnd_zero, Or.inl rnd_zero⟩
  intro v hv
  obtain ⟨j, hj⟩ := mapM_from e hv
  exact genericSum_zn _ _ _ _ (fun v hv => hs v (List.mem_of_mem_drop hv)) (hs.idx h2) hj

theorem bflyCol_zn {inv : Bool} {p : Nat} {tw blk : List (Cx F32)} {fs m rest i : Nat} {r : List (Cx F32)} (h : AllCZn blk)
    (e : @bflyCol F32 (scalar el) inv p tw blk fs m rest i = .ok r) : AllCZn r := by
  unfold bflyCol at e
  split at e
  · exact bfly2_zn h e
  · exact bfly3_zn h e
  · exact bfly4_zn h e
  · exact bfly5_zn h e
  · exact bflyGeneric_zn h e

theorem bflyBlock_zn {inv : Bool} {p : Nat} {tw blk : List (Cx F32)} {fs m rest : Nat} {r : List (Cx F32)} (h : AllCZn blk)
    (e : @bflyBlock F32 (scalar el) inv p tw blk fs m rest = .ok r) : AllCZn r := by
  unfold bflyBlock at e
  obtain ⟨cols, h1, e⟩ := bind_ok_inv e
  obtain ⟨rows, h2, e⟩ := bind_ok_inv e
  cases e
  have hc : ∀ c ∈ cols, AllCZn c := by
    intro c hc
    obtain ⟨i, hi⟩ := mapM_from h1 hc
    exact bflyCol_zn h hi
  intro v hv
  obtain ⟨row, hrow, hv⟩ := List.mem_flatten.1 hv
  obtain ⟨j, hj⟩ := mapM_from h2 hrow
  obtain ⟨c, hcm, e3⟩ := mapM_from_mem hj hv
  exact (hc c hcm).idx e3

theorem kfWork_zn {inv : Bool} {tw x : List (Cx F32)} (h : AllCZn x) : ∀ (fac : List (Nat × Nat)) (fs fi rest : Nat) (r : List (Cx F32)),
    @kfWork F32 (scalar el) inv tw x fac fs fi rest = .ok r → AllCZn r := by
  letI := scalar el
  intro fac
  induction fac with
  | nil => intro fs fi rest r e; cases e
  | cons pm fac ih =>
    intro fs fi rest r e
    obtain ⟨p, m⟩ := pm
    rw [kfWork] at e
    obtain ⟨blk, h1, e⟩ := bind_ok_inv e
    refine bflyBlock_zn ?_ e
    split at h1
    · intro v hv
      obtain ⟨i, hi⟩ := mapM_from h1 hv
      exact h.idx hi
    · obtain ⟨parts, h2, h1⟩ := bind_ok_inv h1
      cases h1
      intro v hv
      obtain ⟨l, hl, hv⟩ := List.mem_flatten.1 hv
      obtain ⟨i, hi⟩ := mapM_from h2 hl
      exact ih _ _ _ _ hi v hv

theorem dctIv_zn {nf : Nat} {x r : List F32} (h : AllZn x) (e : @dctIv F32 (scalar el) nf x = .ok r) : AllZn r := by
  letI := scalar el
  unfold dctIv at e
  split at e
  · cases e
  obtain ⟨inp, h1, e⟩ := bind_ok_inv e
  obtain ⟨out, h2, e⟩ := bind_ok_inv e
  have hi : AllCZn inp := by
    intro v hv
    obtain ⟨n, hn⟩ := mapM_from h1 hv
    unfold dctIn at hn
    obtain ⟨t, -, hn⟩ := bind_ok_inv hn
    obtain ⟨a, ha, hn⟩ := bind_ok_inv hn
    obtain ⟨_, -, hn⟩ := bind_ok_inv hn
    obtain ⟨_, -, hn⟩ := bind_ok_inv hn
    obtain ⟨b, hb, hn⟩ := bind_ok_inv hn
    cases hn
    exact CZn.mul' (a := ⟨a, b⟩) ⟨h.idx ha, h.idx hb⟩ t
  have ho : AllCZn out := by
    unfold fft at h2
    obtain ⟨fac, -, h2⟩ := bind_ok_inv h2
    exact kfWork_zn hi _ _ _ _ _ h2
  intro v hv
  obtain ⟨n, hn⟩ := mapM_from e hv
  unfold dctOut at hn
  split at hn
  · obtain ⟨t, -, hn⟩ := bind_ok_inv hn
    obtain ⟨o, ho', hn⟩ := bind_ok_inv hn
    cases hn
    exact ((ho.idx ho').mul' (el := el) t).1.mul _
  · obtain ⟨t, -, hn⟩ := bind_ok_inv hn
    obtain ⟨o, ho', hn⟩ := bind_ok_inv hn
    cases hn
    exact ((ho.idx ho').mul' (el := el) t).2.neg.mul _

/-! ## The post filter -/

theorem ringRead_zn {mem : List F32} (h : AllZn mem) {ring : Nat} {i : Int} {v : F32} (e : ringRead mem ring i = .ok v) : Zn v := by
  unfold ringRead at e
  split at e
  · split at e
    · cases e
    · exact h.idx e
  · exact h.idx e

theorem firAdd_zn {mem : List F32} (h : AllZn mem) (ring : Nat) : ∀ (c : List F32) (i : Int) (acc v : F32), Zn acc →
    @firAdd F32 (scalar el) mem ring c i acc = .ok v → Zn v := by
  letI := scalar el
  intro c
  induction c with
  | nil => intro i acc v ha e; cases e; exact ha
  | cons a c ih =>
    intro i acc v ha e
    rw [firAdd] at e
    obtain ⟨w, hw, e⟩ := bind_ok_inv e
    exact ih _ _ _ (ha.add ((ringRead_zn h hw).mul' a)) e

theorem firSub_zn {mem : List F32} (h : AllZn mem) (ring : Nat) : ∀ (c : List F32) (i : Int) (acc v : F32), Zn acc →
    @firSub F32 (scalar el) mem ring c i acc = .ok v → Zn v := by
  letI := scalar el
  intro c
  induction c with
  | nil => intro i acc v ha e; cases e; exact ha
  | cons a c ih =>
    intro i acc v ha e
    rw [firSub] at e
    obtain ⟨w, hw, e⟩ := bind_ok_inv e
    exact ih _ _ _ (ha.sub ((ringRead_zn h hw).mul' a)) e

theorem zero_zn : Zn (@Scalar.zero F32 (scalar el)) := Or.inl rnd_zero

theorem computeFilter_zn {ring start pitch : Nat} {cNum cDen xMem yMem : List F32} {v : F32} (hx : AllZn xMem) (hy : AllZn yMem)
    (e : @computeFilter F32 (scalar el) ring cNum cDen xMem yMem start pitch = .ok v) : Zn v := by
  unfold computeFilter at e
  obtain ⟨a, ha, e⟩ := bind_ok_inv e
  exact firSub_zn hy _ _ _ _ _ (firAdd_zn hx _ _ _ _ _ zero_zn ha) e

theorem forRange_zn {F : Nat → List F32 → Res (List F32)} (hF : ∀ n y y', AllZn y → F n y = .ok y' → AllZn y') :
    ∀ (n a : Nat) (y y' : List F32), AllZn y → forRange F a n y = .ok y' → AllZn y' := by
  intro n
  induction n with
  | zero => intro a y y' h e; cases e; exact h
  | succ n ih =>
    intro a y y' h e
    rw [forRange] at e
    obtain ⟨z, hz, e⟩ := bind_ok_inv e
    exact ih _ _ _ (hF _ _ _ h hz) e

theorem ltpfSample_zn {ring blk pitch : Nat} {cNum cDen xMem : List F32} {scale : Nat → F32 → F32} (hs : ∀ n a, Zn a → Zn (scale n a)) (hx : AllZn xMem)
    (n : Nat) (y y' : List F32) (hy : AllZn y) (e : @ltpfSample F32 (scalar el) ring cNum cDen xMem blk pitch scale n y = .ok y') : AllZn y' := by
  unfold ltpfSample at e
  obtain ⟨x, e1, e⟩ := bind_ok_inv e
  obtain ⟨y1, e2, e⟩ := bind_ok_inv e
  obtain ⟨f, e3, e⟩ := bind_ok_inv e
  obtain ⟨v, e4, e⟩ := bind_ok_inv e
  have h1 := hy.setIdx (hx.idx e1) e2
  exact h1.setIdx ((h1.idx e4).sub (hs _ _ (computeFilter_zn hx h1 e3))) e

theorem ltpfCopy_zn {blk : Nat} {xMem : List F32} (hx : AllZn xMem) (n : Nat) (y y' : List F32) (hy : AllZn y)
    (e : (do let x ← idx xMem (blk + n); setIdx y (blk + n) x) = Res.ok y') : AllZn y' := by
  obtain ⟨x, e1, e⟩ := bind_ok_inv e
  exact hy.setIdx (hx.idx e1) e

theorem fadeIn_zn (norm n : Nat) (a : F32) (h : Zn a) : Zn (@fadeIn F32 (scalar el) norm n a) := h.mul _
theorem fadeOut_zn (norm n : Nat) (a : F32) (h : Zn a) : Zn (@fadeOut F32 (scalar el) norm n a) := h.mul _

theorem ltpfScratch_zn {ring norm lNum blk : Nat} {y s : List F32} (hy : AllZn y) (e : ltpfScratch ring norm lNum blk y = .ok s) : AllZn s := by
  unfold ltpfScratch at e
  split at e
  · obtain ⟨st, -, e⟩ := bind_ok_inv e
    split at e
    · cases e
    · cases e
      exact ((hy.drop _).take _).append (hy.take _)
  · split at e
    · cases e
    · cases e
      exact (hy.take _).drop _

theorem ltpfSampleFromMem_zn {ring norm blk pitch lNum : Nat} {cNum cDen scratch : List F32} (hs : AllZn scratch)
    (n : Nat) (y y' : List F32) (hy : AllZn y) (e : @ltpfSampleFromMem F32 (scalar el) ring norm cNum cDen scratch blk pitch lNum n y = .ok y') : AllZn y' := by
  unfold ltpfSampleFromMem at e
  obtain ⟨x, e1, e⟩ := bind_ok_inv e
  obtain ⟨y1, e2, e⟩ := bind_ok_inv e
  obtain ⟨a, e3, e⟩ := bind_ok_inv e
  obtain ⟨f, e5, e⟩ := bind_ok_inv e
  obtain ⟨v, e4, e⟩ := bind_ok_inv e
  have h1 := hy.setIdx (hs.idx e1) e2
  have hf : Zn f := firSub_zn h1 _ _ _ _ _ (firAdd_zn hs _ _ _ _ _ zero_zn e3) e5
  exact h1.setIdx ((h1.idx e4).sub (fadeIn_zn _ _ _ hf)) e

theorem ltpfTransition_zn {cfg : Lc3Config} {s : Ltpf F32} {active : Bool} {pitch pitchFr : Nat} {cNum cDen xMem y : List F32}
    (hx : AllZn xMem) (hy : AllZn s.yMem) (e : @ltpfTransition F32 (scalar el) cfg s active pitch pitchFr cNum cDen xMem = .ok y) : AllZn y := by
  letI := scalar el
  unfold ltpfTransition at e
  simp only at e
  split at e
  · exact forRange_zn (ltpfCopy_zn hx) _ _ _ _ hy e
  split at e
  · obtain ⟨y1, e1, e⟩ := bind_ok_inv e
    exact forRange_zn (ltpfSample_zn (fun _ _ h => h) hx) _ _ _ _ (forRange_zn (ltpfSample_zn (fadeIn_zn _) hx) _ _ _ _ hy e1) e
  split at e
  · obtain ⟨y1, e1, e⟩ := bind_ok_inv e
    exact forRange_zn (ltpfCopy_zn hx) _ _ _ _ (forRange_zn (ltpfSample_zn (fadeOut_zn _) hx) _ _ _ _ hy e1) e
  split at e
  · exact forRange_zn (ltpfSample_zn (fun _ _ h => h) hx) _ _ _ _ hy e
  · obtain ⟨y1, e1, e⟩ := bind_ok_inv e
    obtain ⟨l, -, e⟩ := bind_ok_inv e
    obtain ⟨sc, e2, e⟩ := bind_ok_inv e
    obtain ⟨y2, e3, e⟩ := bind_ok_inv e
    have h1 := forRange_zn (ltpfSample_zn (fadeOut_zn _) hx) _ _ _ _ hy e1
    have h2 := forRange_zn (ltpfSampleFromMem_zn (ltpfScratch_zn h1 e2)) _ _ _ _ h1 e3
    exact forRange_zn (ltpfSample_zn (fun _ _ h => h) hx) _ _ _ _ h2 e

/-- the post filter maps silence to silence, whatever its parameters are -/
theorem ltpfRun_zn {cfg : Lc3Config} {s s' : Ltpf F32} {info : LtpfInfo} {nbits : Nat} {x out : List F32} (h1 : AllZn s.xMem)
    (h2 : AllZn s.yMem) (hx : AllZn x) (e : @ltpfRun F32 (scalar el) cfg s info nbits x = .ok (s', out)) :
    AllZn s'.xMem ∧ AllZn s'.yMem ∧ AllZn out := by
  letI := scalar el
  unfold ltpfRun at e
  obtain ⟨⟨p, pf⟩, -, e⟩ := bind_ok_inv e
  obtain ⟨⟨cn, cd⟩, -, e⟩ := bind_ok_inv e
  simp only at e
  split at e
  · cases e
  obtain ⟨y, e3, e⟩ := bind_ok_inv e
  split at e
  · cases e
  simp only [Res.ok.injEq, Prod.mk.injEq] at e
  obtain ⟨rfl, rfl⟩ := e
  have hx' : AllZn (s.xMem.take s.blockStart ++ x ++ s.xMem.drop (s.blockStart + cfg.nf)) := ((h1.take _).append hx).append (h1.drop _)
  have hy := ltpfTransition_zn hx' h2 e3
  exact ⟨hx', hy, (hy.take _).drop _⟩

/-! ## The inverse transform -/

theorem mdctDecRun_zn {cfg : Lc3Config} {ola lines ola' out : List F32} (h1 : AllZn ola) (h2 : AllZn lines)
    (e : @mdctDecRun F32 (scalar el) cfg ola lines = .ok (ola', out)) : AllZn ola' ∧ AllZn out := by
  letI := scalar el
  unfold mdctDecRun at e
  split at e
  · cases e
  obtain ⟨wn, -, e⟩ := bind_ok_inv e
  obtain ⟨pad, -, e⟩ := bind_ok_inv e
  obtain ⟨t, ht, e⟩ := bind_ok_inv e
  obtain ⟨n, -, e⟩ := bind_ok_inv e
  split at e
  · cases e
  simp only [Res.ok.injEq, Prod.mk.injEq] at e
  obtain ⟨rfl, rfl⟩ := e
  have ht0 : AllZn t := by
    unfold mdctUnfold at ht
    obtain ⟨y, hy, ht⟩ := bind_ok_inv ht
    cases ht
    have hin : AllZn (lines ++ List.replicate pad (zero : F32)) := h2.append fun v hv => by rw [List.eq_of_mem_replicate hv]; exact zero_zn
    have hy0 := dctIv_zn hin hy
    have hy1 : AllZn (y ++ y.reverse.map (fun v => -v)) :=
      hy0.append (AllZn.map (fun v hv => hy0 v (List.mem_reverse.1 hv)) fun a h => h.neg)
    exact AllZn.map ((hy1.drop _).append (AllZn.map (hy1.take _) fun a h => h.neg)) fun a h => h.mul _
  have ht1 : AllZn (List.zipWith (fun (x : F32) w => x * ofRat w) t wn.reverse) := ht0.zipWith fun a h _ _ => h.mul _
  exact ⟨(ht1.take _).drop _, (AllZn.zipWith (h1.take _) fun a h b hb => h.add (((ht1.take _).drop _) b hb)).append ((ht1.take _).drop _)⟩

/-! ## The spectrum -/

theorem residualLoop_zero32 : ∀ (l : List F32) (bits : List Bool), (∀ v ∈ l, v = fin 0) → @residualLoop F32 (scalar el) bits l = l := by
  letI := scalar el
  intro l
  induction l with
  | nil => intro bits _; cases bits <;> rfl
  | cons a l ih =>
    intro bits h
    have ha : a = fin 0 := h a (by simp)
    have he : (Scalar.eq a (zero : F32)) = true := by
      rw [ha]; show F32.eq (fin 0) (rnd 0) = true; rw [rnd_zero]; exact decide_eq_true (p := (0 : ℚ) = 0) rfl
    rw [residualLoop.eq_def]
    simp only [he, Bool.not_true, Bool.false_eq_true, if_false]
    rw [ih bits fun v hv => h v (by simp [hv])]

theorem scaleRange_zn {lines r : List F32} {a b : Nat} {g : F32} (h : AllZn lines) (e : @scaleRange F32 (scalar el) lines a b g = .ok r) : AllZn r := by
  unfold scaleRange at e
  split at e
  · cases e
    exact ((h.take _).append (AllZn.map ((h.take _).drop _) fun a h => h.mul _)).append (h.drop _)
  · cases e

theorem shapeLoop_zn (tab : List Nat) : ∀ (g : List F32) (b : Nat) (lines r : List F32), AllZn lines →
    @shapeLoop F32 (scalar el) tab b g lines = .ok r → AllZn r := by
  letI := scalar el
  intro g
  induction g with
  | nil => intro b lines r h e; rw [shapeLoop] at e; cases e; exact h
  | cons a g ih =>
    intro b lines r h e
    rw [shapeLoop] at e
    obtain ⟨i0, -, e⟩ := bind_ok_inv e
    obtain ⟨i1, -, e⟩ := bind_ok_inv e
    obtain ⟨l, hl, e⟩ := bind_ok_inv e
    exact ih _ _ _ (scaleRange_zn h hl) e

/-- The spectrum of a frame that holds no line. -/
theorem specFromFrame_zn {cfg : Lc3Config} {spec lines : List F32} {si : SideInfo} {ad : ArithmeticData} {x : List Int}
    (hsp : spec.length = cfg.ne) (hx : AllZero x) (hz : ad.isZeroFrame = true) (ho : ∀ o ∈ ad.rcOrder, o = 0)
    (e : @specFromFrame F32 (scalar el) cfg spec si ad x = .ok lines) : AllZn lines := by
  letI := scalar el
  unfold specFromFrame at e
  obtain ⟨l1, e1, e⟩ := bind_ok_inv e
  obtain ⟨l2, e2, e⟩ := bind_ok_inv e
  have h1 : AllZn l1 := by
    unfold dequantise at e1
    split at e1
    · cases e1
    rename_i hlen
    rw [hz] at e1
    have h0 : ∀ v ∈ zipInto spec ((x.take cfg.ne).map (ofInt : Int → F32)), v = fin 0 := by
      unfold zipInto
      intro v hv
      rcases List.mem_append.1 hv with hv | hv
      · obtain ⟨k, hk, rfl⟩ := List.mem_map.1 (List.mem_of_mem_take hv)
        rw [hx k (List.mem_of_mem_take hk)]
        show rnd ((0 : ℤ) : ℚ) = fin 0
        rw [Int.cast_zero, rnd_zero]
      · rw [List.length_map, List.length_take, List.drop_eq_nil_of_le (by omega)] at hv
        cases hv
    have h0' : ∀ v ∈ residualDecode si.lsbMode ad.residualBits (zipInto spec ((x.take cfg.ne).map (ofInt : Int → F32))), v = fin 0 := by
      unfold residualDecode
      split
      · rw [residualLoop_zero32 _ _ h0]; exact h0
      · exact h0
    simp only [noiseFilling, Bool.not_true, Bool.false_eq_true, if_false, Res.bind_ok, Res.ok.injEq] at e1
    rw [← e1]
    unfold globalGain
    exact AllZn.map (fun v hv => Or.inl (h0' v hv)) fun a h => h.mul _
  have h2 : AllZn l2 := by
    unfold tnsDecode at e2
    simp only at e2
    split at e2
    · cases e2
    split at e2
    · cases e2
    have key : ∀ (bands : List (Nat × Nat)) (orders : List Nat) (k : Nat) (st : List F32), (∀ o ∈ orders, o = 0) →
        tnsLoop (rcQuant ad.rcInts) k bands orders l1 st = .ok l1 := by
      intro bands
      induction bands with
      | nil => intro orders k st _; rw [tnsLoop.eq_def]
      | cons b bands ih =>
        intro orders k st ho
        cases orders with
        | nil => rw [tnsLoop.eq_def]
        | cons o orders =>
          rw [tnsLoop, if_neg (by rw [ho o (by simp)]; omega)]
          exact ih _ _ _ fun v hv => ho v (by simp [hv])
    rw [key _ _ _ _ fun o h => ho o (List.mem_of_mem_take h)] at e2
    cases e2
    exact h1
  unfold snsDecode at e
  obtain ⟨g, -, e⟩ := bind_ok_inv e
  obtain ⟨tab, -, e⟩ := bind_ok_inv e
  exact shapeLoop_zn tab g 0 l2 lines h2 e

/-! ## One frame -/

theorem roundSample_zn {a : F32} (h : Zn a) : @roundSample F32 (scalar el) a = 0 := by
  letI := scalar el
  unfold roundSample
  have hp : pos a = false := by
    show F32.lt (rnd 0) a = false
    rw [rnd_zero]
    rcases h with rfl | rfl
    · exact decide_eq_false (lt_irrefl (0 : ℚ))
    · rfl
  simp only [hp, Bool.false_eq_true, if_false]
  have : Scalar.toI32 (a - ofRat (1 / 2)) = 0 := by
    show F32.toI32 (F32.add a (F32.neg (rnd (1 / 2)))) = 0
    rcases h with rfl | rfl
    · rw [← rndK_eq, ← addK_eq]
      decide +kernel
    · rfl
  rw [this]
  decide

theorem scaleAndRound_zn : ∀ (x : List F32) (out : List Int), AllZn x → x.length = out.length →
    @scaleAndRound F32 (scalar el) x out = List.replicate out.length 0 := by
  letI := scalar el
  intro x
  induction x with
  | nil => intro out _ h; cases out with
    | nil => rfl
    | cons a o => simp at h
  | cons a x ih =>
    intro out h0 h
    cases out with
    | nil => simp at h
    | cons b out =>
      rw [scaleAndRound, roundSample_zn (h0 a (by simp)), ih out (fun v hv => h0 v (by simp [hv])) (by simpa using h)]
      rfl

theorem plcLoop_zn (al : F32) : ∀ (cur good : List F32) (seed : Nat), AllZn good → cur.length = good.length →
    AllZn (@plcLoop F32 (scalar el) al seed cur good).1 := by
  letI := scalar el
  intro cur
  induction cur with
  | nil => intro good seed _ _ v hv; simp [plcLoop] at hv
  | cons c cur ih =>
    intro good seed h hl
    cases good with
    | nil => simp at hl
    | cons g good =>
      rw [plcLoop]
      simp only
      intro v hv
      rcases List.mem_cons.1 hv with rfl | hv
      · split <;> exact (h g (by simp)).mul _
      · exact ih good _ (fun v hv => h v (by simp [hv])) (by simpa using hl) v hv

/-- the memories of a decoder channel that reach the output are zero (or NaN, which the output treats like zero) -/
structure Silent (ch : DecChannel F32) : Prop where
  good : AllZn ch.plc.lastGood
  ola : AllZn ch.memOla
  x : AllZn ch.ltpf.xMem
  y : AllZn ch.ltpf.yMem

/-- A decoded frame that holds no line, or a lost frame, leaves a silent channel silent. -/
theorem decodeChannel_zn {f : SamplingFrequency} {d : FrameDuration} {checks : Bool} {ch ch' : DecChannel F32} {buf : List Nat} {out out' : List Int} {r : DecResult}
    (hi : ChInv f d ch) (hs : Silent ch) (hout : out.length = (Lc3Config.new f d).nf)
    (hr : ∀ si ad x, readFrame checks (Lc3Config.new f d) buf = .ok (si, ad, x) → AllZero x ∧ ad.isZeroFrame = true ∧ ∀ o ∈ ad.rcOrder, o = 0)
    (e : @decodeChannel F32 (scalar el) checks (Lc3Config.new f d) ch 16 buf out = .ok (r, ch', out')) :
    r = .ok ∧ Silent ch' ∧ out' = List.replicate (Lc3Config.new f d).nf 0 := by
  letI := scalar el
  unfold decodeChannel at e
  rw [if_neg (by omega)] at e
  obtain ⟨⟨lines, plc, info⟩, e1, e⟩ := bind_ok_inv e
  simp only at e
  split at e
  · cases e
  obtain ⟨⟨ola, fr⟩, e2, e⟩ := bind_ok_inv e
  obtain ⟨⟨lt, fr2⟩, e3, e⟩ := bind_ok_inv e
  simp only [Res.ok.injEq, Prod.mk.injEq] at e
  obtain ⟨rfl, rfl, rfl⟩ := e
  have h1 : AllZn lines ∧ AllZn plc.lastGood := by
    unfold decodeSpectrum at e1
    split at e1
    · rename_i si ad x hrd
      obtain ⟨l, e4, e1⟩ := bind_ok_inv e1
      obtain ⟨p, e5, e1⟩ := bind_ok_inv e1
      simp only [Res.ok.injEq, Prod.mk.injEq] at e1
      obtain ⟨rfl, rfl, rfl⟩ := e1
      obtain ⟨a1, a2, a3⟩ := hr si ad x hrd
      have hl := specFromFrame_zn hi.spec a1 a2 a3 e4
      refine ⟨hl, ?_⟩
      unfold Plc.save at e5
      split at e5
      · cases e5
      · cases e5
        exact (hl.take _).append (hs.good.drop _)
    · simp only [Res.ok.injEq, Prod.mk.injEq] at e1
      obtain ⟨rfl, rfl, rfl⟩ := e1
      exact ⟨plcLoop_zn _ _ _ _ hs.good (by rw [hi.spec, hi.plcLen]), hs.good⟩
    · cases e1
  obtain ⟨z1, z2⟩ := mdctDecRun_zn hs.ola h1.1 e2
  obtain ⟨z3, z4, z5⟩ := ltpfRun_zn hs.x hs.y z2 e3
  refine ⟨rfl, ⟨h1.2, z1, z3, z4⟩, ?_⟩
  have hl : fr2.length = out.length := by
    unfold ltpfRun at e3
    obtain ⟨⟨p, pf⟩, -, e3⟩ := bind_ok_inv e3
    obtain ⟨⟨cn, cd⟩, -, e3⟩ := bind_ok_inv e3
    simp only at e3
    split at e3
    · cases e3
    obtain ⟨y, -, e3⟩ := bind_ok_inv e3
    split at e3
    · cases e3
    simp only [Res.ok.injEq, Prod.mk.injEq] at e3
    obtain ⟨-, rfl⟩ := e3
    rw [List.length_drop, List.length_take, hout]
    omega
  rw [scaleAndRound_zn _ _ z5 hl, hout]

/-- A lost frame is concealed, whatever the frame was. -/
theorem decodeChannel_lost32 {f : SamplingFrequency} {d : FrameDuration} {checks : Bool} {ch : DecChannel F32} (h : ChInv f d ch) {buf : List Nat}
    (out : List Int) (hr : readFrame checks (Lc3Config.new f d) buf = .err) :
    ∃ r, @decodeChannel F32 (scalar el) checks (Lc3Config.new f d) ch 16 buf out = .ok r := by
  letI := scalar el
  have hl : (ch.plc.loadInto ch.specLines).2.length = (Lc3Config.new f d).ne := by
    simp [Plc.loadInto, plcLoop_length, h.spec]
  have hm := safe_mdctDecRun hl h.ola
  have hn := noErr_mdctDecRun (Lc3Config.new f d) ch.memOla (ch.plc.loadInto ch.specLines).2
  unfold decodeChannel decodeSpectrum
  rw [if_neg (by omega), hr]
  simp only [Res.bind_ok]
  rw [if_neg (by simp [h.freq])]
  cases e : mdctDecRun (Lc3Config.new f d) ch.memOla (ch.plc.loadInto ch.specLines).2 with
  | panic => rw [e] at hm; exact hm.elim
  | err => exact absurd e hn
  | ok p =>
    obtain ⟨ola, freq⟩ := p
    rw [e] at hm
    obtain ⟨s', o, e2, -, -⟩ := ltpfRun_inv h.ltpf (info := lostLtpfInfo) (by decide) (buf.length * 8) hm.2
    simp only [Res.bind_ok]
    rw [e2]
    exact ⟨_, rfl⟩

/-! ## Construction in zeroed buffers -/

theorem splitAt_zn {l a b : List F32} {n : Nat} (h : AllZn l) (e : splitAt l n = .ok (a, b)) : AllZn a ∧ AllZn b := by
  unfold splitAt at e
  split at e
  · simp only [Res.ok.injEq, Prod.mk.injEq] at e
    obtain ⟨rfl, rfl⟩ := e
    exact ⟨h.take _, h.drop _⟩
  · cases e

theorem decChannelNew_silent32 {cfg : Lc3Config} {sb sb' : List F32} {cb cb' : List (Cx F32)} {ch : DecChannel F32} (h : AllZn sb)
    (e : @decChannelNew F32 (scalar el) cfg sb cb = .ok (ch, sb', cb')) : Silent ch ∧ AllZn sb' := by
  unfold decChannelNew at e
  obtain ⟨⟨sp, s1⟩, e1, e⟩ := bind_ok_inv e
  obtain ⟨⟨pl, s2⟩, e2, e⟩ := bind_ok_inv e
  obtain ⟨⟨ola, s3, c3⟩, e3, e⟩ := bind_ok_inv e
  obtain ⟨⟨lt, s4⟩, e4, e⟩ := bind_ok_inv e
  obtain ⟨⟨fr, s5⟩, e5, e⟩ := bind_ok_inv e
  simp only [Res.ok.injEq, Prod.mk.injEq] at e
  obtain ⟨rfl, rfl, rfl⟩ := e
  have z1 := (splitAt_zn h e1).2
  have z2 : AllZn pl.lastGood ∧ AllZn s2 := by
    unfold Plc.new at e2
    obtain ⟨⟨l, s⟩, g1, e2⟩ := bind_ok_inv e2
    simp only [Res.ok.injEq, Prod.mk.injEq] at e2
    obtain ⟨rfl, rfl⟩ := e2
    exact splitAt_zn z1 g1
  have z3 : AllZn ola ∧ AllZn s3 := by
    unfold mdctDecNew at e3
    obtain ⟨_, -, e3⟩ := bind_ok_inv e3
    obtain ⟨_, -, e3⟩ := bind_ok_inv e3
    obtain ⟨⟨_, _⟩, g1, e3⟩ := bind_ok_inv e3
    obtain ⟨⟨_, _⟩, g2, e3⟩ := bind_ok_inv e3
    obtain ⟨_, -, e3⟩ := bind_ok_inv e3
    obtain ⟨⟨_, _⟩, g3, e3⟩ := bind_ok_inv e3
    obtain ⟨⟨_, _⟩, g4, e3⟩ := bind_ok_inv e3
    obtain ⟨_, -, e3⟩ := bind_ok_inv e3
    simp only [Res.ok.injEq, Prod.mk.injEq] at e3
    obtain ⟨rfl, rfl, -⟩ := e3
    have a1 := splitAt_zn z2.2 g1
    have a2 := splitAt_zn a1.2 g2
    have a3 := splitAt_zn a2.2 g3
    exact ⟨a1.1, (splitAt_zn a3.2 g4).2⟩
  have z4 : AllZn lt.xMem ∧ AllZn lt.yMem ∧ AllZn s4 := by
    unfold Ltpf.new at e4
    obtain ⟨⟨_, _⟩, g1, e4⟩ := bind_ok_inv e4
    obtain ⟨⟨_, _⟩, g2, e4⟩ := bind_ok_inv e4
    obtain ⟨⟨_, _⟩, g3, e4⟩ := bind_ok_inv e4
    obtain ⟨⟨_, _⟩, g4, e4⟩ := bind_ok_inv e4
    obtain ⟨⟨_, _⟩, g5, e4⟩ := bind_ok_inv e4
    obtain ⟨⟨_, _⟩, g6, e4⟩ := bind_ok_inv e4
    obtain ⟨⟨_, _⟩, g7, e4⟩ := bind_ok_inv e4
    obtain ⟨⟨_, _⟩, g8, e4⟩ := bind_ok_inv e4
    simp only [Res.ok.injEq, Prod.mk.injEq] at e4
    obtain ⟨rfl, rfl⟩ := e4
    have a1 := splitAt_zn z3.2 g1
    have a2 := splitAt_zn a1.2 g2
    have a3 := splitAt_zn a2.2 g3
    have a4 := splitAt_zn a3.2 g4
    have a5 := splitAt_zn a4.2 g5
    have a6 := splitAt_zn a5.2 g6
    have a7 := splitAt_zn a6.2 g7
    exact ⟨a1.1, a2.1, (splitAt_zn a7.2 g8).2⟩
  exact ⟨⟨z2.1, z3.1, z4.1, z4.2.1⟩, (splitAt_zn z4.2.2 e5).2⟩

theorem decChannelsNew_silent32 {cfg : Lc3Config} : ∀ (n : Nat) {sb sb' : List F32} {cb cb' : List (Cx F32)} {chs : List (DecChannel F32)}, AllZn sb →
    @decChannelsNew F32 (scalar el) cfg n sb cb = .ok (chs, sb', cb') → ∀ ch ∈ chs, Silent ch := by
  letI := scalar el
  intro n
  induction n with
  | zero =>
    intro sb sb' cb cb' chs _ e
    rw [decChannelsNew] at e
    cases e
    intro ch hch
    cases hch
  | succ n ih =>
    intro sb sb' cb cb' chs h e
    rw [decChannelsNew] at e
    obtain ⟨⟨c, s1, c1⟩, e1, e⟩ := bind_ok_inv e
    obtain ⟨⟨cs, s2, c2⟩, e2, e⟩ := bind_ok_inv e
    simp only [Res.ok.injEq, Prod.mk.injEq] at e
    obtain ⟨rfl, rfl, rfl⟩ := e
    obtain ⟨z1, z2⟩ := decChannelNew_silent32 h e1
    intro ch hch
    rcases List.mem_cons.1 hch with rfl | hch
    · exact z1
    · exact ih z2 e2 ch hch


end Lc3.F32
