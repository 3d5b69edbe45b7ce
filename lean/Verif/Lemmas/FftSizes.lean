import Verif.Lemmas.Fft
import Verif.Lemmas.NoErr
import Verif.Lemmas.SafeDecoder
/-! Lemmas for `C102`: the transform for sizes with prime factors above five. -/

namespace Lc3
open Scalar

/-! ### The factorisation -/

/-- the radices the loop still has to try, as a number -/
def facLeft (sq p : Nat) : Nat := if p = 4 then sq + 3 else if p = 2 then sq + 2 else sq + 1 - p

theorem kfFactorLoop_total (sq : Nat) : ∀ (fuel p n : Nat), 1 ≤ n →
    (p = n ∧ 0 < fuel) ∨ ((p = 4 ∨ p = 2 ∨ (3 ≤ p ∧ p ≤ sq ∧ p ≠ 4)) ∧ n + facLeft sq p < fuel) →
    ∃ fac, kfFactorLoop sq fuel p n = .ok fac
  | 0, _, _, _, h => by omega
  | fuel + 1, p, n, hn, hp => by
    rw [kfFactorLoop]
    by_cases he : p = n
    · subst he
      rw [if_neg (by simp), Nat.div_self (by omega), if_pos le_rfl]
      exact ⟨_, rfl⟩
    rcases hp with ⟨h, -⟩ | ⟨hp, hf⟩
    · exact absurd h he
    have hpp : 2 ≤ p := by omega
    by_cases hd : n % p = 0
    · rw [if_neg (by simpa using hd)]
      by_cases h1 : n / p ≤ 1
      · rw [if_pos h1]
        exact ⟨_, rfl⟩
      · rw [if_neg h1]
        have hlt : n / p < n := Nat.div_lt_self (by omega) (by omega)
        obtain ⟨l, hl⟩ := kfFactorLoop_total sq fuel p (n / p) (by omega) (.inr ⟨hp, by omega⟩)
        rw [hl]
        exact ⟨_, rfl⟩
    · rw [if_pos hd]
      obtain ⟨p', hp'⟩ : ∃ p', (if p = 4 then 2 else if p = 2 then 3 else p + 2) = p' := ⟨_, rfl⟩
      simp only [hp']
      refine kfFactorLoop_total sq fuel _ n hn ?_
      by_cases hc : p' > sq
      · exact .inl ⟨by rw [if_pos hc], by omega⟩
      · rw [if_neg hc]
        refine .inr ?_
        unfold facLeft at hf ⊢
        rcases hp with rfl | rfl | ⟨h1, h2, h3⟩
        · simp only [if_true] at hp' hf
          subst hp'
          refine ⟨.inr (.inl rfl), ?_⟩
          simp only [show ¬ (2 = 4) by omega, if_true, if_false]
          omega
        · simp only [show ¬ (2 = 4) by omega, if_true, if_false] at hp' hf
          subst hp'
          refine ⟨.inr (.inr ⟨by omega, by omega, by omega⟩), ?_⟩
          simp only [show ¬ (3 = 4) by omega, show ¬ (3 = 2) by omega, if_false]
          omega
        · rw [if_neg h3, if_neg (by omega)] at hp' hf
          subst hp'
          rw [if_neg (by omega), if_neg (by omega)]
          omega

/-- the factorisation ends for every size -/
theorem kfFactor_total {n : Nat} (hn : 1 ≤ n) : ∃ fac, kfFactor n = .ok fac := by
  refine kfFactorLoop_total _ _ _ _ hn (.inr ⟨.inl rfl, ?_⟩)
  have := Nat.sqrt_le_self n
  unfold facLeft
  rw [if_pos rfl]
  omega

/-- factor lists whose last radix is not one of 2, 3, 4, 5; `k` is the product of the other radices -/
inductive FacGen : List (Nat × Nat) → Nat → Nat → Prop
  | last {p : Nat} (hp : 7 ≤ p) : FacGen [(p, 1)] p 1
  | step {p m k : Nat} {fac : List (Nat × Nat)} (hp : 2 ≤ p) (hm : m ≠ 1) (h : FacGen fac m k) :
      FacGen ((p, m) :: fac) (p * m) (p * k)

/-- a prime factor above five exists -/
def Rough (n : Nat) : Prop := ∃ q, q.Prime ∧ q ∣ n ∧ 7 ≤ q

theorem prime_ge_seven {q : Nat} (hq : q.Prime) (h2 : ¬ q = 2) (h3 : ¬ q = 3) (h5 : ¬ q = 5) : 7 ≤ q := by
  by_contra h
  have := hq.two_le
  obtain rfl | rfl : q = 4 ∨ q = 6 := by omega
  · exact absurd hq (by decide)
  · exact absurd hq (by decide)

/-- states of the factorisation loop -/
def GenState (p n : Nat) : Prop :=
  p = 4 ∨ p = 2 ∨ (p = 3 ∧ ¬ 2 ∣ n) ∨ (p = 5 ∧ ¬ 2 ∣ n ∧ ¬ 3 ∣ n) ∨ (7 ≤ p ∧ ¬ 2 ∣ n ∧ ¬ 3 ∣ n ∧ ¬ 5 ∣ n) ∨ p = n

theorem Rough.ge {n : Nat} (hn : 1 ≤ n) (h : Rough n) : 7 ≤ n := by
  obtain ⟨q, -, hd, h7⟩ := h
  exact h7.trans (Nat.le_of_dvd hn hd)

theorem kfFactorLoop_gen (sq : Nat) : ∀ (fuel p n : Nat) (fac : List (Nat × Nat)), 1 ≤ n → Rough n → GenState p n →
    kfFactorLoop sq fuel p n = .ok fac → ∃ k, FacGen fac n k ∧ 7 * k ≤ n
  | 0, _, _, _, _, _, _, h => by cases h
  | fuel + 1, p, n, fac, hn, hr, hst, h => by
    have h7 := hr.ge hn
    rw [kfFactorLoop] at h
    by_cases hd : n % p = 0
    · rw [if_neg (by simpa using hd)] at h
      have hdvd : p ∣ n := Nat.dvd_of_mod_eq_zero hd
      have hmul : p * (n / p) = n := Nat.mul_div_cancel' hdvd
      have hp2 : 2 ≤ p := by rcases hst with h | h | h | h | h | h <;> omega
      by_cases h1 : n / p ≤ 1
      · rw [if_pos h1] at h
        have e1 : n / p = 1 := by
          rcases Nat.eq_zero_or_pos (n / p) with h0 | h0
          · rw [h0] at hmul; omega
          · omega
        rw [e1] at h hmul
        have e2 : p = n := by omega
        subst e2
        cases h
        exact ⟨1, FacGen.last h7, by omega⟩
      · rw [if_neg h1] at h
        obtain ⟨l, hl, h⟩ := bind_ok_inv h
        cases h
        have hdd : (n / p) ∣ n := Nat.div_dvd_of_dvd hdvd
        have hr' : Rough (n / p) := by
          have hsmall : p ≤ 5 → Rough (n / p) := by
            intro h5
            obtain ⟨q, hq, hqd, hq7⟩ := hr
            refine ⟨q, hq, ?_, hq7⟩
            rw [← hmul] at hqd
            rcases hq.dvd_mul.1 hqd with h | h
            · have := Nat.le_of_dvd (by omega) h; omega
            · exact h
          rcases hst with h | h | h | h | ⟨h, n2, n3, n5⟩ | h
          · exact hsmall (by omega)
          · exact hsmall (by omega)
          · exact hsmall (by omega)
          · exact hsmall (by omega)
          · obtain ⟨q, hq, hqd⟩ := Nat.exists_prime_and_dvd (show n / p ≠ 1 by omega)
            refine ⟨q, hq, hqd, prime_ge_seven hq ?_ ?_ ?_⟩ <;> rintro rfl
            · exact n2 (hqd.trans hdd)
            · exact n3 (hqd.trans hdd)
            · exact n5 (hqd.trans hdd)
          · subst h
            rw [Nat.div_self (by omega)] at h1
            omega
        obtain ⟨k, hk, hk7⟩ := kfFactorLoop_gen sq fuel p (n / p) l (by omega) hr' (by
          rcases hst with h | h | ⟨h, n2⟩ | ⟨h, n2, n3⟩ | ⟨h, n2, n3, n5⟩ | h
          · exact .inl h
          · exact .inr (.inl h)
          · exact .inr (.inr (.inl ⟨h, fun c => n2 (c.trans hdd)⟩))
          · exact .inr (.inr (.inr (.inl ⟨h, fun c => n2 (c.trans hdd), fun c => n3 (c.trans hdd)⟩)))
          · exact .inr (.inr (.inr (.inr (.inl ⟨h, fun c => n2 (c.trans hdd), fun c => n3 (c.trans hdd),
              fun c => n5 (c.trans hdd)⟩))))
          · subst h
            rw [Nat.div_self (by omega)] at h1
            omega) hl
        have := FacGen.step hp2 (by omega : n / p ≠ 1) hk
        rw [hmul] at this
        refine ⟨_, this, ?_⟩
        calc 7 * (p * k) = p * (7 * k) := by ring
          _ ≤ p * (n / p) := Nat.mul_le_mul_left _ hk7
          _ = n := hmul
    · rw [if_pos hd] at h
      have hnd : ¬ p ∣ n := fun c => hd (Nat.mod_eq_zero_of_dvd c)
      obtain ⟨p', hp'⟩ : ∃ p', (if p = 4 then 2 else if p = 2 then 3 else p + 2) = p' := ⟨_, rfl⟩
      simp only [hp'] at h
      refine kfFactorLoop_gen sq fuel _ n fac hn hr ?_ h
      by_cases hc : p' > sq
      · rw [if_pos hc]
        exact .inr (.inr (.inr (.inr (.inr rfl))))
      · rw [if_neg hc]
        rcases hst with rfl | rfl | ⟨rfl, n2⟩ | ⟨rfl, n2, n3⟩ | ⟨h7p, n2, n3, n5⟩ | rfl
        · exact .inr (.inl hp'.symm)
        · exact .inr (.inr (.inl ⟨hp'.symm, hnd⟩))
        · exact .inr (.inr (.inr (.inl ⟨hp'.symm, n2, hnd⟩)))
        · exact .inr (.inr (.inr (.inr (.inl ⟨by rw [← hp']; simp, n2, n3, hnd⟩))))
        · refine .inr (.inr (.inr (.inr (.inl ⟨?_, n2, n3, n5⟩))))
          rw [if_neg (by omega), if_neg (by omega)] at hp'
          omega
        · exact absurd (Nat.mod_self _) hd

/-! ### What the transform reads -/

/-- a sequence of steps that returns has one result per step, each returned by some step -/
theorem mapM_parts {β γ : Type} {f : β → Res γ} : ∀ {l : List β} {r : List γ}, l.mapM f = .ok r →
    r.length = l.length ∧ ∀ b ∈ r, ∃ a, f a = .ok b
  | [], _, h => by
    cases h
    exact ⟨rfl, fun b hb => by cases hb⟩
  | a :: l, r, h => by
    rw [mapM_cons'] at h
    obtain ⟨c, hc, h⟩ := bind_ok_inv h
    obtain ⟨cs, hcs, h⟩ := bind_ok_inv h
    cases h
    obtain ⟨h1, h2⟩ := mapM_parts hcs
    refine ⟨by simp [h1], fun b hb => ?_⟩
    rcases List.mem_cons.1 hb with rfl | hb
    · exact ⟨a, hc⟩
    · exact h2 b hb

theorem noErr_fft {α : Type} [Scalar α] (inv : Bool) (x : List (Cx α)) : NoErr (fft inv x) := by
  unfold fft kfFactor
  exact (noErr_kfFactorLoop _ _ _ _).bind fun _ => noErr_kfWork _ _ _ _ _ _ _

section
variable {α : Type} [Scalar α]

theorem bflyCol_generic {inv : Bool} {p : Nat} {tw blk : List (Cx α)} {fs m rest i : Nat} (hp : 7 ≤ p) :
    bflyCol inv p tw blk fs m rest i = bflyGeneric p tw blk fs m rest i := by
  unfold bflyCol
  split
  · omega
  · omega
  · omega
  · omega
  · rfl

theorem bflyBlock_length {inv : Bool} {p m fs rest : Nat} {tw blk r : List (Cx α)} (h : bflyBlock inv p tw blk fs m rest = .ok r) :
    r.length = p * m := by
  unfold bflyBlock at h
  obtain ⟨cols, h1, h⟩ := bind_ok_inv h
  obtain ⟨rows, h2, h⟩ := bind_ok_inv h
  cases h
  have l1 := (mapM_parts h1).1
  have l2 := (mapM_parts h2).1
  simp only [List.length_range] at l1 l2
  rw [flatten_length_const (n := m), l2]
  intro row hr
  obtain ⟨j, hj⟩ := (mapM_parts h2).2 _ hr
  rw [(mapM_parts hj).1, l1]

/-- the innermost stage with a generic radix uses only the first entry of its block -/
theorem bflyBlock_blind {inv : Bool} {p : Nat} {tw b b' : List (Cx α)} {fs rest : Nat} (hp : 7 ≤ p) (hl : b.length = b'.length)
    (h : b[0]? = b'[0]?) : bflyBlock inv p tw b fs 1 rest = bflyBlock inv p tw b' fs 1 rest := by
  have hi : idx b 0 = idx b' 0 := by simp only [idx, h]
  have hc : bflyCol inv p tw b fs 1 rest 0 = bflyCol inv p tw b' fs 1 rest 0 := by
    rw [bflyCol_generic hp, bflyCol_generic hp]
    have hs : ((List.range p).mapM fun j => if j < 1 then idx b (0 + j * 1) else (.ok ⟨zero, zero⟩ : Res (Cx α)))
        = (List.range p).mapM fun j => if j < 1 then idx b' (0 + j * 1) else .ok ⟨zero, zero⟩ := by
      congr 1
      funext j
      split
      · obtain rfl : j = 0 := by omega
        exact hi
      · rfl
    unfold bflyGeneric
    rw [hl, hs]
  have e : (List.range 1) = [0] := rfl
  unfold bflyBlock
  rw [e, mapM_cons', mapM_cons', hc]
  rfl

theorem mapM_congr' {β γ : Type} {f g : β → Res γ} : ∀ {l : List β}, (∀ a ∈ l, f a = g a) → l.mapM f = l.mapM g
  | [], _ => rfl
  | a :: l, h => by
    rw [mapM_cons', mapM_cons', h a (by simp), mapM_congr' fun b hb => h b (by simp [hb])]

theorem kfWork_blind {inv : Bool} {tw x y : List (Cx α)} (hl : x.length = y.length) : ∀ (fac : List (Nat × Nat)) (n k fs fi rest : Nat),
    FacGen fac n k → fs * n = x.length → fi < fs → (∀ i, i < k → x[fi + i * fs]? = y[fi + i * fs]?) →
    kfWork inv tw x fac fs fi rest = kfWork inv tw y fac fs fi rest
  | [], _, _, _, _, _, h, _, _, _ => by cases h
  | (p, m) :: fac, n, k, fs, fi, rest, h, hn, hfi, he => by
    cases h with
    | last hp =>
      rw [kfWork, kfWork, if_pos rfl, if_pos rfl]
      have hlt : ∀ i, i < p → fi + i * fs < x.length := by
        intro i hi
        calc fi + i * fs < fs + i * fs := by omega
          _ = fs * (i + 1) := by ring
          _ ≤ fs * p := Nat.mul_le_mul_left _ hi
          _ = x.length := hn
      have rd : ∀ z : List (Cx α), z.length = x.length → ((List.range p).mapM fun i => idx z (fi + i * fs))
          = .ok ((List.range p).map fun i => z.getD (fi + i * fs) ⟨zero, zero⟩) := by
        intro z hz
        refine mapM_range_ok fun i hi => ?_
        have := hlt i hi
        rw [idx_eq_ok (by omega)]
        simp [hz ▸ this]
      rw [rd x rfl, rd y hl.symm, Res.bind_ok, Res.bind_ok]
      refine bflyBlock_blind hp (by simp) ?_
      have h0 := he 0 (by omega)
      simp only [Nat.zero_mul, Nat.add_zero] at h0
      rw [List.getElem?_map, List.getElem?_map, List.getElem?_range (by omega)]
      simp only [Option.map_some, Nat.zero_mul, Nat.add_zero, List.getD_eq_getElem?_getD, h0]
    | @step p m k' fac hp hm h =>
      rw [kfWork, kfWork, if_neg hm, if_neg hm]
      congr 2
      refine mapM_congr' fun i hi => ?_
      have hi' := List.mem_range.1 hi
      refine kfWork_blind hl fac m k' (fs * p) (fi + i * fs) _ h (by rw [← hn]; ring) ?_ ?_
      · calc fi + i * fs < fs + i * fs := by omega
          _ = fs * (i + 1) := by ring
          _ ≤ fs * p := Nat.mul_le_mul_left _ hi'
      · intro t ht
        have e := he (i + t * p) (by
          calc i + t * p < p + t * p := by omega
            _ = p * (t + 1) := by ring
            _ ≤ p * k' := Nat.mul_le_mul_left _ ht)
        rw [show fi + i * fs + t * (fs * p) = fi + (i + t * p) * fs by ring]
        exact e

theorem fft_blind {inv : Bool} {x y : List (Cx α)} (hn : 1 ≤ x.length) (hr : Rough x.length) (hl : x.length = y.length)
    (h : ∀ i, 7 * i < x.length → x[i]? = y[i]?) : fft inv x = fft inv y := by
  unfold fft
  obtain ⟨fac, hf⟩ := kfFactor_total hn
  obtain ⟨k, hg, hk⟩ := kfFactorLoop_gen _ _ _ _ _ hn hr (.inl rfl) hf
  rw [← hl, hf, Res.bind_ok, Res.bind_ok]
  refine kfWork_blind hl fac _ k 1 0 0 hg (by omega) (by omega) fun i hi => ?_
  have := h i (by omega)
  simpa using this

end

end Lc3
