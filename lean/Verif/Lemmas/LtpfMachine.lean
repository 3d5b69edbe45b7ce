import Verif.Model.LtpfMachine
import Verif.Lemmas.EncLtpf
import Mathlib.Tactic.Linarith
/-! Lemmas about the integer types of the pitch analysis: no operation overflows. -/

namespace Lc3
open Scalar Tables

theorem i32Chk_ok {x : Int} (h1 : -2147483648 ≤ x) (h2 : x ≤ 2147483647) : i32Chk x = .ok x := if_pos ⟨h1, h2⟩
theorem i16Chk_okM {x : Int} (h1 : -32768 ≤ x) (h2 : x ≤ 32767) : i16Chk x = .ok x := if_pos ⟨h1, h2⟩
theorem i8Chk_ok {x : Int} (h1 : -128 ≤ x) (h2 : x ≤ 127) : i8Chk x = .ok x := if_pos ⟨h1, h2⟩

theorem asI32_small {n : Nat} (h : n < 2147483648) : asI32 n = n := by unfold asI32; omega
theorem asI16_small {n : Nat} (h : n < 32768) : asI16 n = n := by unfold asI16; omega

theorem divI32_nat {a b : Nat} (hb : 0 < b) (ha : a ≤ 2147483647) : divI32 a b = .ok ((a / b : Nat) : Int) := by
  have h : ((a / b : Nat) : Int) ≤ a := by exact_mod_cast Nat.div_le_self a b
  have h0 : 0 ≤ ((a / b : Nat) : Int) := Int.natCast_nonneg _
  generalize hq : ((a / b : Nat) : Int) = q at *
  unfold divI32
  rw [if_neg (by omega), show Int.tdiv (a : Int) (b : Int) = q from by rw [Int.tdiv_eq_ediv_of_nonneg (by omega), ← hq]; rfl]
  exact i32Chk_ok (by omega) (by omega)

theorem remI32_nat {a b : Nat} (hb : 0 < b) (ha : a ≤ 2147483647) : remI32 a b = .ok ((a % b : Nat) : Int) := by
  have h : ((a % b : Nat) : Int) ≤ a := by exact_mod_cast Nat.mod_le a b
  have h0 : 0 ≤ ((a % b : Nat) : Int) := Int.natCast_nonneg _
  generalize hq : ((a % b : Nat) : Int) = q at *
  unfold remI32
  rw [if_neg (by omega), show Int.tmod (a : Int) (b : Int) = q from by rw [Int.tmod_eq_emod_of_nonneg (by omega), ← hq]; rfl]
  exact i32Chk_ok (by omega) (by omega)

variable {α : Type} [Scalar α]

theorem resampleSumM_eq (xs : List Int) {p n : Nat} (hp : 4 ≤ p) (hp' : p ≤ 24) (hn : n ≤ 128) : ∀ (cnt : Nat) (k : Int) (acc : α),
    -1000 ≤ k → k + cnt ≤ 1000 → resampleSumM xs p n cnt k acc = resampleSum xs p n cnt k acc := by
  intro cnt
  induction cnt with
  | zero => intro k acc _ _; rfl
  | succ cnt ih =>
    intro k acc h1 h2
    push_cast at h2
    have d1 := Nat.div_le_self (15 * n) p
    have d2 := Nat.mod_le (15 * n) p
    have d3 := Nat.div_le_self 120 p
    have d4 := Nat.div_le_self 240 p
    have m1 : (p : Int) * k ≤ 24000 := by nlinarith
    have m2 : -24000 ≤ (p : Int) * k := by nlinarith
    have c15 : (15 * asI32 n : Int) = ((15 * n : Nat) : Int) := by rw [asI32_small (by omega)]; push_cast; rfl
    have f1 := divI32_nat (a := 15 * n) (b := p) (by omega) (by omega)
    have f2 := remI32_nat (a := 15 * n) (b := p) (by omega) (by omega)
    have f3 := divI32_nat (a := 120) (b := p) (by omega) (by omega)
    have f4 := divI32_nat (a := 240) (b := p) (by omega) (by omega)
    rw [Nat.cast_ofNat] at f3 f4
    have c1 : (0 : Int) ≤ ((15 * n / p : Nat) : Int) ∧ ((15 * n / p : Nat) : Int) ≤ 1920 := ⟨Int.natCast_nonneg _, by exact_mod_cast d1.trans (by omega)⟩
    have c2 : (0 : Int) ≤ ((15 * n % p : Nat) : Int) ∧ ((15 * n % p : Nat) : Int) ≤ 1920 := ⟨Int.natCast_nonneg _, by exact_mod_cast d2.trans (by omega)⟩
    have c3 : (0 : Int) ≤ ((120 / p : Nat) : Int) ∧ ((120 / p : Nat) : Int) ≤ 120 := ⟨Int.natCast_nonneg _, by exact_mod_cast d3⟩
    have c4 : (0 : Int) ≤ ((240 / p : Nat) : Int) ∧ ((240 / p : Nat) : Int) ≤ 240 := ⟨Int.natCast_nonneg _, by exact_mod_cast d4⟩
    have c0 : (0 : Int) ≤ ((15 * n : Nat) : Int) ∧ ((15 * n : Nat) : Int) ≤ 1920 := ⟨Int.natCast_nonneg _, by exact_mod_cast (by omega : 15 * n ≤ 1920)⟩
    have e1 := ih (k + 1)
    rw [resampleSumM, resampleSum, c15]
    generalize ((15 * n : Nat) : Int) = T at *
    generalize ((15 * n / p : Nat) : Int) = Dq at *
    generalize ((15 * n % p : Nat) : Int) = Mq at *
    generalize ((120 / p : Nat) : Int) = D1 at *
    generalize ((240 / p : Nat) : Int) = D2 at *
    generalize (p : Int) * k = P at *
    rw [i32Chk_ok (x := T) (by omega) (by omega), Res.bind_ok, f1, Res.bind_ok, i32Chk_ok (x := Dq + k) (by omega) (by omega), Res.bind_ok, f3, Res.bind_ok,
      i32Chk_ok (x := Dq + k - D1) (by omega) (by omega), Res.bind_ok, i32Chk_ok (x := P) (by omega) (by omega), Res.bind_ok, f2, Res.bind_ok,
      i32Chk_ok (x := P - Mq) (by omega) (by omega), Res.bind_ok]
    by_cases hc : -120 < P - Mq ∧ P - Mq < 120
    · rw [if_pos hc, if_pos hc, f4, Res.bind_ok, i32Chk_ok (x := D2 + (Dq + k - D1)) (by omega) (by omega), Res.bind_ok]
      cases idx xs (i32AsUsize (D2 + (Dq + k - D1))) with
      | err => simp only [Res.bind_err]
      | panic => simp only [Res.bind_panic]
      | ok v =>
        rw [Res.bind_ok, Res.bind_ok, i32Chk_ok (x := 119 + (P - Mq)) (by omega) (by omega), Res.bind_ok]
        cases idx TAB_RESAMP_FILTER (i32AsUsize (119 + (P - Mq))) with
        | err => simp only [Res.bind_err]
        | panic => simp only [Res.bind_panic]
        | ok w =>
          simp only [Res.bind_ok]
          exact e1 _ (by omega) (by omega)
    · rw [if_neg hc, if_neg hc]
      simp only [Res.bind_ok]
      exact e1 _ (by omega) (by omega)

theorem resampleAllM_eq (f : SamplingFrequency) (d : FrameDuration) (xs : List Int) : ∀ (cnt n : Nat), n + cnt ≤ 128 →
    resampleAllM (α := α) (Lc3Config.new f d) xs n cnt = resampleAll (Lc3Config.new f d) xs n cnt := by
  obtain ⟨hp, -⟩ := upFactor_cases f d
  have hp4 : 4 ≤ upFactorOf (Lc3Config.new f d).fs := by omega
  have hp24 : upFactorOf (Lc3Config.new f d).fs ≤ 24 := by omega
  have hdiv : divI32 (-120) (upFactorOf (Lc3Config.new f d).fs : Int) = .ok (-((120 / upFactorOf (Lc3Config.new f d).fs : Nat) : Int)) := by
    rcases hp with h | h | h | h | h <;> rw [h] <;> rfl
  intro cnt
  induction cnt with
  | zero => intro n _; rfl
  | succ cnt ih =>
    intro n hn
    have d3 := Nat.div_le_self 120 (upFactorOf (Lc3Config.new f d).fs)
    have f3 := divI32_nat (a := 120) (b := upFactorOf (Lc3Config.new f d).fs) (by omega) (by omega)
    rw [Nat.cast_ofNat] at f3
    rw [resampleAllM, resampleAll, asI32_small (by omega), hdiv, Res.bind_ok, f3, Res.bind_ok,
      show ((((120 / upFactorOf (Lc3Config.new f d).fs : Nat) : Int) - -((120 / upFactorOf (Lc3Config.new f d).fs : Nat) : Int) + 1).toNat)
        = 2 * (120 / upFactorOf (Lc3Config.new f d).fs) + 1 by omega,
      resampleSumM_eq xs hp4 hp24 (by omega) _ _ _ (by omega) (by
        rw [Nat.cast_succ, Nat.cast_mul]
        generalize 120 / upFactorOf (Lc3Config.new f d).fs = q at *
        omega), ih _ (by omega)]

theorem interpolateRM_eq (r : List α) {rel : Nat} (hr : rel < 1000) {d : Int} (h3 : -3 ≤ d) (h3' : d ≤ 3) : ∀ (cnt : Nat) (m : Int) (acc : α),
    -4 ≤ m → m + cnt ≤ 5 → interpolateRM r rel d cnt m acc = interpolateR r rel d cnt m acc := by
  intro cnt
  induction cnt with
  | zero => intro m acc _ _; rfl
  | succ cnt ih =>
    intro m acc h1 h2
    push_cast at h2
    rw [interpolateRM, interpolateR, i8Chk_ok (by omega) (by omega), Res.bind_ok, i8Chk_ok (by omega) (by omega), Res.bind_ok]
    by_cases hc : -16 < 4 * m - d ∧ 4 * m - d < 16
    · rw [if_pos hc, if_pos hc, i8Chk_ok (by omega) (by omega), Res.bind_ok]
      cases idx TAB_LTPF_INTERP_R (i32AsUsize (4 * m - d + 15)) with
      | err => simp only [Res.bind_err]
      | panic => simp only [Res.bind_panic]
      | ok h =>
        rw [Res.bind_ok, Res.bind_ok, asI32_small (by omega), i32Chk_ok (by omega) (by omega), Res.bind_ok]
        cases idx r (i32AsUsize ((rel : Int) + m)) with
        | err => simp only [Res.bind_err]
        | panic => simp only [Res.bind_panic]
        | ok v =>
          simp only [Res.bind_ok]
          exact ih _ _ (by omega) (by omega)
    · rw [if_neg hc, if_neg hc]
      simp only [Res.bind_ok]
      exact ih _ _ (by omega) (by omega)

theorem bestFractionM_eq (r : List α) {rel : Nat} (hr : rel < 1000) : ∀ (ds : List Int) (m : α) (fr : Int), (∀ d ∈ ds, -3 ≤ d ∧ d ≤ 3) →
    bestFractionM r rel ds m fr = bestFraction r rel ds m fr
  | [], _, _, _ => rfl
  | d :: ds, m, fr, h => by
    obtain ⟨a, b⟩ := h d (by simp)
    have ht : ∀ d ∈ ds, -3 ≤ d ∧ d ≤ 3 := fun d hd => h d (by simp [hd])
    rw [bestFractionM, bestFraction, interpolateRM_eq r hr a b _ _ _ (by omega) (by omega)]
    cases interpolateR r rel d 9 (-4) zero with
    | err => simp only [Res.bind_err]
    | panic => simp only [Res.bind_panic]
    | ok v =>
      simp only [Res.bind_ok]
      rw [bestFractionM_eq r hr ds v d ht, bestFractionM_eq r hr ds m fr ht]

omit [Scalar α] in
theorem fractionsOf_small (p : Nat) : ∀ d ∈ fractionsOf p, -3 ≤ d ∧ d ≤ 3 := by
  intro d hd
  unfold fractionsOf at hd
  split at hd
  · simp at hd; omega
  · split at hd
    · simp at hd; omega
    · split at hd
      · simp at hd; omega
      · simp at hd

theorem pitchIndexOfM_eq {p : Nat} {fr : Int} (hp : p ≤ 1000) (h1 : -3 ≤ fr) (h2 : fr ≤ 3) : pitchIndexOfM p fr = .ok (pitchIndexOf p fr) := by
  unfold pitchIndexOfM pitchIndexOf
  rw [asI32_small (by omega)]
  have hd : divI32 fr 2 = .ok (Int.tdiv fr 2) := by
    unfold divI32
    rw [if_neg (by norm_num)]
    have : fr = -3 ∨ fr = -2 ∨ fr = -1 ∨ fr = 0 ∨ fr = 1 ∨ fr = 2 ∨ fr = 3 := by omega
    rcases this with rfl | rfl | rfl | rfl | rfl | rfl | rfl <;> rfl
  have ht : -1 ≤ Int.tdiv fr 2 ∧ Int.tdiv fr 2 ≤ 1 := by
    have : fr = -3 ∨ fr = -2 ∨ fr = -1 ∨ fr = 0 ∨ fr = 1 ∨ fr = 2 ∨ fr = 3 := by omega
    rcases this with rfl | rfl | rfl | rfl | rfl | rfl | rfl <;> decide
  split
  · rw [i32Chk_ok (by omega) (by omega), Res.bind_ok, i32Chk_ok (by omega) (by omega), Res.bind_ok, i32Chk_ok (by omega) (by omega), Res.bind_ok]
  · split
    · rw [i32Chk_ok (by omega) (by omega), Res.bind_ok, hd, Res.bind_ok, i32Chk_ok (by omega) (by omega), Res.bind_ok,
        i32Chk_ok (by omega) (by omega), Res.bind_ok]
    · rfl

theorem pitchLagParameterM_eq (cfg : Lc3Config) (xt : List α) {t : Nat} (h1 : 17 ≤ t) (h2 : t ≤ 114)
    (hx : NMEM_12P8D + len12p8Of cfg.nMs ≤ xt.length) : pitchLagParameterM cfg xt t = pitchLagParameter cfg xt t := by
  unfold pitchLagParameterM pitchLagParameter
  rw [usub_of_le (by omega)]; simp only [Res.bind_ok]
  rw [usub_of_le (by omega)]; simp only [Res.bind_ok]
  rw [usub_of_le (by omega)]; simp only [Res.bind_ok]
  rw [if_neg (by omega), if_neg (by omega)]
  obtain ⟨r, b, hr, hl, b1, b2⟩ := lagSearch_ok xt (len12p8Of cfg.nMs) (Max.max 32 (2 * t - 4)) (Min.min 228 (2 * t + 4)) hx
    (Min.min 228 (2 * t + 4) + 4 - (Max.max 32 (2 * t - 4) - 4) + 1) (Max.max 32 (2 * t - 4) - 4) zero (Max.max 32 (2 * t - 4))
    (by omega) (le_refl _) (by omega)
  rw [hr]; simp only [Res.bind_ok]
  rw [usub_of_le (by omega)]; simp only [Res.bind_ok]
  rw [bestFractionM_eq r (by omega) _ _ _ (fractionsOf_small b)]
  obtain ⟨fr, hfr, hm⟩ := bestFraction_ok r (b - (Max.max 32 (2 * t - 4) - 4)) (by omega) (by omega) (by omega)
    (fractionsOf b) zero 0
  rw [hfr]; simp only [Res.bind_ok]
  have hf : -3 ≤ fr ∧ fr ≤ 3 := by
    rcases hm with rfl | hm
    · omega
    · exact fractionsOf_small b fr hm
  split
  · rw [usub_of_le (by omega)]; simp only [Res.bind_ok]
    rw [i8Chk_ok (by omega) (by omega)]; simp only [Res.bind_ok]
    rw [pitchIndexOfM_eq (by omega) (by omega) (by omega)]; simp only [Res.bind_ok]
  · simp only [Res.bind_ok]
    rw [pitchIndexOfM_eq (by omega) (by omega) (by omega)]; simp only [Res.bind_ok]

theorem interpXM_eq (xt : List α) {n d : Int} (hn : -1000 ≤ n) (hn' : n ≤ 1000) (h3 : -3 ≤ d) (h3' : d ≤ 3) : ∀ (cnt : Nat) (k : Int) (acc : α),
    -2 ≤ k → k + cnt ≤ 3 → interpXM xt n d cnt k acc = interpX xt n d cnt k acc := by
  intro cnt
  induction cnt with
  | zero => intro k acc _ _; rfl
  | succ cnt ih =>
    intro k acc h1 h2
    push_cast at h2
    have e0 : NMEM_12P8D = 232 := rfl
    rw [interpXM, interpX, i16Chk_okM (by omega) (by omega), Res.bind_ok, i16Chk_okM (by omega) (by omega), Res.bind_ok, e0, asI16_small (by omega)]
    by_cases hc : -8 < 4 * k - d ∧ 4 * k - d < 8
    · rw [if_pos hc, if_pos hc, i16Chk_okM (by omega) (by omega), Res.bind_ok, i16Chk_okM (by omega) (by omega), Res.bind_ok]
      cases idx xt (i32AsUsize (((232 : Nat) : Int) + n - k)) with
      | err => simp only [Res.bind_err]
      | panic => simp only [Res.bind_panic]
      | ok v =>
        rw [Res.bind_ok, Res.bind_ok, i16Chk_okM (by omega) (by omega), Res.bind_ok]
        cases idx TAB_LTPF_INTERP_X12K8 (i32AsUsize (4 * k - d + 7)) with
        | err => simp only [Res.bind_err]
        | panic => simp only [Res.bind_panic]
        | ok c =>
          simp only [Res.bind_ok]
          exact ih _ _ (by omega) (by omega)
    · rw [if_neg hc, if_neg hc]
      simp only [Res.bind_ok]
      exact ih _ _ (by omega) (by omega)

theorem activationSumsM_eq (xt : List α) {p : Nat} {fr : Int} (hp : p ≤ 800) (h3 : -3 ≤ fr) (h3' : fr ≤ 3) : ∀ (cnt n : Nat) (s : α × α × α),
    n + cnt ≤ 128 → activationSumsM xt p fr n cnt s = activationSums xt p fr n cnt s := by
  intro cnt
  induction cnt with
  | zero => intro n s _; rw [activationSumsM, activationSums]
  | succ cnt ih =>
    intro n ⟨a, b, c⟩ h
    rw [activationSumsM, activationSums, asI16_small (by omega), asI16_small (by omega), interpXM_eq xt (by omega) (by omega) (by omega) (by omega) _ _ _
      (by omega) (by omega)]
    cases interpX xt (n : Int) 0 5 (-2) zero with
    | err => simp only [Res.bind_err]
    | panic => simp only [Res.bind_panic]
    | ok v =>
      rw [Res.bind_ok, Res.bind_ok, i16Chk_okM (by omega) (by omega), Res.bind_ok, interpXM_eq xt (by omega) (by omega) h3 h3' _ _ _ (by omega) (by omega)]
      cases interpX xt ((n : Int) - p) fr 5 (-2) zero with
      | err => simp only [Res.bind_err]
      | panic => simp only [Res.bind_panic]
      | ok w =>
        rw [Res.bind_ok, Res.bind_ok]
        exact ih _ _ (by omega)

theorem activationBitM_eq (cfg : Lc3Config) (s : EncLtpf α) {p : Nat} {fr : Int} (nn g : Bool) (hp : p ≤ 800) (h3 : -3 ≤ fr) (h3' : fr ≤ 3) :
    activationBitM cfg s p fr nn g = activationBit cfg s p fr nn g := by
  unfold activationBitM activationBit
  rw [activationSumsM_eq s.xt hp h3 h3' _ _ _ (by cases cfg.nMs <;> decide)]

end Lc3
