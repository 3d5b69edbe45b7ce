import Verif.Lemmas.DecStep
import Verif.Lemmas.TableFacts
/-! The entropy-coding functions of the encoder as event lists, and the matching decoder functions. -/

namespace Lc3
open Tables

/-- the event of coding symbol `i` with a model -/
def modelEv (cum freq : List Nat) (i : Nat) : Ev := .sym (cum.getD i 0) (freq.getD i 0)

theorem modelEv_eq {cum freq : List Nat} (h : ProperModel cum freq) {i : Nat} (hi : i < freq.length) :
    modelEv cum freq i = .sym (freq.take i).sum freq[i] := by
  unfold modelEv
  rw [List.getD_eq_getElem?_getD, h.prefixSums i hi, List.getD_eq_getElem _ _ hi]
  rfl

theorem modelEv_valid {cum freq : List Nat} (h : ProperModel cum freq) {i : Nat} (hi : i < freq.length) :
    (modelEv cum freq i).Valid := by
  rw [modelEv_eq h hi]; exact h.valid hi

theorem acDecode_model {buf : List Nat} {σ : ASt} {cum freq : List Nat} (hm : ProperModel cum freq)
    {i : Nat} (hi : i < freq.length) (ho : σ.Ok) (h : Good buf (σ.step (modelEv cum freq i))) :
    acDecode buf (decRd σ) (decAc buf σ) cum freq =
      .ok (i, decAc buf (σ.step (modelEv cum freq i)), decRd (σ.step (modelEv cum freq i))) := by
  rw [modelEv_eq hm hi] at h ⊢
  exact acDecode_sym hm hi ho h

theorem bind_ok_right {α} (x : Res α) : (x >>= fun a => Res.ok a) = x := by cases x <;> rfl

theorem runEv_singleton_sym (c f : Nat) (s : EncSt) : runEv [.sym c f] s = acEncode s c f := by
  show (acEncode s c f >>= fun s => Res.ok s) = _
  exact bind_ok_right _

theorem runEv_singleton_bit (b : Bool) (s : EncSt) : runEv [.bit b] s = s.bool b := by
  show (s.bool b >>= fun s => Res.ok s) = _
  exact bind_ok_right _

theorem encModel_eq {cum freq : List Nat} (h : ProperModel cum freq) {i : Nat} (hi : i < freq.length)
    (s : EncSt) :
    (do let c ← idx cum i; let f ← idx freq i; acEncode s c f) = runEv [modelEv cum freq i] s := by
  have hc : i < cum.length := by rw [h.len]; exact hi
  rw [idx_eq_ok hc, idx_eq_ok hi]
  simp only [Res.bind_ok]
  unfold modelEv
  rw [runEv_singleton_sym, List.getD_eq_getElem _ _ hc, List.getD_eq_getElem _ _ hi]

/-! ### spectral symbols -/

/-- model number for context `t` and escape level `lev` -/
def specPki (t lev : Nat) : Nat := AC_SPEC_LOOKUP.getD (t + min lev 3 * 1024) 0

def specEv (t lev sym : Nat) : Ev :=
  modelEv (AC_SPEC_CUMFREQ.getD (specPki t lev) []) (AC_SPEC_FREQ.getD (specPki t lev) []) sym

theorem specPki_lt (t lev : Nat) : specPki t lev < 64 := by
  unfold specPki
  by_cases h : t + min lev 3 * 1024 < AC_SPEC_LOOKUP.length
  · rw [List.getD_eq_getElem _ _ h]; exact lookup_lt' h
  · rw [List.getD_eq_default _ _ (by omega)]; omega

theorem spec_model (t lev : Nat) :
    ProperModel (AC_SPEC_CUMFREQ.getD (specPki t lev) []) (AC_SPEC_FREQ.getD (specPki t lev) []) ∧
    (AC_SPEC_FREQ.getD (specPki t lev) []).length = 17 := by
  have h := specPki_lt t lev
  have h1 : specPki t lev < AC_SPEC_CUMFREQ.length := by rw [spec_cum_len]; exact h
  have h2 : specPki t lev < AC_SPEC_FREQ.length := by rw [spec_freq_len]; exact h
  rw [List.getD_eq_getElem _ _ h1, List.getD_eq_getElem _ _ h2]
  exact spec_proper h1 h2

theorem idx_getD {α} {l : List α} {i : Nat} (d : α) (h : i < l.length) : idx l i = .ok (l.getD i d) := by
  rw [idx_eq_ok h, List.getD_eq_getElem _ _ h]

theorem spec_lookup {t lev : Nat} (ht : t < 1024) :
    idx AC_SPEC_LOOKUP (t + min lev 3 * 1024) = .ok (specPki t lev) := by
  unfold specPki
  exact idx_getD 0 (by rw [lookup_len]; omega)

theorem spec_cum_idx (t lev : Nat) : idx AC_SPEC_CUMFREQ (specPki t lev) =
    .ok (AC_SPEC_CUMFREQ.getD (specPki t lev) []) :=
  idx_getD [] (by rw [spec_cum_len]; exact specPki_lt t lev)

theorem spec_freq_idx (t lev : Nat) : idx AC_SPEC_FREQ (specPki t lev) =
    .ok (AC_SPEC_FREQ.getD (specPki t lev) []) :=
  idx_getD [] (by rw [spec_freq_len]; exact specPki_lt t lev)

theorem encSym_eq {t lev sym : Nat} (ht : t < 1024) (hs : sym < 17) (s : EncSt) :
    encSym t lev sym s = runEv [specEv t lev sym] s := by
  unfold encSym
  rw [spec_lookup ht]
  simp only [Res.bind_ok, spec_cum_idx, spec_freq_idx]
  obtain ⟨h1, h2⟩ := spec_model t lev
  exact encModel_eq h1 (by omega) s

theorem specEv_valid {t lev sym : Nat} (hs : sym < 17) : (specEv t lev sym).Valid := by
  obtain ⟨h1, h2⟩ := spec_model t lev
  exact modelEv_valid h1 (by omega)

theorem specEv_dec {buf : List Nat} {σ : ASt} {t lev sym : Nat} (hs : sym < 17) (ho : σ.Ok)
    (h : Good buf (σ.step (specEv t lev sym))) :
    acDecode buf (decRd σ) (decAc buf σ) (AC_SPEC_CUMFREQ.getD (specPki t lev) [])
        (AC_SPEC_FREQ.getD (specPki t lev) []) =
      .ok (sym, decAc buf (σ.step (specEv t lev sym)), decRd (σ.step (specEv t lev sym))) := by
  obtain ⟨h1, h2⟩ := spec_model t lev
  exact acDecode_model h1 (by omega) ho h

/-! ### escapes -/

/-- bits written in one round of the escape loop -/
def escBits (lsb : Bool) (a b lev : Nat) : List Bool :=
  if lsb && lev == 0 then [] else [a &&& 1 == 1, b &&& 1 == 1]

/-- the escape loop: events and final `(a, b, lev)` -/
def escRun (lsb : Bool) (t : Nat) : Nat → Nat → Nat → Nat → List Ev × Nat × Nat × Nat
  | 0, a, b, lev => ([], a, b, lev)
  | n + 1, a, b, lev =>
    if max a b ≥ 4 then
      (specEv t lev 16 :: ((escBits lsb a b lev).map .bit ++ (escRun lsb t n (a >>> 1) (b >>> 1) (lev + 1)).1),
        (escRun lsb t n (a >>> 1) (b >>> 1) (lev + 1)).2)
    else ([], a, b, lev)

theorem encEscapes_eq {lsb : Bool} {t : Nat} (ht : t < 1024) (n a b lev : Nat)
    (hab : max a b < 4 * 2 ^ n) (s : EncSt) :
    encEscapes lsb t n a b lev s =
      (runEv (escRun lsb t n a b lev).1 s >>= fun s => .ok ((escRun lsb t n a b lev).2, s)) := by
  induction n generalizing a b lev s with
  | zero =>
    unfold encEscapes escRun
    rw [if_neg (by omega)]
    rfl
  | succ n ih =>
    rw [encEscapes.eq_def]
    unfold escRun
    by_cases h4 : max a b ≥ 4
    · simp only [h4, if_true]
      rw [encSym_eq ht (by omega)]
      have hr : ∀ es s, runEv (specEv t lev 16 :: es) s = (runEv [specEv t lev 16] s >>= runEv es) := by
        intro es s
        rw [← runEv_append]; rfl
      rw [hr (_ ++ _), Res.bind_assoc]
      congr 1
      funext s1
      rw [runEv_append, runEv_bits]
      have hbits : (if lsb && lev == 0 then Res.ok s1 else do
            let s ← s1.bool (a &&& 1 == 1)
            s.bool (b &&& 1 == 1)) = encBools (escBits lsb a b lev) s1 := by
        unfold escBits
        by_cases h : lsb && lev == 0
        · simp [h, encBools]
        · simp only [h, Bool.false_eq_true, if_false, encBools, bind_ok_right]
      rw [hbits, Res.bind_assoc]
      congr 1
      funext s2
      apply ih
      rw [Nat.shiftRight_one, Nat.shiftRight_one]
      rw [pow_succ] at hab
      omega
    · simp only [h4, if_false]
      rfl

theorem escRun_valid (lsb : Bool) (t n a b lev : Nat) : ∀ e ∈ (escRun lsb t n a b lev).1, e.Valid := by
  induction n generalizing a b lev with
  | zero => intro e he; simp [escRun] at he
  | succ n ih =>
    intro e he
    unfold escRun at he
    by_cases h4 : max a b ≥ 4
    · simp only [h4, if_true, List.mem_cons, List.mem_append, List.mem_map] at he
      rcases he with rfl | ⟨b', _, rfl⟩ | he
      · exact specEv_valid (by omega)
      · trivial
      · exact ih _ _ _ e he
    · simp [h4] at he

/-- the low bits of a magnitude that have been transmitted after `lev` escapes -/
def lowPart (lsb : Bool) (a lev : Nat) : Nat :=
  if lsb then a % 2 ^ lev / 2 * 2 else a % 2 ^ lev

theorem lowPart_zero (lsb : Bool) (a : Nat) : lowPart lsb a 0 = 0 := by
  unfold lowPart; split <;> simp [Nat.mod_one]

theorem mod_pow_succ (a lev : Nat) : a % 2 ^ (lev + 1) = a % 2 ^ lev + (a / 2 ^ lev % 2) * 2 ^ lev := by
  rw [pow_succ, Nat.mod_mul]; ring

theorem lowPart_succ (lsb : Bool) (a lev : Nat) :
    lowPart lsb a (lev + 1) = lowPart lsb a lev +
      (if lsb && lev == 0 then 0 else (a / 2 ^ lev &&& 1 == 1).toNat <<< lev) := by
  have hb : (a / 2 ^ lev &&& 1 == 1).toNat = a / 2 ^ lev % 2 := by
    rw [Nat.and_one_is_mod]
    rcases Nat.mod_two_eq_zero_or_one (a / 2 ^ lev) with h | h <;> rw [h] <;> rfl
  rw [hb, Nat.shiftLeft_eq]
  unfold lowPart
  cases lsb with
  | false => simp only [Bool.false_and, Bool.false_eq_true, if_false]; exact mod_pow_succ a lev
  | true =>
    simp only [if_true, Bool.true_and, beq_iff_eq]
    cases lev with
    | zero => simp [Nat.mod_one]
    | succ l =>
      rw [if_neg (by omega), mod_pow_succ a (l + 1)]
      have hp : (2 : Nat) ^ (l + 1) = 2 * 2 ^ l := by rw [pow_succ]; ring
      rw [show a / 2 ^ (l + 1) % 2 * 2 ^ (l + 1) = 2 * (a / 2 ^ (l + 1) % 2 * 2 ^ l) by rw [hp]; ring]
      omega

theorem escRun_spec (lsb : Bool) (t n a b lev : Nat) (hab : max a b < 4 * 2 ^ n) :
    ∃ k, k ≤ n ∧ (escRun lsb t n a b lev).2 = (a / 2 ^ k, b / 2 ^ k, lev + k) ∧
      a / 2 ^ k < 4 ∧ b / 2 ^ k < 4 ∧ (0 < k → 4 ≤ max a b) ∧ (k = 0 → max a b < 4) ∧
      (∀ m, m < k → 4 ≤ max (a / 2 ^ m) (b / 2 ^ m)) := by
  induction n generalizing a b lev with
  | zero => exact ⟨0, le_refl _, by simp [escRun], by simp; omega, by simp; omega, by omega, by omega, by omega⟩
  | succ n ih =>
    unfold escRun
    by_cases h4 : max a b ≥ 4
    · rw [if_pos h4]
      obtain ⟨k, h1, h2, h3, h5, -, -, h6⟩ := ih (a >>> 1) (b >>> 1) (lev + 1)
        (by rw [Nat.shiftRight_one, Nat.shiftRight_one]; rw [pow_succ] at hab; omega)
      have e1 : ∀ k (x : Nat), (x >>> 1) / 2 ^ k = x / 2 ^ (k + 1) := by
        intro k x; rw [Nat.shiftRight_one, Nat.div_div_eq_div_mul, pow_succ]; congr 1; ring
      rw [e1] at h3 h5
      refine ⟨k + 1, by omega, ?_, h3, h5, fun _ => h4, by omega, ?_⟩
      · rw [h2, e1, e1]; congr 2; omega
      · intro m hm
        cases m with
        | zero => simpa using h4
        | succ m =>
          have := h6 m (by omega)
          rw [e1, e1] at this
          exact this
    · rw [if_neg h4]
      exact ⟨0, by omega, by simp, by simp; omega, by simp; omega, by omega, by omega, by omega⟩

theorem decodeEscapes_spec {buf : List Nat} {lsb : Bool} {t : Nat} (ht : t < 1024) (a0 b0 : Nat) :
    ∀ (n a b lev sym0 : Nat) (σ : ASt), a = a0 / 2 ^ lev → b = b0 / 2 ^ lev → max a b < 4 * 2 ^ n →
      σ.Ok →
      Good buf (σ.run ((escRun lsb t n a b lev).1 ++
        [specEv t (escRun lsb t n a b lev).2.2.2
          ((escRun lsb t n a b lev).2.1 + 4 * (escRun lsb t n a b lev).2.2.1)])) →
      decodeEscapes buf lsb t (n + 1) lev sym0 (lowPart lsb a0 lev) (lowPart lsb b0 lev) (decRd σ)
          (decAc buf σ) =
        .ok (((escRun lsb t n a b lev).2.1 + 4 * (escRun lsb t n a b lev).2.2.1,
            (escRun lsb t n a b lev).2.2.2, lowPart lsb a0 (escRun lsb t n a b lev).2.2.2,
            lowPart lsb b0 (escRun lsb t n a b lev).2.2.2),
          decAc buf (σ.run ((escRun lsb t n a b lev).1 ++
            [specEv t (escRun lsb t n a b lev).2.2.2
              ((escRun lsb t n a b lev).2.1 + 4 * (escRun lsb t n a b lev).2.2.1)])),
          decRd (σ.run ((escRun lsb t n a b lev).1 ++
            [specEv t (escRun lsb t n a b lev).2.2.2
              ((escRun lsb t n a b lev).2.1 + 4 * (escRun lsb t n a b lev).2.2.1)]))) := by
  intro n
  have hlast : ∀ (n a b lev sym0 : Nat) (σ : ASt), a < 4 → b < 4 → σ.Ok →
      Good buf (σ.step (specEv t lev (a + 4 * b))) →
      decodeEscapes buf lsb t (n + 1) lev sym0 (lowPart lsb a0 lev) (lowPart lsb b0 lev) (decRd σ)
          (decAc buf σ) =
        .ok ((a + 4 * b, lev, lowPart lsb a0 lev, lowPart lsb b0 lev),
          decAc buf (σ.step (specEv t lev (a + 4 * b))), decRd (σ.step (specEv t lev (a + 4 * b)))) := by
    intro n a b lev sym0 σ ha hb ho hg
    unfold decodeEscapes
    rw [spec_lookup ht]
    simp only [Res.bind_ok, spec_cum_idx, spec_freq_idx]
    rw [specEv_dec (by omega) ho hg]
    simp only [Res.bind_ok]
    rw [if_pos (by omega)]
  induction n with
  | zero =>
    intro a b lev sym0 σ ha hb hab ho hg
    simp only [escRun, List.nil_append, ASt.run] at hg ⊢
    exact hlast 0 a b lev sym0 σ (by omega) (by omega) ho hg
  | succ n ih =>
    intro a b lev sym0 σ ha hb hab ho hg
    by_cases h4 : max a b ≥ 4
    · -- an escape
      have hr : escRun lsb t (n + 1) a b lev =
          (specEv t lev 16 :: ((escBits lsb a b lev).map .bit ++
            (escRun lsb t n (a >>> 1) (b >>> 1) (lev + 1)).1),
          (escRun lsb t n (a >>> 1) (b >>> 1) (lev + 1)).2) := by
        rw [escRun.eq_def]; simp [h4]
      rw [hr] at hg ⊢
      generalize hE : escRun lsb t n (a >>> 1) (b >>> 1) (lev + 1) = E at hg ⊢
      have hEab : max (a >>> 1) (b >>> 1) < 4 * 2 ^ n := by
        rw [Nat.shiftRight_one, Nat.shiftRight_one]; rw [pow_succ] at hab; omega
      have hfin : E.2.1 < 4 ∧ E.2.2.1 < 4 := by
        obtain ⟨k, _, h2, h3, h5, _⟩ := escRun_spec lsb t n (a >>> 1) (b >>> 1) (lev + 1) hEab
        rw [hE] at h2; rw [h2]; exact ⟨h3, h5⟩
      simp only [List.cons_append, ASt.run, List.append_assoc] at hg ⊢
      rw [ASt.run_append] at hg ⊢
      generalize hσ1 : σ.step (specEv t lev 16) = σ1 at hg ⊢
      have ho1 : σ1.Ok := by rw [← hσ1]; exact ho.step (specEv_valid (by omega))
      generalize hσ2 : σ1.run ((escBits lsb a b lev).map .bit) = σ2 at hg ⊢
      have ho2 : σ2.Ok := by
        rw [← hσ2]; refine ho1.run ?_
        intro e he; obtain ⟨b', _, rfl⟩ := List.mem_map.1 he; trivial
      have hvE : ∀ e ∈ E.1 ++ [specEv t E.2.2.2 (E.2.1 + 4 * E.2.2.1)], e.Valid := by
        intro e he
        rcases List.mem_append.1 he with he | he
        · rw [← hE] at he; exact escRun_valid _ _ _ _ _ _ e he
        · rw [List.mem_singleton.1 he]; exact specEv_valid (by omega)
      have hg2 : Good buf σ2 := hg.back_run _ ho2 hvE
      have hg1 : Good buf σ1 := by
        rw [← hσ2] at hg2; refine hg2.back_run _ ho1 ?_
        intro e he; obtain ⟨b', _, rfl⟩ := List.mem_map.1 he; trivial
      rw [decodeEscapes.eq_def]
      simp only
      rw [spec_lookup ht]
      simp only [Res.bind_ok, spec_cum_idx, spec_freq_idx]
      rw [specEv_dec (sym := 16) (by omega) ho (by rw [hσ1]; exact hg1), hσ1]
      simp only [Res.bind_ok]
      rw [if_neg (by omega)]
      have ha' : a >>> 1 = a0 / 2 ^ (lev + 1) := by
        rw [ha, Nat.shiftRight_one, Nat.div_div_eq_div_mul, pow_succ]
      have hb' : b >>> 1 = b0 / 2 ^ (lev + 1) := by
        rw [hb, Nat.shiftRight_one, Nat.div_div_eq_div_mul, pow_succ]
      have hih := ih (a >>> 1) (b >>> 1) (lev + 1) 16 σ2 ha' hb' hEab ho2
      rw [hE] at hih
      have hih := hih hg
      by_cases hl : lsb && lev == 0
      · have hc : (!lsb || decide (lev > 0)) = false := by
          simp only [Bool.and_eq_true, beq_iff_eq] at hl
          simp [hl.1, hl.2]
        simp only [hc, Bool.false_eq_true, if_false]
        have hs2 : σ2 = σ1 := by rw [← hσ2]; simp [escBits, hl, ASt.run]
        rw [hs2] at hih
        rw [lowPart_succ, lowPart_succ, if_pos hl, if_pos hl, Nat.add_zero, Nat.add_zero] at hih
        rw [hs2]
        exact hih
      · have hc : (!lsb || decide (lev > 0)) = true := by
          rcases lsb with _ | _
          · rfl
          · simp only [Bool.true_and, beq_iff_eq] at hl
            simp; omega
        simp only [hc, if_true]
        have hbits : escBits lsb a b lev = [a &&& 1 == 1, b &&& 1 == 1] := by
          unfold escBits; rw [if_neg hl]
        rw [hbits] at hσ2
        simp only [List.map_cons, List.map_nil, ASt.run] at hσ2
        have hga : Good buf (σ1.step (.bit (a &&& 1 == 1))) := by
          rw [← hσ2] at hg2
          exact hg2.back (ho1.step (by trivial)) (by trivial)
        rw [decRd_bit hga]
        simp only [Res.bind_ok]
        rw [decRd_bit (by rw [hσ2]; exact hg2), hσ2]
        simp only [Res.bind_ok]
        have hac : decAc buf σ1 = decAc buf σ2 := by rw [← hσ2]; rfl
        rw [hac]
        rw [lowPart_succ, lowPart_succ, if_neg hl, if_neg hl, ← ha, ← hb] at hih
        exact hih
    · have hr : escRun lsb t (n + 1) a b lev = ([], a, b, lev) := by rw [escRun.eq_def]; simp [h4]
      rw [hr] at hg ⊢
      simp only [List.nil_append, ASt.run] at hg ⊢
      exact hlast (n + 1) a b lev sym0 σ (by omega) (by omega) ho hg

end Lc3
