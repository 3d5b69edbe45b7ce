import Verif.Spec.MachineInt
import Verif.Lemmas.PtrInv
import Verif.Lemmas.DecStep
import Verif.Lemmas.FrameBody
import Verif.Lemmas.TableFacts
import Verif.Lemmas.SafeDecoder
/-! The machine integers of the entropy coder and of the rate loop hold every intermediate result. -/

namespace Lc3.Machine
open Lc3.Tables

theorem u32_ok {n : Nat} (h : n < 2 ^ 32) : u32 n = .ok n := if_pos h

theorem i32_ok {n : Nat} (h : n < 2 ^ 31) : i32 n = .ok n := if_pos h

theorem shl8_eq {n : Nat} (h : n < 2 ^ 24) : shl8 n = n <<< 8 := by
  unfold shl8
  rw [Nat.shiftLeft_eq]
  exact Nat.mod_eq_of_lt (by omega)

theorem mask_lt (n : Nat) : n &&& 0x00ffffff < 2 ^ 24 := by
  have : n &&& 0x00ffffff ≤ 0x00ffffff := Nat.and_le_right
  omega

theorem idx_inv {β : Type} {l : List β} {i : Nat} {v : β} (h : idx l i = .ok v) : ∃ hi : i < l.length, l[i] = v := by
  rw [idx_ok_iff] at h
  exact List.getElem?_eq_some_iff.1 h

/-! ### range encoder -/

/-- everything but the range -/
structure Low (K : Nat) (s : EncSt) : Prop where
  low : s.ac.low < 2 ^ 24
  carry : s.ac.carry ≤ 1
  cache : s.ac.cache < 256
  count : s.ac.carryCount ≤ K

/-- the state of the coder between two symbols -/
structure Fit (K : Nat) (s : EncSt) : Prop extends Low K s where
  rlo : 2 ^ 16 ≤ s.ac.range
  rhi : s.ac.range < 2 ^ 24

theorem Low.congr {K : Nat} {s t : EncSt} (h : Low K s) (e : t.ac = s.ac) : Low K t :=
  ⟨by rw [e]; exact h.low, by rw [e]; exact h.carry, by rw [e]; exact h.cache, by rw [e]; exact h.count⟩

theorem Fit.congr {K : Nat} {s t : EncSt} (h : Fit K s) (e : t.ac = s.ac) : Fit K t :=
  ⟨h.toLow.congr e, by rw [e]; exact h.rlo, by rw [e]; exact h.rhi⟩

theorem Fit.mono {K L : Nat} {s : EncSt} (h : Fit K s) (hl : K ≤ L) : Fit L s :=
  ⟨⟨h.low, h.carry, h.cache, h.count.trans hl⟩, h.rlo, h.rhi⟩

theorem acShift_same {K : Nat} {s : EncSt} (h : Low K s) (hK : K + 1 < 2 ^ 31) :
    acShift s = Lc3.acShift s ∧ ∀ s', Lc3.acShift s = .ok s' → Low (K + 1) s' ∧ s'.ac.range = s.ac.range := by
  have hk := h.count
  have key : acShift s = Lc3.acShift s := by
    unfold acShift Lc3.acShift
    by_cases hc : s.ac.low < 0x00ff0000 ∨ s.ac.carry = 1
    · rw [if_pos hc, if_pos hc]
      have e1 : (if s.ac.cache ≥ 0 then (do
          let c ← i32 (s.ac.cache.toNat + s.ac.carry)
          s.byte (c % 256)) else .ok s) =
          (if s.ac.cache ≥ 0 then s.byte ((s.ac.cache.toNat + s.ac.carry) % 256) else .ok s) := by
        have := h.cache
        have := h.carry
        rw [i32_ok (by omega), Res.bind_ok]
      rw [e1]
      cases e2 : (if s.ac.cache ≥ 0 then s.byte ((s.ac.cache.toNat + s.ac.carry) % 256) else .ok s) with
      | ok t =>
        simp only [Res.bind_ok]
        have ht : t.ac = s.ac := by
          split at e2
          · exact (byte_ptr e2).2.2
          · simp only [Res.ok.injEq] at e2; rw [← e2]
        cases e3 : flushCarries t t.ac.carryCount with
        | ok u =>
          simp only [Res.bind_ok]
          have hu := (flushCarries_ptr e3).2.2
          rw [shl8_eq (by rw [hu, ht]; exact h.low)]
        | err => rfl
        | panic => rfl
      | err => rfl
      | panic => rfl
    · rw [if_neg hc, if_neg hc, i32_ok (by omega), Res.bind_ok, shl8_eq h.low]
  refine ⟨key, fun s' hs => ?_⟩
  have hr := (acShift_ptr hs).2.2
  refine ⟨?_, hr⟩
  unfold Lc3.acShift at hs
  by_cases hc : s.ac.low < 0x00ff0000 ∨ s.ac.carry = 1
  · rw [if_pos hc] at hs
    obtain ⟨t, e1, hs⟩ := Res.bind_eq_ok.1 hs
    obtain ⟨u, e2, hs⟩ := Res.bind_eq_ok.1 hs
    have ht : t.ac = s.ac := by
      split at e1
      · exact (byte_ptr e1).2.2
      · simp only [Res.ok.injEq] at e1; rw [← e1]
    have hu := (flushCarries_ptr e2).2.2
    simp only [Res.ok.injEq] at hs
    subst hs
    refine ⟨mask_lt _, by simp, ?_, by simp [hu]⟩
    simp only
    have : u.ac.low >>> 16 < 256 := by
      rw [hu, ht, Nat.shiftRight_eq_div_pow]
      have := h.low
      simp only
      omega
    omega
  · rw [if_neg hc] at hs
    simp only [Res.ok.injEq] at hs
    subst hs
    exact ⟨mask_lt _, h.carry, h.cache, by simp only; omega⟩

theorem acEncRenorm_same (fuel : Nat) : ∀ {K : Nat} {s : EncSt}, Low K s → K + fuel < 2 ^ 31 → s.ac.range < 2 ^ 24 →
    acEncRenorm fuel s = Lc3.acEncRenorm fuel s ∧ ∀ s', Lc3.acEncRenorm fuel s = .ok s' → Fit (K + fuel) s' := by
  induction fuel with
  | zero =>
    intro K s h hK hr
    unfold acEncRenorm Lc3.acEncRenorm
    by_cases c : s.ac.range < 0x10000
    · simp [c]
    · simp only [c, if_false, true_and]
      intro s' hs
      simp only [Res.ok.injEq] at hs
      subst hs
      exact ⟨h, by omega, hr⟩
  | succ fuel ih =>
    intro K s h hK hr
    unfold acEncRenorm Lc3.acEncRenorm
    by_cases c : s.ac.range < 0x10000
    · simp only [c, if_true]
      rw [shl8_eq hr]
      have hL : Low K ({ s with ac := { s.ac with range := s.ac.range <<< 8 } } : EncSt) := ⟨h.low, h.carry, h.cache, h.count⟩
      obtain ⟨e1, e2⟩ := acShift_same hL (by omega)
      rw [e1]
      cases e : Lc3.acShift ({ s with ac := { s.ac with range := s.ac.range <<< 8 } } : EncSt) with
      | ok t =>
        obtain ⟨f1, f2⟩ := e2 t e
        have hrt : t.ac.range < 2 ^ 24 := by
          rw [f2]
          simp only [Nat.shiftLeft_eq]
          omega
        obtain ⟨g1, g2⟩ := ih f1 (by omega) hrt
        simp only [Res.bind_ok]
        refine ⟨g1, fun s' hs => ?_⟩
        have := g2 s' hs
        rwa [show K + 1 + fuel = K + (fuel + 1) by omega] at this
      | err => exact ⟨rfl, fun s' hs => by simp at hs⟩
      | panic => exact ⟨rfl, fun s' hs => by simp at hs⟩
    · simp only [c, if_false, true_and]
      intro s' hs
      simp only [Res.ok.injEq] at hs
      subst hs
      exact ⟨⟨h.low, h.carry, h.cache, by have := h.count; omega⟩, by omega, hr⟩

theorem acEncode_same {K : Nat} {s : EncSt} {c f : Nat} (h : Fit K s) (hK : K + 3 < 2 ^ 31) (hf : c + f ≤ 1024) :
    acEncode s c f = Lc3.acEncode s c f ∧ ∀ s', Lc3.acEncode s c f = .ok s' → Fit (K + 3) s' := by
  have hr : s.ac.range >>> 10 < 2 ^ 14 := by
    rw [Nat.shiftRight_eq_div_pow]
    have := h.rhi
    omega
  have hlow := h.low
  unfold acEncode Lc3.acEncode
  have hc : s.ac.range >>> 10 * c < 2 ^ 24 := by
    by_cases hf0 : c = 0
    · rw [hf0]; norm_num
    · calc s.ac.range >>> 10 * c ≤ s.ac.range >>> 10 * 1024 := Nat.mul_le_mul_left _ (by omega)
        _ < 2 ^ 24 := by omega
  have hfr : s.ac.range >>> 10 * f < 2 ^ 24 := by
    calc s.ac.range >>> 10 * f ≤ s.ac.range >>> 10 * 1024 := Nat.mul_le_mul_left _ (by omega)
      _ < 2 ^ 24 := by omega
  simp only
  rw [u32_ok (by omega), Res.bind_ok, u32_ok (by omega), Res.bind_ok, u32_ok (by omega), Res.bind_ok]
  refine acEncRenorm_same 3 ⟨mask_lt _, ?_, h.cache, h.count⟩ hK hfr
  simp only
  split
  · omega
  · exact h.carry

/-- two ways to compute the same, and the state after it -/
def Same {β : Type} (K : Nat) (m m' : Res β) (st : β → EncSt) : Prop := m = m' ∧ ∀ b, m' = .ok b → Fit K (st b)

theorem Same.bind {β γ : Type} {K L : Nat} {m m' : Res β} {st : β → EncSt} {k k' : β → Res γ} {st' : γ → EncSt} (h : Same K m m' st)
    (hk : ∀ b, Fit K (st b) → Same L (k b) (k' b) st') : Same L (m >>= k) (m' >>= k') st' := by
  obtain ⟨rfl, h2⟩ := h
  cases hm : m with
  | ok b => simp only [Res.bind_ok]; exact hk b (h2 b hm)
  | err => exact ⟨rfl, fun c hc => by simp at hc⟩
  | panic => exact ⟨rfl, fun c hc => by simp at hc⟩

/-- a common value that is not a state -/
theorem Same.bindL {β γ : Type} {L : Nat} {m : Res β} {k k' : β → Res γ} {st' : γ → EncSt}
    (hk : ∀ b, m = .ok b → Same L (k b) (k' b) st') : Same L (m >>= k) (m >>= k') st' := by
  cases hm : m with
  | ok b => simp only [Res.bind_ok]; exact hk b hm
  | err => exact ⟨rfl, fun c hc => by simp at hc⟩
  | panic => exact ⟨rfl, fun c hc => by simp at hc⟩

theorem Same.pure {β : Type} {K : Nat} {b : β} {st : β → EncSt} (h : Fit K (st b)) : Same K (.ok b) (.ok b) st :=
  ⟨rfl, fun c hc => by simp only [Res.ok.injEq] at hc; rwa [← hc]⟩

theorem Same.panic {β : Type} {K : Nat} {st : β → EncSt} : Same K (.panic : Res β) .panic st := ⟨rfl, fun c hc => by simp at hc⟩

theorem Same.mono {β : Type} {K L : Nat} {m m' : Res β} {st : β → EncSt} (h : Same K m m' st) (hl : K ≤ L) : Same L m m' st :=
  ⟨h.1, fun b hb => (h.2 b hb).mono hl⟩

theorem bool_ac_eq {s s' : EncSt} {b : Bool} (h : s.bool b = .ok s') : s'.ac = s.ac := by
  unfold EncSt.bool at h
  obtain ⟨t, -, h⟩ := Res.bind_eq_ok.1 h
  simp only [Res.ok.injEq] at h
  rw [← h]

theorem Same.bool {K : Nat} {s : EncSt} (h : Fit K s) (b : Bool) : Same K (s.bool b) (s.bool b) id :=
  ⟨rfl, fun s' hs => h.congr (bool_ac_eq hs)⟩

theorem Same.encBools {K : Nat} (bs : List Bool) : ∀ {s : EncSt}, Fit K s → Same K (encBools bs s) (encBools bs s) id := by
  induction bs with
  | nil => exact fun h => Same.pure h
  | cons b bs ih =>
    intro s h
    unfold Lc3.encBools
    exact (Same.bool h b).bind fun t ht => ih ht

theorem Same.encode {K : Nat} {s : EncSt} {c f : Nat} (h : Fit K s) (hK : K + 3 < 2 ^ 31) (hf : c + f ≤ 1024) :
    Same (K + 3) (acEncode s c f) (Lc3.acEncode s c f) id := acEncode_same h hK hf

theorem model_pair {cums freqs : List (List Nat)} {i j c f : Nat} {cum freq : List Nat}
    (hp : ∀ i (h1 : i < cums.length) (h2 : i < freqs.length), ProperModel cums[i] freqs[i])
    (e1 : idx cums i = .ok cum) (e2 : idx freqs i = .ok freq) (e3 : idx cum j = .ok c) (e4 : idx freq j = .ok f) : c + f ≤ 1024 := by
  obtain ⟨h1, rfl⟩ := idx_inv e1
  obtain ⟨h2, rfl⟩ := idx_inv e2
  obtain ⟨h4, rfl⟩ := idx_inv e4
  have hm := hp i h1 h2
  rw [hm.cum_eq h4] at e3
  simp only [Res.ok.injEq] at e3
  rw [← e3]
  exact (hm.valid h4).2

theorem encTnsCoefs_same (rcI : List Nat) (f : Nat) (n : Nat) : ∀ {K k : Nat} {s : EncSt}, k ≤ 8 → Fit K s → K + 3 * (8 - k) < 2 ^ 31 →
    Same (K + 3 * (8 - k)) (encTnsCoefs rcI f k n s) (Lc3.encTnsCoefs rcI f k n s) id := by
  induction n with
  | zero => exact fun _ h _ => Same.pure (h.mono (by omega))
  | succ n ih =>
    intro K k s hk h hK
    unfold encTnsCoefs Lc3.encTnsCoefs
    refine Same.bindL fun cums e1 => Same.bindL fun freqs e2 => Same.bindL fun i _ => Same.bindL fun c e3 => Same.bindL fun g e4 => ?_
    have hk8 : k < 8 := by
      obtain ⟨h1, -⟩ := idx_inv e1
      rwa [tnsCoef_cum_len] at h1
    have hf := model_pair (fun i h1 h2 => (tnsCoef_proper h1 h2).1) e1 e2 e3 e4
    refine (Same.encode h (by omega) hf).bind fun t ht => ?_
    exact (ih (by omega) ht (by omega)).mono (by omega)

theorem encTnsData_same (w : Nat) (rcOrder rcI : List Nat) (n : Nat) : ∀ {K f : Nat} {s : EncSt}, Fit K s → K + 27 * n < 2 ^ 31 →
    Same (K + 27 * n) (encTnsData w rcOrder rcI f n s) (Lc3.encTnsData w rcOrder rcI f n s) id := by
  induction n with
  | zero => exact fun h _ => Same.pure (h.mono (by omega))
  | succ n ih =>
    intro K f s h hK
    unfold encTnsData Lc3.encTnsData
    refine Same.bindL fun o _ => ?_
    refine Same.bind (K := K + 27) (st := id) ?_ fun t ht => (ih ht (by omega)).mono (by omega)
    by_cases ho : o > 0
    · rw [if_pos ho, if_pos ho]
      refine Same.bindL fun cums e1 => Same.bindL fun freqs e2 => Same.bindL fun c e3 => Same.bindL fun g e4 => ?_
      have hf := model_pair (fun i h1 h2 => (tnsOrder_proper h1 h2).1) e1 e2 e3 e4
      refine (Same.encode h (by omega) hf).bind fun t ht => ?_
      exact (encTnsCoefs_same rcI f o (by omega) ht (by omega)).mono (by omega)
    · rw [if_neg ho, if_neg ho]
      exact Same.pure (h.mono (by omega))

theorem encSym_same {K : Nat} {s : EncSt} (t lev sym : Nat) (h : Fit K s) (hK : K + 3 < 2 ^ 31) :
    Same (K + 3) (encSym t lev sym s) (Lc3.encSym t lev sym s) id := by
  unfold encSym Lc3.encSym
  refine Same.bindL fun pki _ => Same.bindL fun cums e1 => Same.bindL fun freqs e2 => Same.bindL fun c e3 => Same.bindL fun g e4 => ?_
  exact Same.encode h hK (model_pair (fun i h1 h2 => (spec_proper h1 h2).1) e1 e2 e3 e4)

theorem encEscapes_same (lsbMode : Bool) (t : Nat) (fuel : Nat) : ∀ {K a b lev : Nat} {s : EncSt}, Fit K s → K + 3 * fuel < 2 ^ 31 →
    Same (K + 3 * fuel) (encEscapes lsbMode t fuel a b lev s) (Lc3.encEscapes lsbMode t fuel a b lev s) (·.2) := by
  induction fuel with
  | zero =>
    intro K a b lev s h hK
    unfold encEscapes Lc3.encEscapes
    by_cases c : max a b ≥ 4
    · simp only [if_pos c]; exact Same.panic
    · simp only [if_neg c]; exact Same.pure (h.mono (by omega))
  | succ fuel ih =>
    intro K a b lev s h hK
    unfold encEscapes Lc3.encEscapes
    by_cases c : max a b ≥ 4
    · rw [if_pos c, if_pos c]
      simp only
      refine (encSym_same t lev 16 h (by omega)).bind fun u hu => ?_
      refine Same.bind (K := K + 3) (st := id) ?_ fun v hv => (ih hv (by omega)).mono (by omega)
      by_cases c2 : (lsbMode && lev == 0) = true
      · rw [if_pos c2]; exact Same.pure hu
      · rw [if_neg c2]
        exact (Same.bool hu _).bind fun v hv => Same.bool hv _
    · rw [if_neg c, if_neg c]; exact Same.pure (h.mono (by omega))

theorem encPairs_same (lsbMode : Bool) (rateFlag ne nbitsLsb : Nat) (m : Nat) :
    ∀ {xs : List Int} {K k c : Nat} {lsbs : List Bool} {s : EncSt}, xs.length ≤ m → Fit K s → K + 51 * m < 2 ^ 31 →
    Same (K + 51 * m) (encPairs lsbMode rateFlag ne nbitsLsb xs k c lsbs s) (Lc3.encPairs lsbMode rateFlag ne nbitsLsb xs k c lsbs s) (·.2) := by
  induction m using Nat.strong_induction_on with
  | _ m ih =>
    intro xs K k c lsbs s hm h hK
    match xs, hm with
    | [], _ =>
      unfold encPairs Lc3.encPairs
      exact Same.pure (h.mono (by omega))
    | [_], _ => exact Same.panic
    | x0 :: x1 :: xs, hm =>
      simp only [List.length_cons] at hm
      unfold encPairs Lc3.encPairs
      simp only
      refine Same.bind (encEscapes_same lsbMode _ 16 h (by omega)) fun ⟨⟨a, b, lev⟩, u⟩ hu => ?_
      refine (encSym_same _ lev _ hu (by omega)).bind fun v hv => ?_
      simp only
      generalize (if (lsbMode && decide (lev > 0)) = true then lsbs ++ pairLsbs x0 x1 else lsbs) = l
      by_cases c1 : l.length > nbitsLsb
      · rw [if_pos c1, if_pos c1]; exact Same.panic
      · rw [if_neg c1, if_neg c1]
        have sign : ∀ (n : Nat) (b : Bool) {w : EncSt}, Fit (K + 51) w →
            Same (K + 51) (if n > 0 then w.bool b else .ok w) (if n > 0 then w.bool b else .ok w) id := by
          intro n b w hw
          by_cases c2 : n > 0
          · rw [if_pos c2]; exact Same.bool hw b
          · rw [if_neg c2]; exact Same.pure hw
        refine (sign _ _ (hv.mono (by omega))).bind fun w hw => (sign _ _ hw).bind fun z hz => ?_
        exact (ih (m - 2) (by omega) (by omega) hz (by omega)).mono (by omega)

/-! ### end of the range encoder -/

theorem finishBits_le (R : Nat) : ∀ {n b : Nat}, n ≤ 23 → finishBits R n = .ok b → b ≤ 24 := by
  intro n
  induction n with
  | zero =>
    intro b _ h
    unfold finishBits at h
    split at h
    · simp at h
    · simp only [Res.ok.injEq] at h; omega
  | succ n ih =>
    intro b hn h
    unfold finishBits at h
    split at h
    · exact ih (by omega) h
    · simp only [Res.ok.injEq] at h; omega

theorem shr_le (a n : Nat) : a >>> n ≤ a := by
  rw [Nat.shiftRight_eq_div_pow]; exact Nat.div_le_self _ _

theorem finishValue_same {K : Nat} {s : EncSt} (h : Fit K s) (bits : Nat) :
    finishValue s.ac bits = .ok (Lc3.finishValue s.ac bits) ∧ (Lc3.finishValue s.ac bits).2.1 < 2 ^ 24 ∧
      (Lc3.finishValue s.ac bits).2.2 ≤ 1 := by
  have hl := h.low
  have hr := h.rhi
  have hc := h.carry
  have hm := shr_le 0x00ffffff bits
  unfold finishValue Lc3.finishValue
  simp only
  generalize 0x00ffffff >>> bits = mask at *
  have hm2 := shr_le mask 1
  rw [u32_ok (by omega), Res.bind_ok, u32_ok (by omega), Res.bind_ok]
  have hv : ∀ x y : Nat, x &&& (0x00ffffff &&& y) < 2 ^ 24 := by
    intro x y
    rw [← Nat.and_assoc]
    exact lt_of_le_of_lt Nat.and_le_left (mask_lt _)
  have hv2 : ∀ x y : Nat, (x &&& 0x00ffffff) &&& y < 2 ^ 24 := fun x y => lt_of_le_of_lt Nat.and_le_left (mask_lt _)
  have hc2 : ∀ v : Nat, (if v < s.ac.low then 1 else s.ac.carry) ≤ 1 := by intro v; split <;> omega
  have h1 := hv (s.ac.low + mask) (0xffffffff ^^^ mask)
  by_cases c1 : (s.ac.low + mask) >>> 24 = (s.ac.low + s.ac.range) >>> 24
  · rw [if_pos c1, if_pos c1, u32_ok (by omega), Res.bind_ok]
    by_cases c2 : (s.ac.low + mask &&& (0x00ffffff &&& (0xffffffff ^^^ mask))) + mask ≥ s.ac.low + s.ac.range
    · rw [if_pos c2, if_pos c2, u32_ok (by omega), Res.bind_ok]
      exact ⟨rfl, hv2 _ _, hc2 _⟩
    · rw [if_neg c2, if_neg c2]
      exact ⟨rfl, h1, hc2 _⟩
  · rw [if_neg c1, if_neg c1]
    exact ⟨rfl, h1, hc⟩

theorem finishShift_same (fuel : Nat) : ∀ {K : Nat} {bits : Int} {s : EncSt}, Low K s → K + fuel < 2 ^ 31 →
    finishShift fuel bits s = Lc3.finishShift fuel bits s := by
  induction fuel with
  | zero =>
    intro K bits s h hK
    unfold finishShift Lc3.finishShift
    rfl
  | succ fuel ih =>
    intro K bits s h hK
    unfold finishShift Lc3.finishShift
    by_cases c : bits > 0
    · simp only [c, if_true]
      obtain ⟨e1, e2⟩ := acShift_same h (by omega)
      rw [e1]
      cases e : Lc3.acShift s with
      | ok t => exact ih (e2 t e).1 (by omega)
      | err => rfl
      | panic => rfl
    · simp only [c, if_false]

theorem acEncFinish_same {K : Nat} {s : EncSt} (h : Fit K s) (hK : K + 4 < 2 ^ 31) : acEncFinish s = Lc3.acEncFinish s := by
  unfold acEncFinish Lc3.acEncFinish
  cases e : finishBits s.ac.range 23 with
  | ok b =>
    simp only [Res.bind_ok]
    obtain ⟨f1, f2, f3⟩ := finishValue_same h b
    rw [f1, Res.bind_ok]
    obtain ⟨⟨b', low, carry⟩, hv⟩ : ∃ v, v = Lc3.finishValue s.ac b := ⟨_, rfl⟩
    rw [← hv] at f2 f3 ⊢
    simp only
    have hL : Low K ({ s with ac := { s.ac with low := low, carry := carry } } : EncSt) := ⟨f2, f3, h.cache, h.count⟩
    rw [finishShift_same 4 hL hK]
  | err => rfl
  | panic => rfl

theorem fit_init (s : EncSt) : Fit 0 (acEncInit s) :=
  ⟨⟨by simp [acEncInit], by simp [acEncInit], by simp [acEncInit], by simp [acEncInit]⟩, by simp [acEncInit], by simp [acEncInit]⟩

/-! ### range decoder -/

theorem acFindSym_same {cum : List Nat} {low tmp : Nat} (hc : ∀ c ∈ cum, c ≤ 1024) (ht : tmp < 2 ^ 14) :
    ∀ n, acFindSym low tmp cum n = Lc3.acFindSym low tmp cum n := by
  have hm : ∀ {i c : Nat}, idx cum i = .ok c → tmp * c < 2 ^ 32 := by
    intro i c e
    obtain ⟨hi, rfl⟩ := idx_inv e
    have := hc _ (List.getElem_mem hi)
    calc tmp * cum[i] ≤ tmp * 1024 := Nat.mul_le_mul_left _ this
      _ < 2 ^ 32 := by omega
  intro n
  induction n with
  | zero =>
    unfold acFindSym Lc3.acFindSym
    cases e : idx cum 0 with
    | ok c => simp only [Res.bind_ok]; rw [u32_ok (hm e), Res.bind_ok]
    | err => rfl
    | panic => rfl
  | succ n ih =>
    unfold acFindSym Lc3.acFindSym
    cases e : idx cum (n + 1) with
    | ok c => simp only [Res.bind_ok]; rw [u32_ok (hm e), Res.bind_ok, ih]
    | err => rfl
    | panic => rfl

theorem readHeadByte_lt {buf : List Nat} (hb : ∀ b ∈ buf, b < 256) {r r' : Reader} {b : Nat} (h : r.readHeadByte buf = .ok (b, r')) :
    b < 256 := by
  unfold Reader.readHeadByte at h
  cases e : buf[r.head]? with
  | none => rw [e] at h; simp at h
  | some c =>
    rw [e] at h
    simp only [Res.ok.injEq, Prod.mk.injEq] at h
    rw [← h.1]
    exact hb _ (List.mem_of_getElem? e)

/-- the state of the decoder between two symbols -/
structure DecFit (st : AcDec) : Prop where
  low : st.low < 2 ^ 24
  rlo : 2 ^ 16 ≤ st.range
  rhi : st.range < 2 ^ 24

theorem shift_add_byte_lt {x b : Nat} (hb : b < 256) : (x <<< 8 &&& 0x00ffffff) + b < 2 ^ 24 := by
  have e : x <<< 8 &&& 0x00ffffff = x % 65536 * 256 := by
    have h1 : (0x00ffffff : Nat) = 2 ^ 24 - 1 := by norm_num
    rw [h1, Nat.and_two_pow_sub_one_eq_mod, Nat.shiftLeft_eq]
    omega
  rw [e]
  omega

theorem acDecRenorm_same {buf : List Nat} (hb : ∀ b ∈ buf, b < 256) (fuel : Nat) : ∀ {r : Reader} {st : AcDec}, st.low < 2 ^ 24 →
    st.range < 2 ^ 24 → acDecRenorm buf fuel r st = Lc3.acDecRenorm buf fuel r st ∧
      ∀ p, Lc3.acDecRenorm buf fuel r st = .ok p → DecFit p.1 := by
  induction fuel with
  | zero =>
    intro r st h1 h2
    unfold acDecRenorm Lc3.acDecRenorm
    by_cases c : st.range < 0x10000
    · simp [c]
    · simp only [c, if_false, true_and]
      intro p hp
      simp only [Res.ok.injEq] at hp
      subst hp
      exact ⟨h1, by simp only; omega, h2⟩
  | succ fuel ih =>
    intro r st h1 h2
    unfold acDecRenorm Lc3.acDecRenorm
    by_cases c : st.range < 0x10000
    · simp only [c, if_true]
      cases e : r.readHeadByte buf with
      | ok q =>
        obtain ⟨b, r'⟩ := q
        have hlt := readHeadByte_lt hb e
        simp only [Res.bind_ok]
        have hs := shift_add_byte_lt (x := st.low) hlt
        rw [shl8_eq h1, shl8_eq h2, u32_ok (by omega), Res.bind_ok]
        refine ih hs ?_
        simp only [Nat.shiftLeft_eq]
        omega
      | err => exact ⟨rfl, fun p hp => by simp at hp⟩
      | panic => exact ⟨rfl, fun p hp => by simp at hp⟩
    · simp only [c, if_false, true_and]
      intro p hp
      simp only [Res.ok.injEq] at hp
      subst hp
      exact ⟨h1, by simp only; omega, h2⟩

theorem acDecode_same {buf : List Nat} (hb : ∀ b ∈ buf, b < 256) {r : Reader} {st : AcDec} {cum freq : List Nat} (h : DecFit st)
    (hm : ProperModel cum freq) : acDecode buf r st cum freq = Lc3.acDecode buf r st cum freq ∧
      ∀ p, Lc3.acDecode buf r st cum freq = .ok p → DecFit p.2.1 := by
  have hr := h.rhi
  have hl := h.low
  have ht : st.range >>> 10 < 2 ^ 14 := by rw [Nat.shiftRight_eq_div_pow]; omega
  have hcum : ∀ c ∈ cum, c ≤ 1024 := by
    intro c hc
    obtain ⟨i, hi, rfl⟩ := List.mem_iff_getElem.1 hc
    have := hm.prefixSums i (hm.len ▸ hi)
    rw [List.getElem?_eq_getElem hi, Option.some.injEq] at this
    rw [this, ← hm.total]
    exact take_sum_le _ _
  have hfreq : ∀ f ∈ freq, f ≤ 1024 := by
    intro f hf
    obtain ⟨i, hi, rfl⟩ := List.mem_iff_getElem.1 hf
    have := (hm.valid hi).2
    omega
  unfold acDecode Lc3.acDecode
  simp only
  generalize st.range >>> 10 = tmp at *
  rw [Nat.mod_eq_of_lt (show tmp <<< 10 < 2 ^ 32 by rw [Nat.shiftLeft_eq]; omega)]
  by_cases c : st.low ≥ tmp <<< 10
  · rw [if_pos c, if_pos c]; exact ⟨rfl, fun p hp => by simp at hp⟩
  · rw [if_neg c, if_neg c]
    cases e1 : usub cum.length 1 with
    | ok last =>
      simp only [Res.bind_ok]
      rw [acFindSym_same hcum ht]
      cases e2 : Lc3.acFindSym st.low tmp cum last with
      | ok v =>
        simp only [Res.bind_ok]
        cases e3 : idx cum v with
        | ok cv =>
          simp only [Res.bind_ok]
          cases e4 : idx freq v with
          | ok f =>
            obtain ⟨hi, hcv⟩ := idx_inv e3
            obtain ⟨hj, hfv⟩ := idx_inv e4
            have b1 : tmp * cv < 2 ^ 25 := by
              calc tmp * cv ≤ tmp * 1024 := Nat.mul_le_mul_left _ (hcv ▸ hcum _ (List.getElem_mem hi))
                _ < 2 ^ 25 := by omega
            have b2 : tmp * f < 2 ^ 24 := by
              calc tmp * f ≤ tmp * 1024 := Nat.mul_le_mul_left _ (hfv ▸ hfreq _ (List.getElem_mem hj))
                _ < 2 ^ 24 := by omega
            simp only [Res.bind_ok]
            rw [u32_ok (by omega), Res.bind_ok, u32_ok (by omega)]
            cases e5 : usub st.low (tmp * cv) with
            | ok low =>
              simp only [Res.bind_ok]
              have hlow : low < 2 ^ 24 := by
                unfold usub at e5
                split at e5
                · simp only [Res.ok.injEq] at e5; omega
                · simp at e5
              obtain ⟨g1, g2⟩ := acDecRenorm_same hb 3 (r := r) (st := ⟨low, tmp * f⟩) hlow b2
              rw [g1]
              refine ⟨rfl, fun p hp => ?_⟩
              obtain ⟨q, q1, q2⟩ := Res.bind_eq_ok.1 hp
              simp only [Res.ok.injEq] at q2
              subst q2
              exact g2 q q1
            | err => exact ⟨rfl, fun p hp => by simp at hp⟩
            | panic => exact ⟨rfl, fun p hp => by simp at hp⟩
          | err => exact ⟨rfl, fun p hp => by simp at hp⟩
          | panic => exact ⟨rfl, fun p hp => by simp at hp⟩
        | err => exact ⟨rfl, fun p hp => by simp at hp⟩
        | panic => exact ⟨rfl, fun p hp => by simp at hp⟩
      | err => exact ⟨rfl, fun p hp => by simp at hp⟩
      | panic => exact ⟨rfl, fun p hp => by simp at hp⟩
    | err => exact ⟨rfl, fun p hp => by simp at hp⟩
    | panic => exact ⟨rfl, fun p hp => by simp at hp⟩

theorem decodeModels_same {buf : List Nat} (hb : ∀ b ∈ buf, b < 256) : ∀ (ys : List Symb) {r : Reader} {st : AcDec}, DecFit st →
    (∀ y ∈ ys, ProperModel y.cum y.freq) → decodeModels buf r st ys = decodeModelsNat buf r st ys := by
  intro ys
  induction ys with
  | nil => intros; rfl
  | cons y ys ih =>
    intro r st h hy
    unfold decodeModels decodeModelsNat
    obtain ⟨e1, e2⟩ := acDecode_same hb (r := r) h (hy y (by simp))
    rw [e1]
    cases e : Lc3.acDecode buf r st y.cum y.freq with
    | ok p =>
      obtain ⟨v, st', r'⟩ := p
      simp only [Res.bind_ok]
      rw [ih (e2 _ e) fun z hz => hy z (by simp [hz])]
    | err => rfl
    | panic => rfl

/-! ### rate estimation -/

theorem spec_bits_le : AC_SPEC_BITS.all (fun row => row.all fun v => decide (v ≤ 24576)) = true := by decide +kernel

theorem bits_le {pki sym v : Nat} {row : List Nat} (e1 : idx AC_SPEC_BITS pki = .ok row) (e2 : idx row sym = .ok v) : v ≤ 24576 := by
  obtain ⟨h1, rfl⟩ := idx_inv e1
  obtain ⟨h2, rfl⟩ := idx_inv e2
  have := List.all_eq_true.1 spec_bits_le _ (List.getElem_mem h1)
  have := List.all_eq_true.1 this _ (List.getElem_mem h2)
  simpa using this

theorem estEscapes_same (mode : Bool) (t : Nat) (fuel : Nat) : ∀ {a b lev est lsb : Nat}, est + 28672 * fuel < 2 ^ 32 →
    lsb + 2 * fuel < 2 ^ 32 → estEscapes mode t fuel a b lev est lsb = Lc3.estEscapes mode t fuel a b lev est lsb ∧
      ∀ p, Lc3.estEscapes mode t fuel a b lev est lsb = .ok p → p.2.2.2.1 ≤ est + 28672 * fuel ∧ p.2.2.2.2 ≤ lsb + 2 * fuel := by
  induction fuel with
  | zero =>
    intro a b lev est lsb h1 h2
    unfold estEscapes Lc3.estEscapes
    by_cases c : max a b ≥ 4
    · simp only [if_pos c]; exact ⟨trivial, fun p hp => by simp at hp⟩
    · simp only [if_neg c]
      refine ⟨trivial, fun p hp => ?_⟩
      simp only [Res.ok.injEq] at hp
      subst hp
      simp
  | succ fuel ih =>
    intro a b lev est lsb h1 h2
    unfold estEscapes Lc3.estEscapes
    by_cases c : max a b ≥ 4
    · simp only [if_pos c]
      cases e1 : idx AC_SPEC_LOOKUP (t + lev * 1024) with
      | ok pki =>
        simp only [Res.bind_ok]
        cases e2 : idx AC_SPEC_BITS pki with
        | ok row =>
          simp only [Res.bind_ok]
          cases e3 : idx row 16 with
          | ok v =>
            have hv := bits_le e2 e3
            simp only [Res.bind_ok]
            have hp : (if (lev == 0 && mode) = true then 0 else 2 * 2048) ≤ 4096 := by split <;> omega
            have hq : (if (lev == 0 && mode) = true then 2 else 0) ≤ 2 := by split <;> omega
            generalize (if (lev == 0 && mode) = true then 0 else 2 * 2048) = x at *
            generalize (if (lev == 0 && mode) = true then 2 else 0) = y at *
            rw [u32_ok (by omega), Res.bind_ok, u32_ok (by omega), Res.bind_ok, u32_ok (by omega), Res.bind_ok]
            obtain ⟨g1, g2⟩ := ih (a := a >>> 1) (b := b >>> 1) (lev := min 3 (lev + 1)) (est := est + v + x) (lsb := lsb + y)
              (by omega) (by omega)
            refine ⟨g1, fun p hp => ?_⟩
            have := g2 p hp
            omega
          | err => exact ⟨rfl, fun p hp => by simp at hp⟩
          | panic => exact ⟨rfl, fun p hp => by simp at hp⟩
        | err => exact ⟨rfl, fun p hp => by simp at hp⟩
        | panic => exact ⟨rfl, fun p hp => by simp at hp⟩
      | err => exact ⟨rfl, fun p hp => by simp at hp⟩
      | panic => exact ⟨rfl, fun p hp => by simp at hp⟩
    · rw [if_neg c, if_neg c]
      refine ⟨rfl, fun p hp => ?_⟩
      simp only [Res.ok.injEq] at hp
      subst hp
      simp only
      omega

theorem estPairs_same {α : Type} [Scalar α] (mode : Bool) (rate ne spec : Nat) (m : Nat) : ∀ {xs : List Int} {n : Nat} {s : EstSt},
    xs.length ≤ m → s.est + 2 ^ 19 * m < 2 ^ 32 → s.lsb + 34 * m < 2 ^ 32 →
    estPairs α mode rate ne spec xs n s = Lc3.estPairs α mode rate ne spec xs n s := by
  induction m using Nat.strong_induction_on with
  | _ m ih =>
    intro xs n s hm h1 h2
    match xs, hm with
    | [], _ => unfold estPairs Lc3.estPairs; rfl
    | [_], _ => unfold estPairs Lc3.estPairs; rfl
    | x0 :: x1 :: xs, hm =>
      simp only [List.length_cons] at hm
      unfold estPairs Lc3.estPairs
      simp only
      obtain ⟨e1, e2⟩ := estEscapes_same mode (s.c + rate + if n > ne / 2 then 256 else 0) 16 (a := x0.natAbs) (b := x1.natAbs)
        (lev := 0) (est := s.est) (lsb := s.lsb) (by omega) (by omega)
      rw [e1]
      cases e : Lc3.estEscapes mode (s.c + rate + if n > ne / 2 then 256 else 0) 16 x0.natAbs x1.natAbs 0 s.est s.lsb with
      | ok p =>
        obtain ⟨a, b, lev, est, lsb⟩ := p
        have hb := e2 _ e
        simp only [Res.bind_ok] at hb ⊢
        cases e3 : idx AC_SPEC_LOOKUP (s.c + rate + (if n > ne / 2 then 256 else 0) + lev * 1024) with
        | ok pki =>
          simp only [Res.bind_ok]
          cases e4 : idx AC_SPEC_BITS pki with
          | ok row =>
            simp only [Res.bind_ok]
            cases e5 : idx row (a + 4 * b) with
            | ok v =>
              have hv := bits_le e4 e5
              simp only [Res.bind_ok]
              have q0 : (if x0.natAbs > 0 then 2048 else 0) ≤ 2048 := by split <;> omega
              have q1 : (if x1.natAbs > 0 then 2048 else 0) ≤ 2048 := by split <;> omega
              have q2 : (if x0.natAbs >>> 1 = 0 ∧ x0 ≠ 0 then 1 else 0) ≤ 1 := by split <;> omega
              have q3 : (if x1.natAbs >>> 1 = 0 ∧ x1 ≠ 0 then 1 else 0) ≤ 1 := by split <;> omega
              generalize (if x0.natAbs > 0 then 2048 else 0) = y0 at *
              generalize (if x1.natAbs > 0 then 2048 else 0) = y1 at *
              generalize (if x0.natAbs >>> 1 = 0 ∧ x0 ≠ 0 then 1 else 0) = z0 at *
              generalize (if x1.natAbs >>> 1 = 0 ∧ x1 ≠ 0 then 1 else 0) = z1 at *
              have q4 : (if (decide (lev > 0) && mode) = true then lsb + z0 + z1 else lsb) ≤ lsb + 2 := by split <;> omega
              rw [u32_ok (by omega), Res.bind_ok, u32_ok (by omega), Res.bind_ok, u32_ok (by omega), Res.bind_ok, u32_ok (by omega),
                Res.bind_ok]
              exact ih (m - 2) (by omega) (by omega) (by simp only; omega) (by simp only; omega)
            | err => rfl
            | panic => rfl
          | err => rfl
          | panic => rfl
        | err => rfl
        | panic => rfl
      | err => rfl
      | panic => rfl

/-! ### attack detector -/

theorem blockSum_same : ∀ (l : List Int) (acc : Int) (B : Nat), (∀ x ∈ l, -32768 ≤ x ∧ x ≤ 32767) → acc.natAbs ≤ 32768 * B →
    B + l.length < 2 ^ 16 → blockSum l acc = .ok (l.foldl (· + ·) acc) := by
  intro l
  induction l with
  | nil => intros; rfl
  | cons x l ih =>
    intro acc B hx ha hl
    have h := hx x (by simp)
    simp only [List.length_cons] at hl
    unfold blockSum
    have : i32s (acc + x) = .ok (acc + x) := if_pos (by constructor <;> omega)
    rw [this, Res.bind_ok]
    exact ih (acc + x) (B + 1) (fun y hy => hx y (by simp [hy])) (by omega) (by omega)

theorem attackDownsample_same {blockLen : Nat} {x : List Int} (hb : blockLen < 2 ^ 16) (hx : ∀ v ∈ x, -32768 ≤ v ∧ v ≤ 32767) :
    ∀ n i, attackDownsample blockLen x i n = Lc3.attackDownsample blockLen x i n := by
  intro n
  induction n with
  | zero => intro i; unfold attackDownsample Lc3.attackDownsample; rfl
  | succ n ih =>
    intro i
    unfold attackDownsample Lc3.attackDownsample
    by_cases c : blockLen * i + blockLen ≤ x.length
    · rw [if_pos c, if_pos c, blockSum_same _ 0 0 (fun v hv => hx v (List.mem_of_mem_drop (List.mem_of_mem_take hv))) (by simp)
        (by rw [List.length_take]; omega), Res.bind_ok, ih]
    · rw [if_neg c, if_neg c]

end Lc3.Machine
