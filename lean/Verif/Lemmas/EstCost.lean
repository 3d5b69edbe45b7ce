import Verif.Lemmas.BitCost
import Verif.Lemmas.Traced
/-! The bit estimate of the quantiser is an upper bound of the cost of the events that are written. -/

namespace Lc3
open Tables Spec

def evTail : Ev → Nat
  | .sym _ _ => 0
  | .bit _ => 1

/-- number of plain bits -/
def evsTail (es : List Ev) : Nat := (es.map evTail).sum

theorem evsTail_append (a b : List Ev) : evsTail (a ++ b) = evsTail a + evsTail b := by simp [evsTail]
theorem evsTail_cons (e : Ev) (b : List Ev) : evsTail (e :: b) = evTail e + evsTail b := by simp [evsTail]
theorem evsTail_bits (bs : List Bool) : evsTail (bs.map .bit) = bs.length := by
  induction bs with
  | nil => rfl
  | cons b bs ih => rw [List.map_cons, evsTail_cons, ih]; simp [evTail]; omega

theorem run_tail (es : List Ev) (σ : ASt) : (σ.run es).tl.length = σ.tl.length + evsTail es := by
  induction es generalizing σ with
  | nil => rfl
  | cons e es ih =>
    rw [ASt.run, ih, evsTail_cons]
    cases e with
    | sym c f => simp [ASt.step, evTail]
    | bit b => simp [ASt.step, evTail]; omega

/-- bits of the events: information and plain bits -/
noncomputable def evsBits (es : List Ev) : ℝ := evsInfo es + evsTail es

theorem evsBits_append (a b : List Ev) : evsBits (a ++ b) = evsBits a + evsBits b := by
  unfold evsBits; rw [evsInfo_append, evsTail_append]; push_cast; ring
theorem evsBits_cons (e : Ev) (b : List Ev) : evsBits (e :: b) = evInfo e + evTail e + evsBits b := by
  unfold evsBits; rw [evsInfo_cons, evsTail_cons]; push_cast; ring
theorem evsBits_bits (bs : List Bool) : evsBits (bs.map .bit) = bs.length := by
  unfold evsBits; rw [evsInfo_bits, evsTail_bits]; ring

/-- the table entry used for a symbol covers its information -/
theorem specEv_cost {t lev sym : Nat} (ht : t < 1024) (hs : sym < 17) :
    ∃ b : Nat, 2048 * evInfo (specEv t lev sym) ≤ b ∧ ∀ {β : Type} (f : Nat → Res β),
      (idx AC_SPEC_LOOKUP (t + min lev 3 * 1024) >>= fun pki => idx AC_SPEC_BITS pki >>= fun row => idx row sym >>= f) = f b := by
  have hp := specPki_lt t lev
  have h2 : specPki t lev < AC_SPEC_BITS.length := by rw [spec_bits_len]; exact hp
  have h3 : sym < (AC_SPEC_BITS[specPki t lev]).length := by rw [bits_row h2]; exact hs
  refine ⟨(AC_SPEC_BITS[specPki t lev])[sym], ?_, fun f => ?_⟩
  · obtain ⟨h4, h5⟩ := rows_cost spec_cost.1 spec_cost.2 h2 h3
    have h6 : specPki t lev < AC_SPEC_FREQ.length := by rw [spec_freq_len]; exact hp
    have hpos : 0 < (AC_SPEC_FREQ[specPki t lev]).getD sym 0 := by
      obtain ⟨m1, m2⟩ := spec_model t lev
      rw [List.getD_eq_getElem _ _ h6] at m1
      rw [List.getD_eq_getElem _ _ h4]
      exact m1.pos _ (List.getElem_mem h4)
    have := (costOk_iff h5 hpos).1
    unfold specEv modelEv evInfo
    simp only
    rw [List.getD_eq_getElem _ [] h6]
    exact this
  · rw [spec_lookup ht, Res.bind_ok, idx_eq_ok h2, Res.bind_ok, idx_eq_ok h3, Res.bind_ok]

theorem specEv_tail (t lev sym : Nat) : evTail (specEv t lev sym) = 0 := rfl

theorem estEscapes_cost {mode : Bool} {t : Nat} (ht : t < 1024) (fuel : Nat) : ∀ a b lev est lsb, max a b < 4 * 2 ^ fuel →
    ∃ e' l', estEscapes mode t fuel a b (min lev 3) est lsb =
        .ok ((escRun mode t fuel a b lev).2.1, (escRun mode t fuel a b lev).2.2.1, min (escRun mode t fuel a b lev).2.2.2 3, e', l') ∧
      2048 * evsBits (escRun mode t fuel a b lev).1 + est ≤ e' := by
  induction fuel with
  | zero =>
    intro a b lev est lsb hm
    unfold estEscapes escRun
    rw [if_neg (by simp at hm; omega)]
    refine ⟨_, _, rfl, ?_⟩
    simp [evsBits, evsInfo, evsTail]
  | succ fuel ih =>
    intro a b lev est lsb hm
    unfold estEscapes escRun
    by_cases h4 : max a b ≥ 4
    · rw [if_pos h4, if_pos h4]
      simp only
      obtain ⟨bits, hb1, hb⟩ := specEv_cost (lev := lev) (sym := 16) ht (by omega)
      rw [hb]
      have hlt : max (a >>> 1) (b >>> 1) < 4 * 2 ^ fuel := by
        rw [shiftRight_one, shiftRight_one]
        rw [Nat.pow_succ] at hm
        omega
      obtain ⟨e', l', he, hle⟩ := ih (a >>> 1) (b >>> 1) (lev + 1)
        (est + bits + if (min lev 3 == 0 && mode) = true then 0 else 2 * 2048)
        (lsb + if (min lev 3 == 0 && mode) = true then 2 else 0) hlt
      refine ⟨e', l', ?_, ?_⟩
      · rw [← he]
        congr 1
        omega
      · rw [evsBits_cons, evsBits_append, evsBits_bits, specEv_tail]
        have hlen : 2048 * (escBits mode a b lev).length = if (min lev 3 == 0 && mode) = true then 0 else 2 * 2048 := by
          unfold escBits
          by_cases hl : lev = 0
          · subst hl
            cases mode <;> simp
          · have h3 : min lev 3 ≠ 0 := by omega
            simp [hl, h3]
        rw [← hlen] at hle
        push_cast at hle ⊢
        linarith
    · rw [if_neg h4, if_neg h4]
      refine ⟨_, _, rfl, ?_⟩
      simp [evsBits, evsInfo, evsTail]

theorem signBits_length (post : Bool) (x : Int) : (signBits post x).length ≤ if x.natAbs > 0 then 1 else 0 := by
  unfold signBits
  cases post
  · simp only [Bool.false_eq_true, if_false]
    split <;> simp
  · simp only [if_true, Nat.shiftRight_one]
    by_cases h : x.natAbs / 2 > 0
    · rw [if_pos h, if_pos (by omega)]; simp
    · rw [if_neg h]; simp

/-- the size class of the estimate and of the writer agree -/
theorem estCtx {c a b lev : Nat} : (c &&& 15) * 16 + (if min lev 3 ≤ 1 then 1 + (a + b) * (min lev 3 + 1) else 12 + min lev 3) =
    (c &&& 15) * 16 + ctxT a b lev := by
  rfl

variable {α : Type} [Scalar α]

/-- the estimate after the pairs `xs` -/
theorem estPairs_cost {mode : Bool} {rate ne spec : Nat} (hr : rate ≤ 512) (m : Nat) :
    ∀ (xs : List Int) (n : Nat) (s : EstSt), xs.length = 2 * m → (∀ x ∈ xs, x.natAbs < 32768) → s.c < 256 →
    ∃ s', estPairs α mode rate ne spec xs n s = .ok s' ∧
      2048 * evsBits (pairsEv mode rate ne xs n s.c) + s.est ≤ s'.est ∧
      (s'.lastTrunc = s.lastTrunc ∧ s'.trunc = s.trunc ∨
        ∃ j, j ≤ m ∧ 0 < j ∧ s'.lastTrunc = n + 2 * j ∧ bits2048 α s'.trunc ≤ spec ∧
          2048 * evsBits (pairsEv mode rate ne (xs.take (2 * j)) n s.c) + s.est ≤ s'.trunc) := by
  induction m with
  | zero =>
    intro xs n s hl _ hc
    obtain rfl : xs = [] := List.length_eq_zero_iff.1 (by omega)
    refine ⟨s, rfl, ?_, .inl ⟨rfl, rfl⟩⟩
    simp [pairsEv, evsBits, evsInfo, evsTail]
  | succ m ih =>
    intro xs n s hl hx hc
    match xs, hl with
    | x0 :: x1 :: xs, hl =>
    have hx0 := hx x0 (by simp)
    have hx1 := hx x1 (by simp)
    unfold estPairs
    simp only
    obtain ⟨t, ht⟩ : ∃ t, t = s.c + rate + if n > ne / 2 then 256 else 0 := ⟨_, rfl⟩
    have ht' : t < 1024 := by rw [ht]; split <;> omega
    rw [← ht]
    obtain ⟨e', l', he, hle⟩ := estEscapes_cost (mode := mode) ht' 16 x0.natAbs x1.natAbs 0
      s.est s.lsb (by norm_num; omega)
    obtain ⟨q1, q2, q3, -⟩ := escOf_eq mode t hx0 hx1
    have hf := escRun_fuel mode t 13 16 x0.natAbs x1.natAbs 0 (by norm_num; omega) (by omega)
    rw [hf] at he hle
    change 2048 * evsBits (escOf mode t x0 x1).1 + _ ≤ _ at hle
    rw [show escRun mode t 13 x0.natAbs x1.natAbs 0 = escOf mode t x0 x1 from rfl, q1] at he
    simp only at he
    rw [show min 0 3 = 0 from rfl] at he
    rw [he]
    simp only [Res.bind_ok]
    obtain ⟨bits, hb1, hb2⟩ := specEv_cost (lev := levOf x0 x1)
      (sym := x0.natAbs / 2 ^ levOf x0 x1 + 4 * (x1.natAbs / 2 ^ levOf x0 x1)) ht' (by omega)
    rw [hb2]
    obtain ⟨est', hest⟩ : ∃ e, e = e' + bits + (if x0.natAbs > 0 then 2048 else 0) + (if x1.natAbs > 0 then 2048 else 0) :=
      ⟨_, rfl⟩
    rw [← hest]
    have hpair : 2048 * evsBits (pairEv mode t x0 x1) + s.est ≤ est' := by
      unfold pairEv
      rw [evsBits_append, evsBits_append, evsBits_bits, evsBits_cons, specEv_tail]
      have s0 := signBits_length (mode && decide (levOf x0 x1 > 0)) x0
      have s1 := signBits_length (mode && decide (levOf x0 x1 > 0)) x1
      have hz : evsBits [] = 0 := by simp [evsBits, evsInfo, evsTail]
      rw [hz, List.length_append]
      have e0 : 2048 * (signBits (mode && decide (levOf x0 x1 > 0)) x0).length +
          2048 * (signBits (mode && decide (levOf x0 x1 > 0)) x1).length + (e' + bits) ≤ est' := by
        have t0 : (if x0.natAbs > 0 then 2048 else 0) = 2048 * (if x0.natAbs > 0 then 1 else 0) := by split <;> rfl
        have t1 : (if x1.natAbs > 0 then 2048 else 0) = 2048 * (if x1.natAbs > 0 then 1 else 0) := by split <;> rfl
        rw [hest, t0, t1]; omega
      have e0' : 2048 * ((signBits (mode && decide (levOf x0 x1 > 0)) x0).length : ℝ) +
          2048 * ((signBits (mode && decide (levOf x0 x1 > 0)) x1).length : ℝ) + (e' + bits) ≤ est' := by exact_mod_cast e0
      push_cast
      linarith
    obtain ⟨lsb', hlsb⟩ : ∃ e, e = (if (decide (min (levOf x0 x1) 3 > 0) && mode) = true then
        l' + (if x0.natAbs >>> 1 = 0 ∧ x0 ≠ 0 then 1 else 0) + (if x1.natAbs >>> 1 = 0 ∧ x1 ≠ 0 then 1 else 0)
      else l') := ⟨_, rfl⟩
    rw [← hlsb]
    obtain ⟨s', h1, h2, h3⟩ := ih xs (n + 2)
      { est := est'
        trunc := if (x0 ≠ 0 ∨ x1 ≠ 0) ∧ bits2048 α est' ≤ spec then est' else s.trunc
        lsb := lsb'
        lastTrunc := if (x0 ≠ 0 ∨ x1 ≠ 0) ∧ bits2048 α est' ≤ spec then n + 2 else s.lastTrunc
        c := pairCtx s.c x0 x1 }
      (by simp at hl; omega) (fun x hx' => hx x (by simp [hx'])) (pairCtx_lt _ hx0 hx1)
    refine ⟨s', h1, ?_, ?_⟩
    · simp only at h2
      rw [pairsEv, ← ht, evsBits_append]
      linarith
    · rcases h3 with ⟨h3, h3'⟩ | ⟨j, hj, hj0, h3, h3', h3''⟩
      · simp only at h3 h3'
        by_cases hk : (x0 ≠ 0 ∨ x1 ≠ 0) ∧ bits2048 α est' ≤ spec
        · rw [if_pos hk] at h3 h3'
          refine .inr ⟨1, by omega, by omega, by omega, by rw [h3']; exact hk.2, ?_⟩
          rw [h3', show 2 * 1 = 0 + 1 + 1 by rfl, List.take_succ_cons, List.take_succ_cons, List.take_zero, pairsEv, ← ht,
            evsBits_append]
          have hz : evsBits (pairsEv mode rate ne [] (n + 2) (pairCtx s.c x0 x1)) = 0 := by
            simp [pairsEv, evsBits, evsInfo, evsTail]
          rw [hz]
          linarith
        · rw [if_neg hk] at h3 h3'
          exact .inl ⟨h3, h3'⟩
      · refine .inr ⟨j + 1, by omega, by omega, by omega, h3', ?_⟩
        simp only at h3''
        rw [show 2 * (j + 1) = 2 * j + 1 + 1 by ring, List.take_succ_cons, List.take_succ_cons, pairsEv, ← ht, evsBits_append]
        linarith

/-! ### Events and the specification -/

def isSym : Ev → Bool
  | .sym _ _ => true
  | .bit _ => false

theorem filter_bits (bs : List Bool) : (bs.map Ev.bit).filter isSym = [] := by
  induction bs with
  | nil => rfl
  | cons b bs ih => rw [List.map_cons, List.filter_cons_of_neg (by simp [isSym]), ih]

theorem evsInfo_filter (es : List Ev) : evsInfo (es.filter isSym) = evsInfo es := by
  induction es with
  | nil => rfl
  | cons e es ih =>
    cases e with
    | sym c f => rw [List.filter_cons_of_pos (by rfl), evsInfo_cons, evsInfo_cons, ih]
    | bit b => rw [List.filter_cons_of_neg (by simp [isSym]), evsInfo_cons, ih]; simp [evInfo]

theorem evsSym_filter (es : List Ev) : (es.filter isSym).length = evsSym es := by
  induction es with
  | nil => rfl
  | cons e es ih =>
    cases e with
    | sym c f => rw [List.filter_cons_of_pos (by rfl), evsSym_cons, List.length_cons, ih]; simp [evSym]; omega
    | bit b => rw [List.filter_cons_of_neg (by simp [isSym]), evsSym_cons, ih]; simp [evSym]

/-- the event of a symbol of the specification -/
def symEv (e : Nat × Nat) : Ev :=
  modelEv (AC_SPEC_CUMFREQ.getD (AC_SPEC_LOOKUP.getD e.1 0) []) (AC_SPEC_FREQ.getD (AC_SPEC_LOOKUP.getD e.1 0) []) e.2

theorem specEv_symEv (t lev sym : Nat) : specEv t lev sym = symEv (t + min lev 3 * 1024, sym) := rfl

theorem isSym_specEv (t lev sym : Nat) : isSym (specEv t lev sym) = true := rfl

open Context in
theorem escRun_syms (lsb : Bool) (t : Nat) : ∀ (n a b lev : Nat), max a b < 4 * 2 ^ n →
    (escRun lsb t n a b lev).1.filter isSym =
      ((List.range (escapes a b)).map fun l => symEv (t + min (lev + l) 3 * 1024, 16)) ∧
    (escRun lsb t n a b lev).2.2.2 = lev + escapes a b ∧
    evsTail (escRun lsb t n a b lev).1 = 2 * (if lsb = true ∧ lev = 0 then escapes a b - 1 else escapes a b) := by
  intro n
  induction n with
  | zero =>
    intro a b lev h
    rw [escapes_small (by simpa using h)]
    simp [escRun, evsTail]
  | succ n ih =>
    intro a b lev h
    unfold escRun
    by_cases h4 : max a b ≥ 4
    · rw [if_pos h4]
      simp only
      obtain ⟨i1, i2, i3⟩ := ih (a >>> 1) (b >>> 1) (lev + 1) (by
        rw [shiftRight_one, shiftRight_one]; rw [Nat.pow_succ] at h; omega)
      rw [escapes_half h4]
      refine ⟨?_, by rw [i2]; omega, ?_⟩
      · rw [List.filter_cons_of_pos (isSym_specEv _ _ _), List.filter_append, filter_bits, List.nil_append, i1,
          List.range_succ_eq_map, List.map_cons, List.map_map, specEv_symEv, Nat.add_zero]
        refine congrArg _ ?_
        apply List.map_congr_left
        intro l _
        simp only [Function.comp]
        rw [show lev + 1 + l = lev + l.succ by omega]
      · rw [evsTail_cons, evsTail_append, evsTail_bits, i3, specEv_tail, if_neg (by omega)]
        unfold escBits
        by_cases hl : lsb = true ∧ lev = 0
        · rw [if_pos (by simp [hl.1, hl.2]), if_pos hl]; simp
        · rw [if_neg (by simpa using hl), if_neg hl]; simp; omega
    · rw [if_neg h4, escapes_small (by omega)]
      simp [evsTail]

open Context in
theorem levOf_eq {x0 x1 : Int} (h0 : x0.natAbs < 32768) (h1 : x1.natAbs < 32768) : levOf x0 x1 = escapes x0.natAbs x1.natAbs := by
  have := (escRun_syms false 0 13 x0.natAbs x1.natAbs 0 (by norm_num; omega)).2.1
  unfold levOf
  rw [this]; omega

open Context in
theorem pairEv_facts (lsb : Bool) (t : Nat) {x0 x1 : Int} (h0 : x0.natAbs < 32768) (h1 : x1.natAbs < 32768) :
    (pairEv lsb t x0 x1).filter isSym = (((List.range (escapes x0.natAbs x1.natAbs)).map fun l => (t + min (0 + l) 3 * 1024, 16)) ++
      [(t + min (escapes x0.natAbs x1.natAbs) 3 * 1024, (ofMagnitudes x0.natAbs x1.natAbs).a +
        4 * (ofMagnitudes x0.natAbs x1.natAbs).b)]).map symEv ∧
    evsTail (pairEv lsb t x0 x1) = plainPair lsb x0 x1 := by
  obtain ⟨i1, i2, i3⟩ := escRun_syms lsb t 13 x0.natAbs x1.natAbs 0 (by norm_num; omega)
  unfold pairEv
  constructor
  · rw [List.filter_append, List.filter_append, filter_bits, List.append_nil, List.map_append, List.map_map]
    unfold escOf
    rw [i1, List.filter_cons_of_pos (isSym_specEv _ _ _), levOf_eq h0 h1]
    rfl
  · rw [evsTail_append, evsTail_append, evsTail_bits]
    unfold escOf
    rw [i3, levOf_eq h0 h1, evsTail_cons, specEv_tail, List.length_append]
    unfold plainPair
    simp only
    have hs : ∀ x : Int, (signBits (lsb && decide (escapes x0.natAbs x1.natAbs > 0)) x).length =
        if x = 0 ∨ (lsb = true ∧ 0 < escapes x0.natAbs x1.natAbs ∧ x.natAbs = 1) then 0 else 1 := by
      intro x
      generalize escapes x0.natAbs x1.natAbs = e
      unfold signBits
      rw [Nat.shiftRight_one]
      by_cases hp : lsb = true ∧ 0 < e
      · have hp' : (lsb && decide (e > 0)) = true := by simp [hp.1, hp.2]
        simp only [hp', if_true]
        by_cases hx : x.natAbs / 2 > 0
        · rw [if_pos hx, if_neg (by omega)]; rfl
        · rw [if_neg hx, if_pos (by by_cases h : x = 0 <;> [exact .inl h; exact .inr ⟨hp.1, hp.2, by omega⟩])]; rfl
      · have hp' : (lsb && decide (e > 0)) = false := by
          cases lsb
          · rfl
          · simp at hp ⊢; exact hp
        simp only [hp', Bool.false_eq_true, if_false]
        by_cases hx : x.natAbs > 0
        · rw [if_pos hx, if_neg (by rintro (h | ⟨h, h', -⟩) <;> [omega; exact hp ⟨h, h'⟩])]; rfl
        · rw [if_neg hx, if_pos (by omega)]; rfl
    rw [hs, hs]
    have e0 : evsTail [] = 0 := rfl
    rw [e0]
    cases lsb <;> simp <;> omega

open Context in
theorem pairsEv_syms {lsb : Bool} {rf ne : Nat} (all : List Int) (hall : ∀ x ∈ all, x.natAbs < 32768) :
    ∀ (n : Nat) (xs : List Int) (k : Nat), xs.length = 2 * n →
      all.drop (2 * k) = xs → (ofLines all).drop k = ofLines xs → (ofLines all).length = k + n →
      (pairsEv lsb rf ne xs (2 * k) (ctxAt (ofLines all) k)).filter isSym = (symbolsFrom 15 rf ne (ofLines all) k).map symEv ∧
      evsTail (pairsEv lsb rf ne xs (2 * k) (ctxAt (ofLines all) k)) = plainBits lsb xs := by
  intro n
  induction n with
  | zero =>
    intro xs k hl _ hp hn
    have : xs = [] := List.length_eq_zero_iff.1 (by omega)
    subst this
    rw [show k = (ofLines all).length by omega, symbolsFrom_end]
    simp [pairsEv, evsTail, plainBits]
  | succ n ih =>
    intro xs k hl hd hp hn
    match xs, hl with
    | x0 :: x1 :: xs, hl =>
      have hk : (ofLines all)[k]? = some (ofMagnitudes x0.natAbs x1.natAbs) := by
        have : ((ofLines all).drop k)[0]? = some (ofMagnitudes x0.natAbs x1.natAbs) := by rw [hp]; rfl
        rwa [List.getElem?_drop, Nat.add_zero] at this
      have m0 : x0 ∈ all := by
        have : x0 ∈ all.drop (2 * k) := by rw [hd]; simp
        exact List.mem_of_mem_drop this
      have m1 : x1 ∈ all := by
        have : x1 ∈ all.drop (2 * k) := by rw [hd]; simp
        exact List.mem_of_mem_drop this
      have b0 := hall x0 m0
      have b1 := hall x1 m1
      have hlev : escapes x0.natAbs x1.natAbs < 15 := by
        apply escapes_lt _ (by omega)
        omega
      have hctx : pairCtx (ctxAt (ofLines all) k) x0 x1 = ctxAt (ofLines all) (k + 1) := by
        rw [ctxAt_succ (ofLines_sizes _ _ (le_refl _)) hk]
        unfold pairCtx
        rw [ctxT_eq, levOf_eq b0 b1]
        rfl
      obtain ⟨i1, i2⟩ := ih xs (k + 1) (by simp at hl; omega)
        (by rw [show 2 * (k + 1) = 2 * k + 2 by ring, ← List.drop_drop, hd]; rfl)
        (by rw [← List.drop_drop, hp]; rfl) (by omega)
      obtain ⟨p1, p2⟩ := pairEv_facts lsb (ctxAt (ofLines all) k + rf + if 2 * k > ne / 2 then 256 else 0) b0 b1
      simp only [pairsEv]
      rw [hctx, show 2 * k + 2 = 2 * (k + 1) by ring, List.filter_append, evsTail_append, i1, i2, p1, p2, symbolsFrom_step hk]
      simp only [ofMagnitudes]
      rw [pair_symbols _ (ctxAt (ofLines all) k + rf + if 2 * k > ne / 2 then 256 else 0) _ _ 15 hlev _
        (fun l => modelIndex_eq rf ne _ k l)]
      simp [plainBits]

open Context in
/-- the events of a spectrum: information, number of symbols, plain bits -/
theorem pairsEv_spec {lsb : Bool} {rf ne : Nat} {xs : List Int} (hx : ∀ x ∈ xs, x.natAbs < 32768) (he : xs.length % 2 = 0) :
    evsInfo (pairsEv lsb rf ne xs 0 0) = symbolInfo rf ne xs ∧ evsSym (pairsEv lsb rf ne xs 0 0) = symbolCount rf ne xs ∧
      evsTail (pairsEv lsb rf ne xs 0 0) = plainBits lsb xs := by
  obtain ⟨h1, h2⟩ := pairsEv_syms (lsb := lsb) (rf := rf) (ne := ne) xs hx (xs.length / 2) xs 0 (by omega) (by simp) (by simp)
    (by rw [ofLines_length (xs.length / 2) _ (by omega)]; omega)
  rw [ctxAt_zero, Nat.mul_zero] at h1 h2
  refine ⟨?_, ?_, h2⟩
  · rw [← evsInfo_filter, h1]
    unfold symbolInfo evsInfo
    rw [symbols_eq, List.map_map]
    congr 1
  · rw [← evsSym_filter, h1, List.length_map, ← symbols_eq]
    rfl

end Lc3
