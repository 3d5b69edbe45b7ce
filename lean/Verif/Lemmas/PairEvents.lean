import Verif.Lemmas.SpecEvents
/-! Pairs of spectral lines: encoder as event list, decoder in lock step. -/

namespace Lc3
open Tables

theorem escRun_fuel (lsb : Bool) (t : Nat) (n m a b lev : Nat) (hab : max a b < 4 * 2 ^ n) (hnm : n ≤ m) :
    escRun lsb t m a b lev = escRun lsb t n a b lev := by
  induction n generalizing m a b lev with
  | zero =>
    cases m with
    | zero => rfl
    | succ m => unfold escRun; rw [if_neg (by omega)]
  | succ n ih =>
    cases m with
    | zero => omega
    | succ m =>
      unfold escRun
      by_cases h4 : max a b ≥ 4
      · simp only [h4, if_true]
        rw [ih m _ _ _ (by rw [Nat.shiftRight_one, Nat.shiftRight_one]; rw [pow_succ] at hab; omega) (by omega)]
      · simp only [h4, if_false]

/-- result of the escape loop for a pair of lines -/
def escOf (lsb : Bool) (t : Nat) (x0 x1 : Int) : List Ev × Nat × Nat × Nat :=
  escRun lsb t 13 x0.natAbs x1.natAbs 0

/-- number of escapes of a pair -/
def levOf (x0 x1 : Int) : Nat := (escRun false 0 13 x0.natAbs x1.natAbs 0).2.2.2

theorem escRun_indep (lsb lsb' : Bool) (t t' n a b lev : Nat) :
    (escRun lsb t n a b lev).2 = (escRun lsb' t' n a b lev).2 := by
  induction n generalizing a b lev with
  | zero => rfl
  | succ n ih =>
    unfold escRun
    by_cases h4 : max a b ≥ 4
    · simp only [h4, if_true]; exact ih _ _ _
    · simp only [h4, if_false]

theorem escOf_eq (lsb : Bool) (t : Nat) {x0 x1 : Int} (h0 : x0.natAbs < 32768) (h1 : x1.natAbs < 32768) :
    (escOf lsb t x0 x1).2 = (x0.natAbs / 2 ^ levOf x0 x1, x1.natAbs / 2 ^ levOf x0 x1, levOf x0 x1) ∧
    x0.natAbs / 2 ^ levOf x0 x1 < 4 ∧ x1.natAbs / 2 ^ levOf x0 x1 < 4 ∧ levOf x0 x1 ≤ 13 := by
  obtain ⟨k, h2, h3, h4, h5, _⟩ := escRun_spec false 0 13 x0.natAbs x1.natAbs 0 (by omega)
  have hl : levOf x0 x1 = k := by unfold levOf; rw [h3]; simp
  unfold escOf
  rw [escRun_indep lsb false t 0, h3, hl, Nat.zero_add]
  exact ⟨rfl, h4, h5, h2⟩

/-- sign bit of a line if the magnitude sent with the symbol is not zero -/
def signBits (post : Bool) (x : Int) : List Bool :=
  if (if post then x.natAbs >>> 1 else x.natAbs) > 0 then [decide (x ≤ 0)] else []

/-- context contribution and events of a pair -/
def pairEv (lsb : Bool) (t : Nat) (x0 x1 : Int) : List Ev :=
  (escOf lsb t x0 x1).1 ++
    [specEv t (levOf x0 x1) (x0.natAbs / 2 ^ levOf x0 x1 + 4 * (x1.natAbs / 2 ^ levOf x0 x1))] ++
    (signBits (lsb && decide (levOf x0 x1 > 0)) x0 ++ signBits (lsb && decide (levOf x0 x1 > 0)) x1).map .bit

def pairCtx (c : Nat) (x0 x1 : Int) : Nat :=
  (c &&& 15) * 16 + ctxT (x0.natAbs / 2 ^ levOf x0 x1) (x1.natAbs / 2 ^ levOf x0 x1) (levOf x0 x1)

/-- events of all pairs from line `k` on -/
def pairsEv (lsb : Bool) (rateFlag ne : Nat) : List Int → Nat → Nat → List Ev
  | x0 :: x1 :: xs, k, c =>
    pairEv lsb (c + rateFlag + if k > ne / 2 then 256 else 0) x0 x1 ++
      pairsEv lsb rateFlag ne xs (k + 2) (pairCtx c x0 x1)
  | _, _, _ => []

/-- postponed bits of all pairs -/
def pairsLsbs (lsb : Bool) : List Int → List Bool
  | x0 :: x1 :: xs =>
    (if lsb && decide (levOf x0 x1 > 0) then pairLsbs x0 x1 else []) ++ pairsLsbs lsb xs
  | _ => []

theorem ctxT_lt {a b lev : Nat} (ha : a < 4) (hb : b < 4) : ctxT a b lev < 16 := by
  unfold ctxT
  simp only
  split
  · have h : min lev 3 = 0 ∨ min lev 3 = 1 := by omega
    rcases h with h | h <;> rw [h] <;> omega
  · omega

theorem pairCtx_lt (c : Nat) {x0 x1 : Int} (h0 : x0.natAbs < 32768) (h1 : x1.natAbs < 32768) :
    pairCtx c x0 x1 < 256 := by
  obtain ⟨-, h2, h3, -⟩ := escOf_eq false 0 h0 h1
  have := ctxT_lt (lev := levOf x0 x1) h2 h3
  unfold pairCtx
  have hc : c &&& 15 ≤ 15 := Nat.and_le_right
  omega

theorem encBools_append2 (a b : List Bool) (s : EncSt) :
    encBools (a ++ b) s = (encBools a s >>= encBools b) := encBools_append a b s

theorem signBits_enc (post : Bool) (x : Int) (s : EncSt) :
    (if (if post then x.natAbs >>> 1 else x.natAbs) > 0 then s.bool (decide (x ≤ 0)) else .ok s) =
      encBools (signBits post x) s := by
  unfold signBits
  by_cases h : (if post then x.natAbs >>> 1 else x.natAbs) > 0
  · rw [if_pos h, if_pos h]; simp only [encBools, bind_ok_right]
  · rw [if_neg h, if_neg h]; rfl

theorem encPairs_eq {lsb : Bool} {rf ne nl : Nat} (hrf : rf ≤ 512) :
    ∀ (n : Nat) (xs : List Int) (k c : Nat) (acc : List Bool) (s : EncSt), xs.length = 2 * n → c < 256 →
      (∀ x ∈ xs, x.natAbs < 32768) → acc.length + (pairsLsbs lsb xs).length ≤ nl →
      encPairs lsb rf ne nl xs k c acc s =
        (runEv (pairsEv lsb rf ne xs k c) s >>= fun s => .ok (acc ++ pairsLsbs lsb xs, s)) := by
  intro n
  induction n with
  | zero =>
    intro xs k c acc s hl hc hx hacc
    have : xs = [] := List.length_eq_zero_iff.1 (by omega)
    subst this
    simp [encPairs, pairsEv, pairsLsbs, runEv]
  | succ n ih =>
    intro xs k c acc s hl hc hx hacc
    match xs, hl with
    | x0 :: x1 :: xs, hl =>
      have h0 : x0.natAbs < 32768 := hx x0 (by simp)
      have h1 : x1.natAbs < 32768 := hx x1 (by simp)
      obtain ⟨he, ha, hb, hlev⟩ := escOf_eq lsb (c + rf + if k > ne / 2 then 256 else 0) h0 h1
      have ht : c + rf + (if k > ne / 2 then 256 else 0) < 1024 := by split <;> omega
      simp only [encPairs, pairsEv]
      generalize htt : c + rf + (if k > ne / 2 then 256 else 0) = t at *
      rw [encEscapes_eq ht 16 _ _ _ (by omega), escRun_fuel lsb t 13 16 _ _ _ (by omega) (by omega)]
      change (runEv (escOf lsb t x0 x1).1 s >>= _) >>= _ = _
      rw [show escRun lsb t 13 x0.natAbs x1.natAbs 0 = escOf lsb t x0 x1 from rfl, he]
      unfold pairEv
      rw [runEv_append, runEv_append, runEv_append]
      simp only [Res.bind_assoc, Res.bind_ok]
      congr 1
      funext s1
      rw [encSym_eq ht (by omega)]
      congr 1
      funext s2
      rw [runEv_bits, encBools_append2]
      simp only [pairsLsbs] at hacc ⊢
      generalize hp : (lsb && decide (levOf x0 x1 > 0)) = post at *
      have hlen : (if post = true then acc ++ pairLsbs x0 x1 else acc).length ≤ nl := by
        cases post with
        | true => simp only [if_true, List.length_append] at hacc ⊢; omega
        | false => simp only [Bool.false_eq_true, if_false] at hacc ⊢; omega
      rw [if_neg (by omega), signBits_enc, Res.bind_assoc]
      congr 1
      funext s3
      rw [signBits_enc]
      congr 1
      funext s4
      rw [show (c &&& 15) * 16 + ctxT (x0.natAbs / 2 ^ levOf x0 x1) (x1.natAbs / 2 ^ levOf x0 x1)
        (levOf x0 x1) = pairCtx c x0 x1 from rfl]
      rw [ih xs (k + 2) (pairCtx c x0 x1) _ s4 (by simp at hl; omega) (pairCtx_lt c h0 h1)
        (fun x hx' => hx x (by simp [hx']))
        (by
          cases post with
          | true => simp only [if_true, List.length_append] at hacc ⊢; omega
          | false => simp only [Bool.false_eq_true, if_false, List.length_append, List.length_nil] at hacc ⊢; omega)]
      congr 1
      funext s5
      cases post with
      | true => simp
      | false => simp

theorem pairEv_valid (lsb : Bool) (t : Nat) {x0 x1 : Int} (h0 : x0.natAbs < 32768)
    (h1 : x1.natAbs < 32768) : ∀ e ∈ pairEv lsb t x0 x1, e.Valid := by
  obtain ⟨he, ha, hb, hlev⟩ := escOf_eq lsb t h0 h1
  intro e hm
  unfold pairEv at hm
  rw [List.mem_append, List.mem_append, List.mem_singleton, List.mem_map] at hm
  rcases hm with (hm | rfl) | ⟨b', _, rfl⟩
  · exact escRun_valid _ _ _ _ _ _ e hm
  · exact specEv_valid (by omega)
  · trivial

theorem pairsEv_valid (lsb : Bool) (rf ne : Nat) : ∀ (n : Nat) (xs : List Int) (k c : Nat),
    xs.length = 2 * n → (∀ x ∈ xs, x.natAbs < 32768) → ∀ e ∈ pairsEv lsb rf ne xs k c, e.Valid := by
  intro n
  induction n with
  | zero =>
    intro xs k c hl hx e he
    have : xs = [] := List.length_eq_zero_iff.1 (by omega)
    subst this
    simp [pairsEv] at he
  | succ n ih =>
    intro xs k c hl hx e he
    match xs, hl with
    | x0 :: x1 :: xs, hl =>
      simp only [pairsEv, List.mem_append] at he
      rcases he with he | he
      · exact pairEv_valid lsb _ (hx x0 (by simp)) (hx x1 (by simp)) e he
      · exact ih xs _ _ (by simp at hl; omega) (fun x hx' => hx x (by simp [hx'])) e he

/-- what the decoder reconstructs for a line before the refinement bits -/
def coarse (post : Bool) (x : Int) : Int :=
  if post then (if x < 0 then -((x.natAbs / 2 * 2 : Nat) : Int) else ((x.natAbs / 2 * 2 : Nat) : Int)) else x

theorem low_add_high (lsb : Bool) (a lev : Nat) :
    lowPart lsb a lev + (a / 2 ^ lev) <<< lev = if lsb && decide (lev > 0) then a / 2 * 2 else a := by
  rw [Nat.shiftLeft_eq]
  have hd := Nat.mod_add_div a (2 ^ lev)
  unfold lowPart
  cases lsb with
  | false => simp only [Bool.false_and, Bool.false_eq_true, if_false]; rw [Nat.mul_comm]; exact hd
  | true =>
    simp only [if_true, Bool.true_and]
    cases lev with
    | zero => simp [Nat.mod_one]
    | succ l =>
      have hp : (2 : Nat) ^ (l + 1) = 2 * 2 ^ l := by rw [pow_succ]; ring
      have hm : a / 2 ^ (l + 1) * 2 ^ (l + 1) = 2 * (a / 2 ^ (l + 1) * 2 ^ l) := by
        conv_lhs => rw [show a / 2 ^ (l + 1) * 2 ^ (l + 1) = a / 2 ^ (l + 1) * (2 * 2 ^ l) by rw [← hp]]
        ring
      rw [Nat.mul_comm (2 ^ (l + 1))] at hd
      rw [hm] at hd ⊢
      simp only [show l + 1 > 0 by omega, decide_true, if_true]
      omega

theorem readTailBool_run {buf : List Nat} {σ : ASt} {b : Bool} (h : Good buf (σ.run [.bit b])) :
    (decRd σ).readTailBool buf = .ok (b, decRd (σ.run [.bit b])) := decRd_bit h

theorem decodeSign_spec {buf : List Nat} {σ : ASt} {post : Bool} {x : Int}
    (h : Good buf (σ.run ((signBits post x).map .bit))) :
    decodeSign buf (decRd σ) (if post then x.natAbs / 2 * 2 else x.natAbs) =
      .ok (coarse post x, decRd (σ.run ((signBits post x).map .bit))) := by
  have hpos : ((if post then x.natAbs >>> 1 else x.natAbs) > 0) ↔
      (if post then x.natAbs / 2 * 2 else x.natAbs) > 0 := by
    cases post
    · simp
    · simp only [if_true, Nat.shiftRight_one]; omega
  unfold signBits at h ⊢
  unfold decodeSign
  by_cases hx : (if post then x.natAbs / 2 * 2 else x.natAbs) > 0
  · rw [if_pos hx]
    rw [if_pos (hpos.2 hx)] at h ⊢
    simp only [List.map_cons, List.map_nil] at h ⊢
    rw [readTailBool_run h]
    simp only [Res.bind_ok]
    congr 2
    unfold coarse
    cases post with
    | true =>
      simp only [if_true] at hx ⊢
      by_cases hn : x < 0
      · simp [hn, show x ≤ 0 by omega]
      · have : ¬ x ≤ 0 := by omega
        simp [hn, this]
    | false =>
      simp only [Bool.false_eq_true, if_false] at hx ⊢
      by_cases hn : x ≤ 0
      · simp only [hn, decide_true, if_true]; omega
      · simp only [hn, decide_false, Bool.false_eq_true, if_false]; omega
  · rw [if_neg hx]
    rw [if_neg (fun h' => hx (hpos.1 h'))]
    simp only [List.map_nil, ASt.run]
    congr 2
    unfold coarse
    cases post with
    | true =>
      simp only [if_true] at hx ⊢
      have : x.natAbs / 2 * 2 = 0 := by omega
      rw [this]; split <;> rfl
    | false =>
      simp only [Bool.false_eq_true, if_false] at hx ⊢
      omega

/-- decoded pairs -/
def pairsDec (lsb : Bool) : List Int → List (Int × Int × Nat)
  | x0 :: x1 :: xs =>
    (coarse (lsb && decide (levOf x0 x1 > 0)) x0, coarse (lsb && decide (levOf x0 x1 > 0)) x1, levOf x0 x1) ::
      pairsDec lsb xs
  | _ => []

theorem sym_low {a b : Nat} (ha : a < 4) : (a + 4 * b) &&& 3 = a := by
  rw [show (3 : Nat) = 2 ^ 2 - 1 from rfl, Nat.and_two_pow_sub_one_eq_mod]; omega

theorem sym_high {a b : Nat} (ha : a < 4) : (a + 4 * b) >>> 2 = b := by
  rw [Nat.shiftRight_eq_div_pow]; omega

theorem decodePairs_spec {buf : List Nat} {lsb : Bool} {rf ne : Nat} (hrf : rf ≤ 512) :
    ∀ (n : Nat) (xs : List Int) (k c : Nat) (σ : ASt), xs.length = 2 * n → c < 256 →
      (∀ x ∈ xs, x.natAbs < 32768) → σ.Ok → Good buf (σ.run (pairsEv lsb rf ne xs (2 * k) c)) →
      decodePairs buf lsb rf ne n k c (decRd σ) (decAc buf σ) =
        .ok (pairsDec lsb xs, decAc buf (σ.run (pairsEv lsb rf ne xs (2 * k) c)),
          decRd (σ.run (pairsEv lsb rf ne xs (2 * k) c))) := by
  intro n
  induction n with
  | zero =>
    intro xs k c σ hl hc hx ho hg
    have : xs = [] := List.length_eq_zero_iff.1 (by omega)
    subst this
    simp [decodePairs, pairsEv, pairsDec, ASt.run]
  | succ n ih =>
    intro xs k c σ hl hc hx ho hg
    match xs, hl with
    | x0 :: x1 :: xs, hl =>
      have h0 : x0.natAbs < 32768 := hx x0 (by simp)
      have h1 : x1.natAbs < 32768 := hx x1 (by simp)
      have hk : k * 2 = 2 * k := by omega
      unfold decodePairs
      simp only [pairsEv] at hg ⊢
      rw [hk]
      obtain ⟨he, ha, hb, hlev⟩ := escOf_eq lsb (c + rf + if 2 * k > ne / 2 then 256 else 0) h0 h1
      have ht : c + rf + (if 2 * k > ne / 2 then 256 else 0) < 1024 := by split <;> omega
      generalize htt : c + rf + (if 2 * k > ne / 2 then 256 else 0) = t at *
      rw [ASt.run_append] at hg ⊢
      have hv2 := pairsEv_valid lsb rf ne n xs (2 * k + 2) (pairCtx c x0 x1) (by simp at hl; omega)
        (fun x hx' => hx x (by simp [hx']))
      have hvp := pairEv_valid lsb t h0 h1
      have hop := ho.run hvp
      have hgp := hg.back_run _ hop hv2
      generalize hσf : (σ.run (pairEv lsb t x0 x1)) = σf at hg hgp hop ⊢
      unfold pairEv at hσf
      rw [ASt.run_append, List.map_append, ASt.run_append] at hσf
      generalize hσ1 : (σ.run ((escOf lsb t x0 x1).1 ++ [specEv t (levOf x0 x1)
        (x0.natAbs / 2 ^ levOf x0 x1 + 4 * (x1.natAbs / 2 ^ levOf x0 x1))])) = σ1 at hσf
      generalize hpost : (lsb && decide (levOf x0 x1 > 0)) = post at *
      have hvb : ∀ (l : List Bool), ∀ e ∈ l.map Ev.bit, e.Valid := by
        intro l e he; obtain ⟨b', _, rfl⟩ := List.mem_map.1 he; trivial
      have ho1 : σ1.Ok := by
        rw [← hσ1]; refine ho.run ?_
        intro e hm
        rcases List.mem_append.1 hm with hm | hm
        · exact escRun_valid _ _ _ _ _ _ e hm
        · rw [List.mem_singleton.1 hm]; exact specEv_valid (by omega)
      generalize hσ2 : σ1.run ((signBits post x0).map .bit) = σ2 at hσf
      have ho2 : σ2.Ok := by rw [← hσ2]; exact ho1.run (hvb _)
      have hg2 : Good buf σ2 := by rw [← hσf] at hgp; exact hgp.back_run _ ho2 (hvb _)
      have hg1 : Good buf σ1 := by rw [← hσ2] at hg2; exact hg2.back_run _ ho1 (hvb _)
      have hesc := decodeEscapes_spec (buf := buf) (lsb := lsb) ht x0.natAbs x1.natAbs 13 x0.natAbs x1.natAbs 0 0 σ
        (by simp) (by simp) (by omega) ho
      rw [show escRun lsb t 13 x0.natAbs x1.natAbs 0 = escOf lsb t x0 x1 from rfl, he] at hesc
      simp only at hesc
      rw [hσ1] at hesc
      have hesc := hesc hg1
      rw [lowPart_zero, lowPart_zero] at hesc
      rw [hesc]
      simp only [Res.bind_ok]
      rw [sym_low ha, sym_high ha, low_add_high, low_add_high, hpost]
      have hs0 := decodeSign_spec (buf := buf) (σ := σ1) (post := post) (x := x0) (by rw [hσ2]; exact hg2)
      rw [hs0, hσ2]
      simp only [Res.bind_ok]
      have hs1 := decodeSign_spec (buf := buf) (σ := σ2) (post := post) (x := x1) (by rw [hσf]; exact hgp)
      rw [hs1, hσf]
      simp only [Res.bind_ok]
      have hac : decAc buf σ1 = decAc buf σf := by
        rw [← hσf, ← hσ2, ASt.run_bits, ASt.run_bits]; rfl
      rw [hac]
      rw [show (c &&& 15) * 16 + ctxT (x0.natAbs / 2 ^ levOf x0 x1) (x1.natAbs / 2 ^ levOf x0 x1)
        (levOf x0 x1) = pairCtx c x0 x1 from rfl]
      have := ih xs (k + 1) (pairCtx c x0 x1) σf (by simp at hl; omega) (pairCtx_lt c h0 h1)
        (fun x hx' => hx x (by simp [hx'])) hop hg
      rw [this]
      simp only [Res.bind_ok, pairsDec, hpost]
      rfl

end Lc3
