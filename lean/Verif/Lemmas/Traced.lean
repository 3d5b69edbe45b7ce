import Verif.Model.Traced
import Verif.Spec.Context
import Verif.Lemmas.FrameDec
import Verif.Lemmas.SafeRead
/-! The logging copies: dropping the log gives the models, and what the logs hold. -/

namespace Lc3
open Tables Logged

section erase
variable {ε α β : Type}

@[simp] theorem snd_bind (m : Logged ε α) (f : α → Logged ε β) :
    (m >>= f : Logged ε β).2 = (m.2 >>= fun a => (f a).2) := by
  rcases m with ⟨l, _ | _ | _⟩ <;> rfl

@[simp] theorem snd_lift (r : Res α) : (lift r : Logged ε α).2 = r := rfl

@[simp] theorem fst_lift (r : Res α) : (lift r : Logged ε α).1 = [] := rfl

@[simp] theorem snd_log (e : ε) : (log e).2 = .ok () := rfl

@[simp] theorem fst_log (e : ε) : (log e).1 = [e] := rfl

theorem snd_ite (c : Prop) [Decidable c] (a b : Logged ε α) :
    (if c then a else b : Logged ε α).2 = if c then a.2 else b.2 := by split <;> rfl

end erase

theorem encSymT_snd (t lev sym : Nat) (s : EncSt) : (encSymT t lev sym s).2 = encSym t lev sym s := by
  simp [encSymT]

theorem encEscapesT_snd (lsb : Bool) (t fuel a b lev : Nat) (s : EncSt) :
    (encEscapesT lsb t fuel a b lev s).2 = encEscapes lsb t fuel a b lev s := by
  induction fuel generalizing a b lev s with
  | zero =>
    unfold encEscapesT encEscapes
    rw [snd_ite]; rfl
  | succ n ih =>
    unfold encEscapesT encEscapes
    rw [snd_ite]
    simp only [snd_bind, encSymT_snd, snd_lift, ih]

theorem encPairsT_snd (lsb : Bool) (rf ne nl : Nat) : ∀ (n : Nat) (xs : List Int), xs.length ≤ n →
    ∀ (k c : Nat) (lsbs : List Bool) (s : EncSt),
    (encPairsT lsb rf ne nl xs k c lsbs s).2 = encPairs lsb rf ne nl xs k c lsbs s := by
  intro n
  induction n with
  | zero =>
    intro xs hl k c lsbs s
    have : xs = [] := List.length_eq_zero_iff.1 (by omega)
    subst this; rfl
  | succ n ih =>
    intro xs hl k c lsbs s
    match xs, hl with
    | [], _ => rfl
    | [_], _ => rfl
    | x0 :: x1 :: xs, hl =>
      simp only [encPairsT, encPairs, snd_bind, encEscapesT_snd]
      congr 1
      funext ⟨⟨a, b, lev⟩, s⟩
      simp only [snd_bind, encSymT_snd]
      congr 1
      funext s
      rw [snd_ite]
      simp only [snd_bind, snd_lift]
      simp only [ih xs (by simp at hl; omega)]

theorem encSpectralT_snd (ne : Nat) (p : FrameParams) (s : EncSt) :
    (encSpectralT ne p s).2 = encSpectral ne p s := by
  unfold encSpectralT encSpectral
  simp only [snd_bind, snd_lift, snd_ite, encPairsT_snd _ _ _ _ _ _ (le_refl _)]

/-- dropping the log of `encodeBodyT` gives `encodeBody` -/
theorem encodeBodyT_snd (ne : Nat) (p : FrameParams) (stale : EncSt) (buf : List Nat) :
    (encodeBodyT ne p stale buf).2 = encodeBody ne p stale buf := by
  unfold encodeBodyT encodeBody
  simp only [snd_bind, snd_lift, encSpectralT_snd]

theorem decodeEscapesT_snd (buf : List Nat) (lsb : Bool) (t fuel lev sym xk xk1 : Nat) (r : Reader) (st : AcDec) :
    (decodeEscapesT buf lsb t fuel lev sym xk xk1 r st).2 = decodeEscapes buf lsb t fuel lev sym xk xk1 r st := by
  induction fuel generalizing lev sym xk xk1 r st with
  | zero => rfl
  | succ n ih =>
    unfold decodeEscapesT decodeEscapes
    simp only [snd_bind, snd_lift, snd_log, snd_ite, Res.bind_ok, ih]

theorem decodePairsT_snd (buf : List Nat) (lsb : Bool) (rf ne n k c : Nat) (r : Reader) (st : AcDec) :
    (decodePairsT buf lsb rf ne n k c r st).2 = decodePairs buf lsb rf ne n k c r st := by
  induction n generalizing k c r st with
  | zero => rfl
  | succ n ih =>
    unfold decodePairsT decodePairs
    simp only [snd_bind, snd_lift, decodeEscapesT_snd, ih]

theorem decodeSpectralDataT_snd (buf : List Nat) (r : Reader) (si : SideInfo) (nbits fsInd ne : Nat) (st : AcDec) :
    (decodeSpectralDataT buf r si nbits fsInd ne st).2 = decodeSpectralData buf r si nbits fsInd ne st := by
  unfold decodeSpectralDataT decodeSpectralData
  simp only [snd_ite, snd_bind, snd_lift, decodePairsT_snd]

/-- dropping the log of `readFrameT` gives `readFrame` -/
theorem readFrameT_snd (checks : Bool) (cfg : Lc3Config) (buf : List Nat) :
    (readFrameT checks cfg buf).2 = readFrame checks cfg buf := by
  unfold readFrameT readFrame arithDecodeT arithDecode
  simp only [snd_bind, snd_lift, decodeSpectralDataT_snd]

/-! Logs of the encoder. -/

/-- the log of `m` is a prefix of `L`, and all of `L` if `m` succeeds -/
def Tr {ε α : Type} (m : Logged ε α) (L : List ε) (Q : α → Prop) : Prop :=
  m.1 <+: L ∧ ∀ a, m.2 = .ok a → m.1 = L ∧ Q a

theorem Tr.bind {ε α β : Type} {m : Logged ε α} {f : α → Logged ε β} {L1 L2 : List ε} {Q : α → Prop}
    {Q' : β → Prop} (h : Tr m L1 Q) (h2 : ∀ a, Q a → Tr (f a) L2 Q') : Tr (m >>= f) (L1 ++ L2) Q' := by
  rcases m with ⟨l, a | _ | _⟩
  · obtain ⟨h1, h3⟩ := h.2 a rfl
    simp only at h1
    subst h1
    obtain ⟨p1, p2⟩ := h2 a h3
    refine ⟨(List.prefix_append_right_inj _).2 p1, ?_⟩
    intro b hb
    obtain ⟨p3, p4⟩ := p2 b hb
    exact ⟨by show _ ++ (f a).1 = _; rw [p3], p4⟩
  · exact ⟨List.IsPrefix.trans h.1 (List.prefix_append _ _), fun b hb => nomatch (show (Res.err : Res β) = .ok b from hb)⟩
  · exact ⟨List.IsPrefix.trans h.1 (List.prefix_append _ _), fun b hb => nomatch (show (Res.panic : Res β) = .ok b from hb)⟩

theorem Tr.lift {ε α : Type} {r : Res α} {Q : α → Prop} (h : ∀ a, r = .ok a → Q a) :
    Tr (lift r : Logged ε α) [] Q := ⟨List.prefix_rfl, fun a ha => ⟨rfl, h a ha⟩⟩

theorem Tr.bindLift {ε α β : Type} {r : Res α} {f : α → Logged ε β} {L : List ε} {Q' : β → Prop}
    (h2 : ∀ a, Tr (f a) L Q') : Tr (Logged.lift r >>= f) L Q' := by
  have := Tr.bind (Tr.lift (ε := ε) (r := r) (Q := fun _ => True) (fun _ _ => trivial)) (fun a _ => h2 a)
  simpa using this

theorem Tr.panic {ε α : Type} {L : List ε} {Q : α → Prop} : Tr (Logged.lift .panic : Logged ε α) L Q :=
  ⟨List.nil_prefix, nofun⟩

theorem tr_encSymT (t lev sym : Nat) (s : EncSt) :
    Tr (encSymT t lev sym s) [(t + min lev 3 * 1024, sym)] (fun _ => True) := by
  unfold encSymT
  refine ⟨?_, ?_⟩
  · show [(t + min lev 3 * 1024, sym)] ++ [] <+: _
    simp
  · intro a _
    refine ⟨?_, trivial⟩
    show [(t + min lev 3 * 1024, sym)] ++ [] = _
    simp

open Context in
theorem escapes_half {a b : Nat} (h : 4 ≤ max a b) : escapes a b = escapes (a >>> 1) (b >>> 1) + 1 := by
  unfold escapes
  rw [Nat.shiftRight_one, Nat.shiftRight_one]
  have e : max (a / 2) (b / 2) = max a b / 2 := by omega
  rw [e]
  generalize max a b = m at h
  have h1 : Nat.log2 m = Nat.log2 (m / 2) + 1 := by
    conv_lhs => rw [Nat.log2_def]
    rw [if_pos (by omega)]
  have h2 : 1 ≤ Nat.log2 (m / 2) := by
    have := (Nat.le_log2 (n := m / 2) (k := 1) (by omega)).2 (by omega)
    exact this
  omega

open Context in
theorem escapes_small {a b : Nat} (h : max a b < 4) : escapes a b = 0 := by
  unfold escapes
  have : Nat.log2 (max a b) < 2 := by
    by_cases h0 : max a b = 0
    · rw [h0]; decide
    · exact (Nat.log2_lt h0).2 (by omega)
  omega

open Context in
theorem tr_encEscapesT (lsb : Bool) (t : Nat) : ∀ (fuel a b lev : Nat) (s : EncSt),
    Tr (encEscapesT lsb t fuel a b lev s)
      ((List.range (escapes a b)).map fun l => (t + min (lev + l) 3 * 1024, 16))
      (fun p => p.1 = (a / 2 ^ escapes a b, b / 2 ^ escapes a b, lev + escapes a b)) := by
  intro fuel
  induction fuel with
  | zero =>
    intro a b lev s
    unfold encEscapesT
    by_cases h : max a b ≥ 4
    · rw [if_pos h]; exact Tr.panic
    · rw [if_neg h, escapes_small (by omega)]
      refine Tr.lift ?_
      rintro _ e
      rw [Res.ok.injEq] at e
      subst e
      simp
  | succ n ih =>
    intro a b lev s
    unfold encEscapesT
    by_cases h : max a b ≥ 4
    · rw [if_pos h, escapes_half h, List.range_succ_eq_map, List.map_cons, List.map_map]
      refine (tr_encSymT t lev 16 s).bind (L2 := _) (fun s _ => ?_)
      refine Tr.bindLift (fun s => ?_)
      have := ih (a >>> 1) (b >>> 1) (lev + 1) s
      refine ⟨?_, ?_⟩
      · have e : (List.map (fun l => (t + min (lev + 1 + l) 3 * 1024, 16)) (List.range (escapes (a >>> 1) (b >>> 1)))) =
            List.map ((fun l => (t + min (lev + l) 3 * 1024, 16)) ∘ Nat.succ)
              (List.range (escapes (a >>> 1) (b >>> 1))) := by
          apply List.map_congr_left
          intro l _
          simp only [Function.comp]
          rw [show lev + 1 + l = lev + l.succ by omega]
        rw [← e]; exact this.1
      · intro p hp
        obtain ⟨h1, h2⟩ := this.2 p hp
        refine ⟨?_, ?_⟩
        · rw [h1]
          apply List.map_congr_left
          intro l _
          simp only [Function.comp]
          rw [show lev + 1 + l = lev + l.succ by omega]
        · simp only at h2 ⊢
          rw [h2, Nat.shiftRight_one, Nat.shiftRight_one, Nat.div_div_eq_div_mul, Nat.div_div_eq_div_mul,
            ← pow_succ', show lev + 1 + escapes (a / 2) (b / 2) = lev + (escapes (a / 2) (b / 2) + 1) by omega]
    · rw [if_neg h, escapes_small (by omega)]
      refine Tr.lift ?_
      rintro _ e
      rw [Res.ok.injEq] at e
      subst e
      simp

open Context in
/-- symbols of the pairs from `k` on -/
def symbolsFrom (rounds rf ne : Nat) (ps : List Pair) (k : Nat) : List (Nat × Nat) :=
  (List.range' k (ps.length - k)).flatMap fun k =>
    (List.range (min ((ps[k]?.map Pair.lev).getD 0 + 1) rounds)).map fun l =>
      (modelIndex rf ne ps k l, symbol (ps[k]?.getD ⟨0, 0, 0⟩) l)

open Context in
theorem symbols_eq (rounds rf ne : Nat) (ps : List Pair) :
    symbols rounds rf ne ps = symbolsFrom rounds rf ne ps 0 := by
  unfold symbols symbolsFrom
  rw [List.range_eq_range', Nat.sub_zero]

open Context in
theorem symbolsFrom_end (rounds rf ne : Nat) (ps : List Pair) : symbolsFrom rounds rf ne ps ps.length = [] := by
  unfold symbolsFrom; simp

open Context in
theorem symbolsFrom_step {rounds rf ne : Nat} {ps : List Pair} {k : Nat} {p : Pair} (h : ps[k]? = some p) :
    symbolsFrom rounds rf ne ps k =
      ((List.range (min (p.lev + 1) rounds)).map fun l => (modelIndex rf ne ps k l, symbol p l)) ++
        symbolsFrom rounds rf ne ps (k + 1) := by
  have hk : k < ps.length := (List.getElem?_eq_some_iff.1 h).1
  unfold symbolsFrom
  rw [show ps.length - k = (ps.length - (k + 1)) + 1 by omega, List.range'_succ, List.flatMap_cons, h]
  rfl

open Context in
/-- the context both sides carry along -/
def ctxAt (ps : List Pair) (k : Nat) : Nat := 16 * sizeBefore ps k 2 + sizeBefore ps k 1

open Context in
theorem ctxAt_zero (ps : List Pair) : ctxAt ps 0 = 0 := by simp [ctxAt, sizeBefore]

theorem ctxT_eq (a b lev : Nat) : ctxT a b lev = (Context.Pair.mk a b lev).size := by
  unfold ctxT Context.Pair.size
  simp only
  by_cases h : lev ≤ 1
  · rw [if_pos (by omega), if_pos h, Nat.min_eq_left (by omega)]
  · rw [if_neg (by omega), if_neg h]

open Context in
/-- the size classes of a list of pairs fit in four bits -/
def SizesOk (ps : List Pair) : Prop := ∀ p ∈ ps, p.size < 16

open Context in
theorem sizeBefore_lt {ps : List Pair} (h : SizesOk ps) (k j : Nat) : sizeBefore ps k j < 16 := by
  unfold sizeBefore
  split
  · omega
  · cases e : ps[k - j]? with
    | none => simp
    | some p => simpa using h p (List.mem_of_getElem? e)

open Context in
theorem ctxAt_lt {ps : List Pair} (h : SizesOk ps) (k : Nat) : ctxAt ps k < 256 := by
  have h1 := sizeBefore_lt h k 2
  have h2 := sizeBefore_lt h k 1
  unfold ctxAt
  omega

open Context in
theorem ctxAt_succ {ps : List Pair} (h : SizesOk ps) {k : Nat} {p : Pair} (e : ps[k]? = some p) :
    ctxAt ps (k + 1) = (ctxAt ps k &&& 15) * 16 + p.size := by
  have h2 := sizeBefore_lt h k 1
  rw [show (15 : Nat) = 2 ^ 4 - 1 from rfl, Nat.and_two_pow_sub_one_eq_mod]
  have e1 : ctxAt ps k % 2 ^ 4 = sizeBefore ps k 1 := by unfold ctxAt; omega
  rw [e1]
  unfold ctxAt
  have e2 : sizeBefore ps (k + 1) 1 = p.size := by
    unfold sizeBefore
    rw [if_neg (by omega), Nat.add_sub_cancel, e]; rfl
  have e3 : sizeBefore ps (k + 1) 2 = sizeBefore ps k 1 := by
    unfold sizeBefore
    by_cases hk : k < 1
    · rw [if_pos (by omega), if_pos hk]
    · rw [if_neg (by omega), if_neg hk, show k + 1 - 2 = k - 1 by omega]
  rw [e2, e3]; omega

open Context in
theorem modelIndex_eq (rf ne : Nat) (ps : List Pair) (k l : Nat) :
    modelIndex rf ne ps k l = (ctxAt ps k + rf + if 2 * k > ne / 2 then 256 else 0) + min l 3 * 1024 := by
  unfold modelIndex ctxAt; omega

open Context in
theorem ofMagnitudes_lt (a b : Nat) : (ofMagnitudes a b).a < 4 ∧ (ofMagnitudes a b).b < 4 := by
  have key : ∀ n a b : Nat, max a b < n → a / 2 ^ escapes a b < 4 ∧ b / 2 ^ escapes a b < 4 := by
    intro n
    induction n with
    | zero => intro a b h; omega
    | succ n ih =>
      intro a b h
      by_cases h4 : 4 ≤ max a b
      · have := ih (a >>> 1) (b >>> 1) (by rw [Nat.shiftRight_one, Nat.shiftRight_one]; omega)
        rw [escapes_half h4, pow_succ', ← Nat.div_div_eq_div_mul, ← Nat.div_div_eq_div_mul,
          ← Nat.shiftRight_one, ← Nat.shiftRight_one]
        exact this
      · rw [escapes_small (by omega)]; simp; omega
  exact key _ a b (Nat.lt_succ_self _)

open Context in
theorem ofLines_sizes : ∀ (n : Nat) (xs : List Int), xs.length ≤ n → SizesOk (ofLines xs) := by
  intro n
  induction n with
  | zero =>
    intro xs hl
    have : xs = [] := List.length_eq_zero_iff.1 (by omega)
    subst this
    intro p hp; simp [ofLines] at hp
  | succ n ih =>
    intro xs hl
    match xs, hl with
    | [], _ => intro p hp; simp [ofLines] at hp
    | [_], _ => intro p hp; simp [ofLines] at hp
    | x0 :: x1 :: xs, hl =>
      intro p hp
      simp only [ofLines, List.mem_cons] at hp
      rcases hp with rfl | hp
      · obtain ⟨h1, h2⟩ := ofMagnitudes_lt x0.natAbs x1.natAbs
        have := ctxT_lt (lev := (ofMagnitudes x0.natAbs x1.natAbs).lev) h1 h2
        rwa [ctxT_eq] at this
      · exact ih xs (by simp at hl; omega) p hp

open Context in
theorem pair_symbols (lev t a b : Nat) (rounds : Nat) (hr : lev < rounds) (f : Nat → Nat)
    (hf : ∀ l, f l = t + min l 3 * 1024) :
    ((List.range (min (lev + 1) rounds)).map fun l => (f l, symbol ⟨a, b, lev⟩ l)) =
      ((List.range lev).map fun l => (t + min (0 + l) 3 * 1024, 16)) ++ [(t + min lev 3 * 1024, a + 4 * b)] := by
  rw [Nat.min_eq_left (by omega), List.range_succ, List.map_append]
  congr 1
  · apply List.map_congr_left
    intro l hl
    rw [List.mem_range] at hl
    rw [hf]
    simp [symbol, hl]
  · simp [hf, symbol]

open Context in
theorem escapes_lt {a b : Nat} {n : Nat} (h : max a b < 2 ^ (n + 1)) (hn : 1 ≤ n) : escapes a b < n := by
  unfold escapes
  by_cases h0 : max a b = 0
  · rw [h0]; simp; omega
  · have := (Nat.log2_lt h0).2 h
    omega

open Context in
theorem tr_encPairsT {lsb : Bool} {rf ne nl : Nat} (all : List Int) (hall : ∀ x ∈ all, x.natAbs ≤ 32768) :
    ∀ (n : Nat) (xs : List Int) (k : Nat) (lsbs : List Bool) (s : EncSt), xs.length = 2 * n →
      all.drop (2 * k) = xs → (ofLines all).drop k = ofLines xs → (ofLines all).length = k + n →
      Tr (encPairsT lsb rf ne nl xs (2 * k) (ctxAt (ofLines all) k) lsbs s)
        (symbolsFrom 15 rf ne (ofLines all) k) (fun _ => True) := by
  intro n
  induction n with
  | zero =>
    intro xs k lsbs s hl _ hp hn
    have : xs = [] := List.length_eq_zero_iff.1 (by omega)
    subst this
    rw [show k = (ofLines all).length by omega, symbolsFrom_end]
    unfold encPairsT
    exact Tr.lift (fun _ _ => trivial)
  | succ n ih =>
    intro xs k lsbs s hl hd hp hn
    match xs, hl with
    | x0 :: x1 :: xs, hl =>
      have hk : (ofLines all)[k]? = some (ofMagnitudes x0.natAbs x1.natAbs) := by
        have : ((ofLines all).drop k)[0]? = some (ofMagnitudes x0.natAbs x1.natAbs) := by rw [hp]; rfl
        rwa [List.getElem?_drop, Nat.add_zero] at this
      have m0 : x0 ∈ all := by
        have : x0 ∈ all.drop (2 * k) := by rw [hd]; simp
        exact List.mem_of_mem_drop this
      have m1 : x1 ∈ all := by
        have : x1 ∈ all.drop (2 * k) := by rw [hd]; simp
        exact List.mem_of_mem_drop this
      have hlev : escapes x0.natAbs x1.natAbs < 15 := by
        apply escapes_lt _ (by omega)
        have := hall x0 m0
        have := hall x1 m1
        omega
      rw [symbolsFrom_step hk]
      simp only [ofMagnitudes]
      rw [pair_symbols _ (ctxAt (ofLines all) k + rf + if 2 * k > ne / 2 then 256 else 0) _ _ 15 hlev _
        (fun l => modelIndex_eq rf ne _ k l), List.append_assoc]
      unfold encPairsT
      simp only
      refine (tr_encEscapesT lsb _ 16 x0.natAbs x1.natAbs 0 s).bind ?_
      rintro ⟨⟨a, b, lev⟩, s⟩ e
      simp only [Prod.mk.injEq] at e
      obtain ⟨rfl, rfl, rfl⟩ := e
      simp only [Nat.zero_add]
      refine (tr_encSymT _ _ _ s).bind ?_
      intro s _
      generalize (if (lsb && decide (escapes x0.natAbs x1.natAbs > 0)) = true then lsbs ++ pairLsbs x0 x1 else lsbs) = l'
      by_cases hov : l'.length > nl
      · rw [if_pos hov]; exact Tr.panic
      · rw [if_neg hov]
        refine Tr.bindLift (fun s => Tr.bindLift (fun s => ?_))
        have hs := ofLines_sizes _ all (le_refl _)
        have hc := ctxAt_succ hs hk
        rw [ctxT_eq]
        change Tr (encPairsT lsb rf ne nl xs (2 * k + 2) ((ctxAt (ofLines all) k &&& 15) * 16 +
          (ofMagnitudes x0.natAbs x1.natAbs).size) l' s) _ _
        rw [← hc]
        refine ih xs (k + 1) l' s (by simp at hl; omega) ?_ ?_ (by omega)
        · rw [show 2 * (k + 1) = 2 * k + 2 by omega, ← List.drop_drop, hd]; rfl
        · rw [← List.drop_drop, hp]; rfl

open Context in
theorem ofLines_length : ∀ (n : Nat) (xs : List Int), xs.length = 2 * n → (ofLines xs).length = n := by
  intro n
  induction n with
  | zero =>
    intro xs hl
    have : xs = [] := List.length_eq_zero_iff.1 (by omega)
    subst this; rfl
  | succ n ih =>
    intro xs hl
    match xs, hl with
    | x0 :: x1 :: xs, hl => simp only [ofLines, List.length_cons, ih xs (by simp at hl; omega)]

/-! Logs of the decoder. -/

/-- every entry of the log satisfies `P`, and the log is given by the result if `m` succeeds -/
def TrD {ε α : Type} (m : Logged ε α) (P : ε → Prop) (L : α → List ε) (Q : α → Prop) : Prop :=
  (∀ e ∈ m.1, P e) ∧ ∀ a, m.2 = .ok a → m.1 = L a ∧ Q a

theorem TrD.bind {ε α β : Type} {m : Logged ε α} {f : α → Logged ε β} {P : ε → Prop} {L : α → List ε}
    {L' : β → List ε} {Q : α → Prop} {Q' : β → Prop} (h : TrD m P L Q)
    (h2 : ∀ a, Q a → (∀ e ∈ (f a).1, P e) ∧ ∀ b, (f a).2 = .ok b → L a ++ (f a).1 = L' b ∧ Q' b) :
    TrD (m >>= f) P L' Q' := by
  rcases m with ⟨l, a | _ | _⟩
  · obtain ⟨h1, h3⟩ := h.2 a rfl
    simp only at h1
    subst h1
    obtain ⟨p1, p2⟩ := h2 a h3
    refine ⟨?_, ?_⟩
    · intro e he
      rcases List.mem_append.1 (show e ∈ L a ++ (f a).1 from he) with he | he
      · exact h.1 e he
      · exact p1 e he
    · intro b hb
      exact p2 b hb
  · exact ⟨h.1, fun b hb => nomatch (show (Res.err : Res β) = .ok b from hb)⟩
  · exact ⟨h.1, fun b hb => nomatch (show (Res.panic : Res β) = .ok b from hb)⟩

theorem TrD.bindLift {ε α β : Type} {r : Res α} {f : α → Logged ε β} {P : ε → Prop} {L' : β → List ε}
    {Q' : β → Prop} (h2 : ∀ a, r = .ok a → TrD (f a) P L' Q') : TrD (Logged.lift r >>= f) P L' Q' := by
  refine TrD.bind (m := Logged.lift r) (L := fun _ => []) (Q := fun a => r = .ok a) ⟨by simp, ?_⟩ ?_
  · intro a ha; exact ⟨rfl, ha⟩
  · intro a ha
    obtain ⟨p1, p2⟩ := h2 a ha
    exact ⟨p1, fun b hb => by simpa using p2 b hb⟩

theorem TrD.lift {ε α : Type} {r : Res α} {P : ε → Prop} {L : α → List ε} {Q : α → Prop}
    (h : ∀ a, r = .ok a → L a = [] ∧ Q a) : TrD (Logged.lift r : Logged ε α) P L Q :=
  ⟨by simp, fun a ha => ⟨(h a ha).1.symm, (h a ha).2⟩⟩

theorem trd_decodeEscapesT (buf : List Nat) (lsb : Bool) {t : Nat} (ht : t < 1024) :
    ∀ (fuel lev sym xk xk1 : Nat) (r : Reader) (st : AcDec), lev + fuel = 14 → (fuel = 0 → 2 ≤ lev) →
      xk < 2 ^ lev → xk1 < 2 ^ lev →
      TrD (decodeEscapesT buf lsb t fuel lev sym xk xk1 r st) (· < 4096)
        (fun p => (List.range' lev (min (p.1.2.1 + 1) 14 - lev)).map fun l => t + min l 3 * 1024)
        (fun p => lev ≤ p.1.2.1 ∧ p.1.2.1 ≤ 14 ∧ (p.1.1 < 16 ∨ p.1.2.1 = 14) ∧
          p.1.2.2.1 < 2 ^ p.1.2.1 ∧ p.1.2.2.2 < 2 ^ p.1.2.1) := by
  intro fuel
  induction fuel with
  | zero =>
    intro lev sym xk xk1 r st hf h2 h3 h4
    unfold decodeEscapesT
    refine TrD.lift ?_
    intro a e
    rw [Res.ok.injEq] at e
    subst e
    have : lev = 14 := by omega
    subst this
    simp only
    exact ⟨by simp, by omega, by omega, Or.inr trivial, h3, h4⟩
  | succ n ih =>
    intro lev sym xk xk1 r st hf h2 h3 h4
    have h1024 : t + min lev 3 * 1024 < 4096 := by omega
    have key : ∀ x : Nat, x < 2 ^ lev → ∀ b : Bool, x + b.toNat <<< lev < 2 ^ (lev + 1) := by
      intro x hx b
      rw [Nat.shiftLeft_eq, Nat.pow_succ]
      cases b <;> simp <;> omega
    have hcons : ∀ m : Nat, lev + 1 ≤ m → m ≤ 14 →
        [t + min lev 3 * 1024] ++ (List.range' (lev + 1) (min (m + 1) 14 - (lev + 1))).map (fun l => t + min l 3 * 1024)
          = (List.range' lev (min (m + 1) 14 - lev)).map fun l => t + min l 3 * 1024 := by
      intro m h1 h2
      rw [show min (m + 1) 14 - lev = (min (m + 1) 14 - (lev + 1)) + 1 by omega, List.range'_succ]
      rfl
    unfold decodeEscapesT
    refine TrD.bind (m := log (t + min lev 3 * 1024)) (L := fun _ => [t + min lev 3 * 1024]) (Q := fun _ => True)
      ⟨?_, fun _ _ => ⟨rfl, trivial⟩⟩ ?_
    · intro e he
      rw [fst_log, List.mem_singleton] at he
      rw [he]; exact h1024
    · intro _ _
      have main : TrD (do
          let pki ← Logged.lift (idx AC_SPEC_LOOKUP (t + min lev 3 * 1024))
          let cum ← Logged.lift (idx AC_SPEC_CUMFREQ pki)
          let freq ← Logged.lift (idx AC_SPEC_FREQ pki)
          let (sym, st, r) ← Logged.lift (acDecode buf r st cum freq)
          if sym < 16 then Logged.lift (.ok ((sym, lev, xk, xk1), st, r))
          else if !lsb || lev > 0 then do
            let (b0, r) ← Logged.lift (r.readTailBool buf)
            let (b1, r) ← Logged.lift (r.readTailBool buf)
            decodeEscapesT buf lsb t n (lev + 1) sym
              (xk + b0.toNat <<< lev) (xk1 + b1.toNat <<< lev) r st
          else decodeEscapesT buf lsb t n (lev + 1) sym xk xk1 r st) (· < 4096)
          (fun p => (List.range' (lev + 1) (min (p.1.2.1 + 1) 14 - (lev + 1))).map fun l => t + min l 3 * 1024)
          (fun p => lev ≤ p.1.2.1 ∧ p.1.2.1 ≤ 14 ∧ (p.1.1 < 16 ∨ p.1.2.1 = 14) ∧
            p.1.2.2.1 < 2 ^ p.1.2.1 ∧ p.1.2.2.2 < 2 ^ p.1.2.1) := by
        refine TrD.bindLift (fun pki _ => TrD.bindLift (fun cum _ => TrD.bindLift (fun freq _ => TrD.bindLift ?_)))
        rintro ⟨sym', st', r'⟩ _
        simp only
        have hw : ∀ (x y : Nat) (r : Reader), x < 2 ^ (lev + 1) → y < 2 ^ (lev + 1) →
            TrD (decodeEscapesT buf lsb t n (lev + 1) sym' x y r st') (· < 4096)
              (fun p => (List.range' (lev + 1) (min (p.1.2.1 + 1) 14 - (lev + 1))).map fun l => t + min l 3 * 1024)
              (fun p => lev ≤ p.1.2.1 ∧ p.1.2.1 ≤ 14 ∧ (p.1.1 < 16 ∨ p.1.2.1 = 14) ∧
                p.1.2.2.1 < 2 ^ p.1.2.1 ∧ p.1.2.2.2 < 2 ^ p.1.2.1) := by
          intro x y r hx hy
          have := ih (lev + 1) sym' x y r st' (by omega) (by omega) hx hy
          refine ⟨this.1, fun a ha => ?_⟩
          obtain ⟨q1, q2, q3⟩ := this.2 a ha
          exact ⟨q1, by omega, q3⟩
        by_cases h16 : sym' < 16
        · rw [if_pos h16]
          refine TrD.lift ?_
          intro a e
          rw [Res.ok.injEq] at e
          subst e
          simp only
          refine ⟨?_, le_refl _, by omega, Or.inl h16, h3, h4⟩
          rw [show min (lev + 1) 14 - (lev + 1) = 0 by omega]; rfl
        · rw [if_neg h16]
          by_cases hl : (!lsb || decide (lev > 0)) = true
          · rw [if_pos hl]
            refine TrD.bindLift ?_
            rintro ⟨b0, r1⟩ _
            refine TrD.bindLift ?_
            rintro ⟨b1, r2⟩ _
            exact hw _ _ _ (key xk h3 b0) (key xk1 h4 b1)
          · rw [if_neg hl]
            exact hw _ _ _ (by rw [Nat.pow_succ]; omega) (by rw [Nat.pow_succ]; omega)
      refine ⟨main.1, fun b hb => ?_⟩
      obtain ⟨q1, q2, q3, q4⟩ := main.2 b hb
      refine ⟨?_, q2, q3, q4⟩
      rw [q1]
      by_cases he : lev + 1 ≤ b.1.2.1
      · exact hcons _ he q3
      · have : b.1.2.1 = lev := by omega
        simp only
        rw [this, show min (lev + 1) 14 - (lev + 1) = 0 by omega, show min (lev + 1) 14 - lev = 1 by omega]
        rfl

/-- what a decoded pair contributes to the context -/
def decPair (p : Int × Int × Nat) : Context.Pair := ⟨p.1.natAbs / 2 ^ p.2.2, p.2.1.natAbs / 2 ^ p.2.2, p.2.2⟩

theorem decodeSign_natAbs {buf : List Nat} {r r' : Reader} {x : Nat} {y : Int}
    (h : decodeSign buf r x = .ok (y, r')) : y.natAbs = x := by
  unfold decodeSign at h
  by_cases hx : x > 0
  · rw [if_pos hx] at h
    obtain ⟨⟨b, r1⟩, _, h⟩ := Res.bind_eq_ok.1 h
    simp only [Res.ok.injEq, Prod.mk.injEq] at h
    rw [← h.1]
    cases b <;> simp
  · rw [if_neg hx, Res.ok.injEq, Prod.mk.injEq] at h
    rw [← h.1]; simp

theorem low_div {x a lev : Nat} (h : x < 2 ^ lev) : (x + a <<< lev) / 2 ^ lev = a := by
  rw [Nat.shiftLeft_eq, Nat.add_mul_div_right _ _ (by positivity), Nat.div_eq_of_lt h, Nat.zero_add]

/-- the spec list of models of the pairs from `k` on, for a decoder that has seen `pre` -/
theorem trd_decodePairsT (buf : List Nat) (lsb : Bool) {rf ne : Nat} (hrf : rf ≤ 512) :
    ∀ (n : Nat) (pre : List Context.Pair) (r : Reader) (st : AcDec), SizesOk pre →
      TrD (decodePairsT buf lsb rf ne n pre.length (ctxAt pre pre.length) r st) (· < 4096)
        (fun p => (symbolsFrom 14 rf ne (pre ++ p.1.map decPair) pre.length).map (·.1))
        (fun p => p.1.length = n ∧ SizesOk (pre ++ p.1.map decPair)) := by
  intro n
  induction n with
  | zero =>
    intro pre r st hs
    unfold decodePairsT
    refine TrD.lift ?_
    intro a e
    rw [Res.ok.injEq] at e
    subst e
    simp only [List.map_nil, List.append_nil, symbolsFrom_end]
    exact ⟨trivial, rfl, hs⟩
  | succ n ih =>
    intro pre r st hs
    have hc := ctxAt_lt hs pre.length
    have ht : ctxAt pre pre.length + rf + (if pre.length * 2 > ne / 2 then 256 else 0) < 1024 := by
      split <;> omega
    unfold decodePairsT
    simp only
    refine (trd_decodeEscapesT buf lsb ht 14 0 0 0 0 r st (by omega) (by omega) (by simp) (by simp)).bind ?_
    rintro ⟨⟨sym, lev, xk, xk1⟩, st1, r1⟩ ⟨_, q2, q3, q4, q5⟩
    simp only at q2 q3 q4 q5 ⊢
    have h3 : sym &&& 3 < 4 := Nat.lt_of_le_of_lt Nat.and_le_right (by omega)
    have hsz : ctxT (sym &&& 3) (sym >>> 2) lev < 16 := by
      rcases q3 with h | h
      · refine ctxT_lt h3 ?_
        rw [Nat.shiftRight_eq_div_pow]; omega
      · rw [h]; unfold ctxT; simp
    have main : TrD (do
        let (x0, r) ← Logged.lift (decodeSign buf r1 (xk + (sym &&& 3) <<< lev))
        let (x1, r) ← Logged.lift (decodeSign buf r (xk1 + (sym >>> 2) <<< lev))
        let (rest, st, r) ← decodePairsT buf lsb rf ne n (pre.length + 1)
          ((ctxAt pre pre.length &&& 15) * 16 + ctxT (sym &&& 3) (sym >>> 2) lev) r st1
        Logged.lift (.ok ((x0, x1, lev) :: rest, st, r))) (· < 4096)
        (fun p => (symbolsFrom 14 rf ne (pre ++ p.1.map decPair) (pre.length + 1)).map (·.1))
        (fun p => p.1.length = n + 1 ∧ SizesOk (pre ++ p.1.map decPair) ∧
          (pre ++ p.1.map decPair)[pre.length]? = some ⟨sym &&& 3, sym >>> 2, lev⟩) := by
      refine TrD.bindLift ?_
      rintro ⟨x0, r2⟩ e0
      refine TrD.bindLift ?_
      rintro ⟨x1, r3⟩ e1
      simp only
      have hd : decPair (x0, x1, lev) = ⟨sym &&& 3, sym >>> 2, lev⟩ := by
        unfold decPair
        simp only
        rw [decodeSign_natAbs e0, decodeSign_natAbs e1, low_div q4, low_div q5]
      have hs' : SizesOk (pre ++ [⟨sym &&& 3, sym >>> 2, lev⟩]) := by
        intro p hp
        rcases List.mem_append.1 hp with hp | hp
        · exact hs p hp
        · rw [List.mem_singleton.1 hp, ← ctxT_eq]; exact hsz
      have hget : (pre ++ [(⟨sym &&& 3, sym >>> 2, lev⟩ : Context.Pair)])[pre.length]? = some ⟨sym &&& 3, sym >>> 2, lev⟩ := by simp
      have hctx : ctxAt (pre ++ [⟨sym &&& 3, sym >>> 2, lev⟩]) (pre.length + 1) =
          (ctxAt pre pre.length &&& 15) * 16 + ctxT (sym &&& 3) (sym >>> 2) lev := by
        rw [ctxAt_succ hs' hget, ctxT_eq]
        have : ctxAt (pre ++ [(⟨sym &&& 3, sym >>> 2, lev⟩ : Context.Pair)]) pre.length = ctxAt pre pre.length := by
          unfold ctxAt Context.sizeBefore
          congr 1
          · congr 1
            by_cases h : pre.length < 2
            · rw [if_pos h, if_pos h]
            · rw [if_neg h, if_neg h, List.getElem?_append_left (by omega)]
          · by_cases h : pre.length < 1
            · rw [if_pos h, if_pos h]
            · rw [if_neg h, if_neg h, List.getElem?_append_left (by omega)]
        rw [this]
      have hih := ih (pre ++ [⟨sym &&& 3, sym >>> 2, lev⟩]) r3 st1 hs'
      rw [List.length_append, List.length_singleton, hctx] at hih
      refine hih.bind ?_
      rintro ⟨rest, st2, r4⟩ ⟨w1, w2⟩
      refine ⟨by simp, ?_⟩
      intro b hb
      rw [snd_lift, Res.ok.injEq] at hb
      subst hb
      simp only [fst_lift, List.append_nil, List.map_cons, hd]
      have happ : pre ++ (⟨sym &&& 3, sym >>> 2, lev⟩ : Context.Pair) :: rest.map decPair =
          pre ++ [⟨sym &&& 3, sym >>> 2, lev⟩] ++ rest.map decPair := by simp
      rw [happ]
      refine ⟨rfl, by simp only [List.length_cons] at w1 ⊢; omega, w2, ?_⟩
      simp
    refine ⟨main.1, fun b hb => ?_⟩
    obtain ⟨w1, w2, w3, w4⟩ := main.2 b hb
    refine ⟨?_, w2, w3⟩
    rw [w1, symbolsFrom_step w4, List.map_append, List.map_map]
    congr 1
    rw [Nat.sub_zero, ← List.range_eq_range']
    apply List.map_congr_left
    intro l _
    simp only [Function.comp]
    rw [modelIndex_eq, Nat.mul_comm 2]
    have : ctxAt (pre ++ b.1.map decPair) pre.length = ctxAt pre pre.length := by
      unfold ctxAt Context.sizeBefore
      congr 1
      · congr 1
        by_cases h : pre.length < 2
        · rw [if_pos h, if_pos h]
        · rw [if_neg h, if_neg h, List.getElem?_append_left (by omega)]
      · by_cases h : pre.length < 1
        · rw [if_pos h, if_pos h]
        · rw [if_neg h, if_neg h, List.getElem?_append_left (by omega)]
    rw [this]

/-! Both sides on the same frame. -/

open Context in
theorem escRun_lev (lsb : Bool) (t : Nat) : ∀ (n a b lev : Nat), max a b < 4 * 2 ^ n →
    (escRun lsb t n a b lev).2.2.2 = lev + escapes a b := by
  intro n
  induction n with
  | zero => intro a b lev h; rw [escapes_small (by omega)]; rfl
  | succ n ih =>
    intro a b lev h
    unfold escRun
    by_cases h4 : max a b ≥ 4
    · rw [if_pos h4, escapes_half h4]
      simp only
      rw [ih _ _ _ (by rw [Nat.shiftRight_one, Nat.shiftRight_one]; rw [pow_succ] at h; omega)]
      omega
    · rw [if_neg h4, escapes_small (by omega)]; rfl

open Context in
theorem levOf_escapes {x0 x1 : Int} (h0 : x0.natAbs < 32768) (h1 : x1.natAbs < 32768) :
    levOf x0 x1 = escapes x0.natAbs x1.natAbs := by
  unfold levOf
  rw [escRun_lev _ _ 13 _ _ _ (by omega), Nat.zero_add]

theorem coarse_natAbs (post : Bool) (x : Int) :
    (coarse post x).natAbs = if post then x.natAbs / 2 * 2 else x.natAbs := by
  unfold coarse
  cases post
  · rfl
  · simp only [if_true]
    split <;> omega

theorem coarse_div (lsb : Bool) (x : Int) (lev : Nat) :
    (coarse (lsb && decide (lev > 0)) x).natAbs / 2 ^ lev = x.natAbs / 2 ^ lev := by
  rw [coarse_natAbs]
  by_cases h : lsb && decide (lev > 0)
  · rw [if_pos h]
    simp only [Bool.and_eq_true, decide_eq_true_eq] at h
    obtain ⟨m, rfl⟩ : ∃ m, lev = m + 1 := ⟨lev - 1, by omega⟩
    rw [pow_succ', ← Nat.div_div_eq_div_mul, ← Nat.div_div_eq_div_mul, Nat.mul_div_cancel _ (by omega)]
  · rw [if_neg h]

open Context in
theorem pairsDec_decPair (lsb : Bool) : ∀ (n : Nat) (xs : List Int), xs.length ≤ n →
    (∀ x ∈ xs, x.natAbs < 32768) → (pairsDec lsb xs).map decPair = ofLines xs := by
  intro n
  induction n with
  | zero =>
    intro xs hl _
    have : xs = [] := List.length_eq_zero_iff.1 (by omega)
    subst this; rfl
  | succ n ih =>
    intro xs hl hx
    match xs, hl with
    | [], _ => rfl
    | [_], _ => rfl
    | x0 :: x1 :: xs, hl =>
      simp only [pairsDec, ofLines, List.map_cons]
      rw [ih xs (by simp at hl; omega) (fun x h => hx x (by simp [h]))]
      congr 1
      unfold decPair ofMagnitudes
      simp only [coarse_div]
      rw [levOf_escapes (hx x0 (by simp)) (hx x1 (by simp))]

open Context in
theorem symbols_rounds {rf ne : Nat} {ps : List Pair} (h : ∀ p ∈ ps, p.lev < 14) :
    symbols 14 rf ne ps = symbols 15 rf ne ps := by
  unfold symbols
  rw [List.flatMap_congr]
  intro k hk
  rw [List.mem_range] at hk
  rw [List.getElem?_eq_getElem hk]
  have := h _ (List.getElem_mem hk)
  simp only [Option.map_some, Option.getD_some]
  rw [Nat.min_eq_left (by omega), Nat.min_eq_left (by omega)]

open Context in
theorem ofLines_lev : ∀ (n : Nat) (xs : List Int), xs.length ≤ n → (∀ x ∈ xs, x.natAbs < 32768) →
    ∀ p ∈ ofLines xs, p.lev < 14 := by
  intro n
  induction n with
  | zero =>
    intro xs hl _ p hp
    have : xs = [] := List.length_eq_zero_iff.1 (by omega)
    subst this; simp [ofLines] at hp
  | succ n ih =>
    intro xs hl hx p hp
    match xs, hl with
    | [], _ => simp [ofLines] at hp
    | [_], _ => simp [ofLines] at hp
    | x0 :: x1 :: xs, hl =>
      simp only [ofLines, List.mem_cons] at hp
      rcases hp with rfl | hp
      · have := hx x0 (by simp)
        have := hx x1 (by simp)
        exact escapes_lt (by omega) (by omega)
      · exact ih xs (by simp at hl; omega) (fun x h => hx x (by simp [h])) p hp

theorem fst_bind_ok {ε α β : Type} {m : Logged ε α} {f : α → Logged ε β} {a : α} (h : m.2 = .ok a) :
    (m >>= f : Logged ε β).1 = m.1 ++ (f a).1 := by
  rcases m with ⟨l, r⟩
  simp only at h
  subst h; rfl

theorem fst_bind_nil {ε α β : Type} {m : Logged ε α} {f : α → Logged ε β} (h : ∀ a, (f a).1 = []) :
    (m >>= f : Logged ε β).1 = m.1 := by
  rcases m with ⟨l, a | _ | _⟩
  · show l ++ (f a).1 = l
    rw [h, List.append_nil]
  · rfl
  · rfl

theorem fst_ite_nil {ε α : Type} {c : Prop} [Decidable c] {a b : Logged ε α} (ha : a.1 = []) (hb : b.1 = []) :
    (if c then a else b : Logged ε α).1 = [] := by split <;> assumption

/-- the log of `arithDecodeT` is that of the spectral data -/
theorem arithDecodeT_fst (checks : Bool) (buf : List Nat) (r : Reader) (fsInd ne : Nat) (si : SideInfo)
    (d : FrameDuration) : (arithDecodeT checks buf r fsInd ne si d).1 =
      (Logged.lift (acDecInit buf r) >>= fun p => Logged.lift (decodeTnsData buf p.2 si p.1 (buf.length * 8) d) >>=
        fun t => decodeSpectralDataT buf t.2.2 si (buf.length * 8) fsInd ne t.2.1 : Logged Nat _).1 := by
  unfold arithDecodeT
  simp only
  cases acDecInit buf r with
  | err => rfl
  | panic => rfl
  | ok p =>
    rw [fst_bind_ok (m := Logged.lift (Res.ok p)) (a := p) rfl, fst_bind_ok (m := Logged.lift (Res.ok p)) (a := p) rfl]
    obtain ⟨st, r⟩ := p
    simp only
    cases decodeTnsData buf r si st (buf.length * 8) d with
    | err => rfl
    | panic => rfl
    | ok t =>
      rw [fst_bind_ok (m := Logged.lift (Res.ok t)) (a := t) rfl, fst_bind_ok (m := Logged.lift (Res.ok t)) (a := t) rfl]
      obtain ⟨⟨t1, t2⟩, st, r⟩ := t
      simp only
      rw [fst_bind_nil]
      rintro ⟨⟨x, sv⟩, st, r⟩
      simp only
      rw [fst_bind_nil]
      · rfl
      · rintro ⟨⟨bits, x⟩, r⟩
        simp only
        rw [fst_bind_nil]
        · rfl
        · intro seed
          rw [fst_bind_nil]
          · rfl
          · intro x0
            rw [fst_bind_nil]
            · rfl
            · intro x1; rfl

theorem readFrameT_fst (checks : Bool) (cfg : Lc3Config) (buf : List Nat) :
    (readFrameT checks cfg buf).1 = (Logged.lift (readSideInfo buf Reader.new cfg.fsInd cfg.ne) >>= fun p =>
      arithDecodeT checks buf p.2 cfg.fsInd cfg.ne p.1 cfg.nMs : Logged Nat _).1 := by
  unfold readFrameT
  cases readSideInfo buf Reader.new cfg.fsInd cfg.ne with
  | err => rfl
  | panic => rfl
  | ok p =>
    rw [fst_bind_ok (m := Logged.lift (Res.ok p)) (a := p) rfl, fst_bind_ok (m := Logged.lift (Res.ok p)) (a := p) rfl]
    obtain ⟨si, r⟩ := p
    simp only
    rw [fst_bind_nil]
    rintro ⟨⟨ad, x⟩, r⟩
    rfl

end Lc3
