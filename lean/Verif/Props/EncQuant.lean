import Verif.Lemmas.EncQuant
import Verif.Lemmas.NoErr
import Verif.Model.F32
import Verif.Model.DecSpectrum
import Verif.Props.EncDetect
/-! C25, C26, C27, C33: decisions of the quantiser of the encoder -/

namespace Lc3
open Scalar Spec

variable {α : Type} [Scalar α]

/-! ## Coded length -/

theorem bitConsumption_ok {ne fsInd nbits spec : Nat} {xq : List Int} (h2 : 2 ≤ ne) (he : ne % 2 = 0) (hl : xq.length = ne)
    (hx : ∀ x ∈ xq, x.natAbs ≤ 32768) :
    ∃ bc, bitConsumption α ne fsInd nbits spec xq = .ok bc ∧
      CodedLength xq bc.lastnz ∧
      bc.lastnzTrunc % 2 = 0 ∧ 2 ≤ bc.lastnzTrunc ∧ bc.lastnzTrunc ≤ bc.lastnz ∧
      (bc.lastnzTrunc = 2 ∨ xq.getD (bc.lastnzTrunc - 2) 0 ≠ 0 ∨ xq.getD (bc.lastnzTrunc - 1) 0 ≠ 0) ∧
      (bc.nbitsEst ≤ spec → bc.lastnzTrunc = bc.lastnz) ∧
      bc.modeFlag = encModeFlag nbits fsInd ∧ bc.rateFlag = encRateFlag nbits fsInd ∧
      bc.nbitsLsb = (if bc.modeFlag then postponed (xq.take bc.lastnz) else 0) := by
  obtain ⟨m, rfl⟩ : ∃ m, ne = 2 * (m + 1) := ⟨ne / 2 - 1, by omega⟩
  unfold bitConsumption
  simp only
  have htk : xq.take (2 * (m + 1)) = xq := List.take_of_length_le (by omega)
  rw [if_neg (by omega), htk]
  obtain ⟨n, hn⟩ : ∃ n, n = lastNz (2 * (m + 1)) xq.reverse := ⟨_, rfl⟩
  have hs := lastNz_spec m xq hl
  rw [← hn] at hs ⊢
  obtain ⟨n1, n2, n3, n4, n5⟩ := hs
  obtain ⟨j, rfl⟩ : ∃ j, n = 2 * (j + 1) := ⟨n / 2 - 1, by omega⟩
  obtain ⟨s', e1, -, e3, e4, e5⟩ := estPairs_ok (α := α) (mode := encModeFlag nbits fsInd) (rate := encRateFlag nbits fsInd)
    (ne := 2 * (m + 1)) (spec := spec) (by unfold encRateFlag; split <;> omega) (j + 1) (xq.take (2 * (j + 1))) 0
    ⟨0, 0, 0, 2, 0⟩ (by simp; omega) (fun x hx' => hx x (List.mem_of_mem_take hx')) (by simp)
  rw [e1]
  simp only [Res.bind_ok]
  refine ⟨_, rfl, ⟨n1, n2, by simp only; omega, n4, n5⟩, ?_⟩
  have htake : ∀ i, i < 2 * (j + 1) → (xq.take (2 * (j + 1))).getD i 0 = xq.getD i 0 := by
    intro i hi
    rw [List.getD_eq_getElem _ _ (by simp; omega), List.getD_eq_getElem _ _ (by omega), List.getElem_take]
  simp only at e3 e4 e5 ⊢
  have hmain : s'.lastTrunc % 2 = 0 ∧ 2 ≤ s'.lastTrunc ∧ s'.lastTrunc ≤ 2 * (j + 1) ∧
      (s'.lastTrunc = 2 ∨ xq.getD (s'.lastTrunc - 2) 0 ≠ 0 ∨ xq.getD (s'.lastTrunc - 1) 0 ≠ 0) := by
    rcases e4 with ⟨e4, -⟩ | ⟨i, hi, e4, e6, -⟩
    · rw [e4]; exact ⟨rfl, le_refl _, by omega, .inl rfl⟩
    · rw [e4]
      rw [htake _ (by omega), htake _ (by omega)] at e6
      refine ⟨by omega, by omega, by omega, .inr ?_⟩
      rw [show 0 + 2 * i + 2 - 2 = 2 * i by omega, show 0 + 2 * i + 2 - 1 = 2 * i + 1 by omega]
      exact e6
  refine ⟨hmain.1, hmain.2.1, hmain.2.2.1, hmain.2.2.2, ?_, trivial, trivial, ?_⟩
  · intro hest
    rcases n5 with h | h
    · have := hmain.2.1
      have := hmain.2.2.1
      omega
    · have := e5 j rfl (by
        rw [htake _ (by omega), htake _ (by omega)]
        rw [show 2 * (j + 1) - 2 = 2 * j by omega, show 2 * (j + 1) - 1 = 2 * j + 1 by omega] at h
        exact h) (by omega)
      omega
  · rw [e3]; simp

theorem getD_trunc {xq : List Int} {n m : Nat} (h1 : n ≤ m) (h2 : m ≤ xq.length) (hz : ∀ k, m ≤ k → xq.getD k 0 = 0) (k : Nat) :
    (xq.take n ++ List.replicate (m - n) 0 ++ xq.drop m).getD k 0 = if k < n then xq.getD k 0 else 0 := by
  by_cases hk : k < n
  · rw [if_pos hk, List.append_assoc, List.getD_append _ _ _ _ (by simp; omega), List.getD_eq_getElem _ _ (by simp; omega),
      List.getD_eq_getElem _ _ (by omega), List.getElem_take]
  · rw [if_neg hk]
    by_cases hk2 : k < m
    · rw [List.getD_append _ _ _ _ (by simp; omega), List.getD_append_right _ _ _ _ (by simp; omega),
        List.getD_eq_getElem _ _ (by simp; omega)]
      simp
    · rw [List.getD_append_right _ _ _ _ (by simp; omega)]
      by_cases hk3 : k < xq.length
      · rw [List.getD_eq_getElem _ _ (by simp; omega), List.getElem_drop]
        have := hz k (by omega)
        rw [List.getD_eq_getElem _ _ hk3] at this
        rw [← this]
        congr 1
        simp; omega
      · rw [List.getD_eq_default]
        simp; omega

/-- **C27** (quantisation with a given gain index) The quantised spectrum exists; the number `n` of coded lines is the coded length of
the result (even, at least two, at most the number of lines, not larger than needed for the last non-zero pair, all later
lines zero); the lines below `n` are the quantised ones; and if the estimate fits the budget no non-zero line is dropped. -/
theorem C27_spectrum {ne fsInd nbits spec : Nat} {ggOff ggInd : Int} {xf : List α} (h2 : 2 ≤ ne) (he : ne % 2 = 0)
    (hl : xf.length = ne) :
    ∃ r, quantSpectrum ne fsInd xf nbits ggOff ggInd spec = .ok r ∧ r.xq.length = ne ∧
      CodedLength r.xq r.bc.lastnzTrunc ∧
      (∀ k, k < r.bc.lastnzTrunc → r.xq.getD k 0 = (xf.map (quantLine (ggValue ggInd ggOff))).getD k 0) ∧
      (r.bc.nbitsEst ≤ spec → r.xq = xf.map (quantLine (ggValue ggInd ggOff))) ∧
      (∀ x ∈ r.xq, x.natAbs ≤ 32768) ∧
      r.gg = ggValue ggInd ggOff ∧ r.bc.rateFlag = encRateFlag nbits fsInd ∧
      (r.lsbMode = true → postponed (r.xq.take r.bc.lastnzTrunc) ≤ r.bc.nbitsLsb) ∧ r.bc.nbitsLsb ≤ 2 * ne := by
  have hb : ∀ x ∈ xf.map (quantLine (ggValue ggInd ggOff)), x.natAbs ≤ 32768 := by
    intro x hx
    obtain ⟨y, -, rfl⟩ := List.mem_map.1 hx
    exact quantLine_bounds _ _
  obtain ⟨xq, hxq⟩ : ∃ xq, xq = xf.map (quantLine (ggValue ggInd ggOff)) := ⟨_, rfl⟩
  have hlen : xq.length = ne := by rw [hxq]; simpa using hl
  unfold quantSpectrum
  simp only
  rw [← hxq] at hb ⊢
  obtain ⟨bc, e1, e2, e3, e4, e5, e6, e7, e8, e9, e10⟩ := bitConsumption_ok (α := α) (fsInd := fsInd) (nbits := nbits) (spec := spec)
    h2 he hlen hb
  rw [e1]
  simp only [Res.bind_ok]
  rw [if_pos ⟨e5, e2.le⟩]
  have hg := getD_trunc e5 e2.le e2.zeros
  have hlr : (xq.take bc.lastnzTrunc ++ List.replicate (bc.lastnz - bc.lastnzTrunc) 0 ++ xq.drop bc.lastnz).length = ne := by
    have := e2.le
    simp; omega
  refine ⟨_, rfl, hlr, ?_, ?_, ?_, ?_, rfl, e9, ?_, ?_⟩
  · refine ⟨e3, e4, by simp only [hlr]; have := e2.le; omega, ?_, ?_⟩
    · intro k hk
      simp only [hg]
      rw [if_neg (by simp only at hk; omega)]
    · simp only [hg]
      rcases e6 with h | h
      · exact .inl h
      · right
        rw [if_pos (by omega), if_pos (by omega)]
        exact h
  · intro k hk
    simp only [hg]
    rw [if_pos (by simpa using hk)]
  · intro h
    simp only at h ⊢
    rw [e7 h]
    simp
  · intro x hx
    simp only [List.mem_append] at hx
    rcases hx with (hx | hx) | hx
    · exact hb x (List.mem_of_mem_take hx)
    · rw [List.eq_of_mem_replicate hx]; simp
    · exact hb x (List.mem_of_mem_drop hx)
  · intro hm
    simp only [Bool.and_eq_true] at hm
    simp only
    rw [e10, if_pos hm.1, List.append_assoc, List.take_append_of_le_length (by simp; have := e2.le; omega),
      List.take_take, Nat.min_self]
    exact postponed_take _ _ _ e3 e5 e2.even
  · simp only
    rw [e10]
    split
    · have := postponed_le (xq.take bc.lastnz)
      simp at this
      omega
    · omega

/-- the decisions in a run: the gain index of the search, the limited one, the adjusted one -/
theorem quantRun_inv {ne fsInd nbits nbw ntns nltpf : Nat} {s s' : QuantSt α} {xf : List α} {o : QuantOut α}
    (h : quantRun ne fsInd s xf nbits nbw ntns nltpf = .ok (s', o)) :
    xf.length = ne ∧ nbw + ntns + nltpf + nbitsFixed ne nbits + o.nbitsSpec = nbits ∧
    ∃ ind0 reset ggMin ggInd q0 q,
      ind0 = ggSearch (spectralEnergy (ne / 4) xf) (nbitsSpecAdj o.nbitsSpec (nbitsOffset s)) (ggOffEnc nbits fsInd) 8 256 255 ∧
      ggLimit xf (ggOffEnc nbits fsInd) ind0 = .ok (reset, ggMin, ggInd) ∧
      quantSpectrum ne fsInd xf nbits (ggOffEnc nbits fsInd) ggInd o.nbitsSpec = .ok q0 ∧
      ggAdjust α fsInd ggInd ggMin o.nbitsSpec q0.bc.nbitsEst = .ok o.ggInd ∧
      quantSpectrum ne fsInd xf nbits (ggOffEnc nbits fsInd) o.ggInd o.nbitsSpec = .ok q ∧
      o = ⟨q.xq, o.ggInd, o.nbitsSpec, q.bc.nbitsLsb, q.bc.nbitsTrunc, q.lsbMode, q.bc.rateFlag, q.bc.lastnzTrunc, q.gg⟩ := by
  unfold quantRun at h
  split at h
  · cases h
  rename_i hl
  obtain ⟨spec, hs, h⟩ := Res.bind_eq_ok.1 h
  simp only at h
  split at h
  · cases h
  obtain ⟨⟨reset, ggMin, ggInd⟩, h1, h⟩ := Res.bind_eq_ok.1 h
  simp only at h
  obtain ⟨q0, h2, h⟩ := Res.bind_eq_ok.1 h
  obtain ⟨ggInd', h3, h⟩ := Res.bind_eq_ok.1 h
  obtain ⟨q, h4, h⟩ := Res.bind_eq_ok.1 h
  have h5 : quantSpectrum ne fsInd xf nbits (ggOffEnc nbits fsInd) ggInd' spec = .ok q := by
    by_cases hg : ggInd = ggInd'
    · rw [if_neg (by simpa using hg)] at h4
      rw [← hg, h2]; exact h4
    · rw [if_pos (by simpa using hg)] at h4
      exact h4
  simp only [Res.ok.injEq, Prod.mk.injEq] at h
  obtain ⟨-, rfl⟩ := h
  unfold bitBudget usub at hs
  split at hs
  · rename_i hb
    simp only [Res.ok.injEq] at hs
    exact ⟨by simpa using hl, by simp only; omega, _, _, _, _, _, _, rfl, h1, h2, h3, h5, rfl⟩
  · cases hs

/-- **C27** Whenever the quantiser of the encoder returns, the number of coded lines is the coded length of the returned spectrum (even,
at least two, at most the number of lines, not larger than needed, only zeros behind it), and it is representable in
its side information field: `lastnz / 2 - 1` fits into the bits the bit stream writer uses. -/
theorem C27 (f : SamplingFrequency) (d : FrameDuration) {fsInd nbits nbw ntns nltpf : Nat} {s s' : QuantSt α} {xf : List α}
    {o : QuantOut α} (h : quantRun (Lc3Config.new f d).ne fsInd s xf nbits nbw ntns nltpf = .ok (s', o)) :
    CodedLength o.xq o.lastnzTrunc ∧ o.xq.length = (Lc3Config.new f d).ne ∧
      (o.lastnzTrunc >>> 1) - 1 < 2 ^ clog2 ((Lc3Config.new f d).ne / 2) ∧
      (∀ k, k < o.lastnzTrunc → o.xq.getD k 0 = (xf.map (quantLine o.gg)).getD k 0) := by
  have hne : 2 ≤ (Lc3Config.new f d).ne ∧ (Lc3Config.new f d).ne % 2 = 0 ∧
      (Lc3Config.new f d).ne / 2 ≤ 2 ^ clog2 ((Lc3Config.new f d).ne / 2) := by cases f <;> cases d <;> decide
  obtain ⟨hl, -, _, _, _, _, _, q, -, -, -, -, hq, ho⟩ := quantRun_inv h
  obtain ⟨r, h1, h2, h3, h4, -, -, h5, -⟩ := C27_spectrum (α := α) (fsInd := fsInd) (nbits := nbits) (spec := o.nbitsSpec)
    (ggOff := ggOffEnc nbits fsInd) (ggInd := o.ggInd) hne.1 hne.2.1 hl
  rw [hq] at h1
  obtain rfl : q = r := by simpa using h1
  rw [ho]
  refine ⟨h3, h2, ?_, ?_⟩
  · simp only
    have := h3.le
    rw [h2] at this
    rw [shiftRight_one]
    omega
  · simp only
    rw [h5]
    exact h4

/-- the quantisation of a spectrum of 160 lines succeeds -/
example : ∃ r, quantSpectrum 160 1 (List.replicate 160 (one : α)) 320 (-141) 100 150 = .ok r :=
  let ⟨r, h, _⟩ := C27_spectrum (α := α) (by norm_num) (by norm_num) (by simp)
  ⟨r, h⟩

/-! ## Postponed bits -/

theorem encEscapes_lev {lsb : Bool} {t : Nat} (fuel : Nat) : ∀ a b lev s r, encEscapes lsb t fuel a b lev s = .ok r →
    lev ≤ r.1.2.2 ∧ (4 ≤ max a b → lev < r.1.2.2) ∧ (max a b < 4 → r.1.2.2 = lev) := by
  induction fuel with
  | zero =>
    intro a b lev s r h
    unfold encEscapes at h
    split at h
    · cases h
    · simp only [Res.ok.injEq] at h
      subst h
      refine ⟨le_refl _, ?_, fun _ => rfl⟩
      intro; omega
  | succ fuel ih =>
    intro a b lev s r h
    unfold encEscapes at h
    split at h
    · simp only at h
      obtain ⟨s1, -, h⟩ := Res.bind_eq_ok.1 h
      obtain ⟨s2, -, h⟩ := Res.bind_eq_ok.1 h
      have := ih _ _ _ _ _ h
      refine ⟨by omega, fun _ => by omega, ?_⟩
      intro; omega
    · simp only [Res.ok.injEq] at h
      subst h
      refine ⟨le_refl _, ?_, fun _ => rfl⟩
      intro; omega

theorem pairLsbs_length {x0 x1 : Int} (h : 4 ≤ max x0.natAbs x1.natAbs) : (pairLsbs x0 x1).length = postponedPair x0 x1 := by
  unfold pairLsbs postponedPair
  rw [if_pos (by omega)]
  have e0 : (x0.natAbs >>> 1 = 0 ∧ x0 ≠ 0) ↔ x0.natAbs = 1 := by rw [shiftRight_one]; omega
  have e1 : (x1.natAbs >>> 1 = 0 ∧ x1 ≠ 0) ↔ x1.natAbs = 1 := by rw [shiftRight_one]; omega
  simp only [e0, e1]
  split <;> split <;> simp

theorem encPairs_capacity {rate ne n n' : Nat} (hn : n ≤ n') (m : Nat) : ∀ (xs : List Int) (k c : Nat) (lsbs : List Bool) (s : EncSt),
    xs.length = m → lsbs.length + postponed xs ≤ n →
    encPairs true rate ne n xs k c lsbs s = encPairs true rate ne n' xs k c lsbs s := by
  induction m using Nat.strong_induction_on with
  | _ m ih =>
    intro xs k c lsbs s hl hp
    match xs with
    | [] => rfl
    | [_] => rfl
    | x0 :: x1 :: xs =>
      simp only [postponed] at hp
      simp only [List.length_cons] at hl
      rw [encPairs, encPairs]
      simp only
      cases he : encEscapes true (c + rate + if k > ne / 2 then 256 else 0) 16 x0.natAbs x1.natAbs 0 s with
      | err => rfl
      | panic => rfl
      | ok r =>
        obtain ⟨⟨a, b, lev⟩, s1⟩ := r
        have hlev := encEscapes_lev _ _ _ _ _ _ he
        simp only at hlev
        simp only [Res.bind_ok, Bool.true_and]
        congr 1
        funext s2
        have hlen : (if decide (lev > 0) = true then lsbs ++ pairLsbs x0 x1 else lsbs).length = lsbs.length + postponedPair x0 x1 := by
          by_cases h4 : 4 ≤ max x0.natAbs x1.natAbs
          · have := hlev.2.1 h4
            rw [if_pos (by simpa using this), List.length_append, pairLsbs_length h4]
          · have := hlev.2.2 (by omega)
            rw [if_neg (by simp [this])]
            unfold postponedPair
            rw [if_neg (by omega)]
            rfl
        obtain ⟨L, hL⟩ : ∃ L, L = (if decide (lev > 0) = true then lsbs ++ pairLsbs x0 x1 else lsbs) := ⟨_, rfl⟩
        rw [← hL] at hlen ⊢
        have c1 : ¬ L.length > n := by omega
        have c2 : ¬ L.length > n' := by omega
        simp only [c1, c2, if_false]
        congr 1
        funext s3
        congr 1
        funext s4
        exact ih xs.length (by omega) _ _ _ _ _ rfl (by omega)

/-- **C33** The number of postponed bits the quantiser estimates is within the fixed capacity (3840), and in LSB mode the bit stream
writer, run on the quantised lines, behaves as with an unbounded buffer: the check of the buffer never strikes. -/
theorem C33 (f : SamplingFrequency) (d : FrameDuration) {fsInd nbits nbw ntns nltpf : Nat} {s s' : QuantSt α} {xf : List α}
    {o : QuantOut α} (h : quantRun (Lc3Config.new f d).ne fsInd s xf nbits nbw ntns nltpf = .ok (s', o)) :
    o.nbitsLsb ≤ 3840 ∧
    (o.lsbMode = true → postponed (o.xq.take o.lastnzTrunc) ≤ o.nbitsLsb ∧
      ∀ n', o.nbitsLsb ≤ n' → ∀ st : EncSt,
        encPairs o.lsbMode o.rateFlag (Lc3Config.new f d).ne o.nbitsLsb (o.xq.take o.lastnzTrunc) 0 0 [] st =
        encPairs o.lsbMode o.rateFlag (Lc3Config.new f d).ne n' (o.xq.take o.lastnzTrunc) 0 0 [] st) := by
  have hne : 2 ≤ (Lc3Config.new f d).ne ∧ (Lc3Config.new f d).ne % 2 = 0 ∧ (Lc3Config.new f d).ne ≤ 400 := by
    cases f <;> cases d <;> decide
  obtain ⟨hl, -, _, _, _, _, _, q, -, -, -, -, hq, ho⟩ := quantRun_inv h
  obtain ⟨r, h1, h2, h3, h4, -, -, -, -, h6, h7⟩ := C27_spectrum (α := α) (fsInd := fsInd) (nbits := nbits) (spec := o.nbitsSpec)
    (ggOff := ggOffEnc nbits fsInd) (ggInd := o.ggInd) hne.1 hne.2.1 hl
  rw [hq] at h1
  obtain rfl : q = r := by simpa using h1
  rw [ho]
  refine ⟨by simp only; omega, ?_⟩
  simp only
  intro hm
  refine ⟨h6 hm, ?_⟩
  intro n' hn st
  rw [hm]
  exact encPairs_capacity hn _ _ _ _ _ _ rfl (by simpa using h6 hm)

/-- a pair with magnitudes 5 and 1 postpones three bits, the pair 3, 1 none -/
example : postponed [5, -1, 3, 1] = 3 := by decide

/-! ## Gain index -/

theorem ggSearch_bounds (es : List α) (adj : Nat) (ggOff : Int) (n : Nat) :
    ∀ ind : Int, ind - (2 ^ n - 1) ≤ ggSearch es adj ggOff n (2 ^ n) ind ∧ ggSearch es adj ggOff n (2 ^ n) ind ≤ ind := by
  induction n with
  | zero => intro ind; simp [ggSearch]
  | succ n ih =>
    intro ind
    unfold ggSearch
    simp only
    rw [show (2 ^ (n + 1) : Int) / 2 = 2 ^ n by rw [pow_succ]; simp]
    have hp : (2 : Int) ^ (n + 1) = 2 * 2 ^ n := by rw [pow_succ]; ring
    have h0 : (0 : Int) < 2 ^ n := by positivity
    split
    · have := ih (ind - 2 ^ n + 2 ^ n)
      omega
    · have := ih (ind - 2 ^ n)
      omega

/-- **C26** (search) For every spectrum and budget the search ends in 0..255: every scalar type, hence all outcomes of the
comparisons. -/
theorem C26_search (es : List α) (adj : Nat) (ggOff : Int) :
    0 ≤ ggSearch es adj ggOff 8 256 255 ∧ ggSearch es adj ggOff 8 256 255 ≤ 255 := by
  have := ggSearch_bounds es adj ggOff 8 255
  norm_num at this
  exact this

theorem i16Chk_inv {x y : Int} (h : i16Chk x = .ok y) : y = x := by
  unfold i16Chk at h
  split at h
  · simpa using h.symm
  · cases h

theorem ggLimit_bounds {xf : List α} {ggOff ind ggMin ggInd : Int} {reset : Bool} (h0 : 0 ≤ ind) (h255 : ind ≤ 255)
    (h : ggLimit xf ggOff ind = .ok (reset, ggMin, ggInd)) (hm : ggMinOf xf ggOff ≤ 255)
    (hz : eq (maxAbs xf) zero = true → ggMinOf xf ggOff = 0) :
    ggMin = ggMinOf xf ggOff ∧ 0 ≤ ggInd ∧ ggInd ≤ 255 ∧ ggMin ≤ ggInd := by
  unfold ggLimit at h
  obtain ⟨g, h1, h⟩ := Res.bind_eq_ok.1 h
  have hg := i16Chk_inv h1
  subst hg
  split at h
  · rename_i hc
    simp only [Res.ok.injEq, Prod.mk.injEq] at h
    obtain ⟨-, rfl, rfl⟩ := h
    refine ⟨rfl, ?_, hm, le_refl _⟩
    rw [Bool.or_eq_true, decide_eq_true_eq] at hc
    rcases hc with hc | hc
    · omega
    · rw [hz hc]
  · rename_i hc
    simp only [Res.ok.injEq, Prod.mk.injEq] at h
    obtain ⟨-, rfl, rfl⟩ := h
    rw [Bool.or_eq_true, decide_eq_true_eq] at hc
    exact ⟨rfl, h0, h255, by omega⟩

theorem ggAdjust_bounds {fsInd : Nat} {ggInd ggMin g : Int} {spec est : Nat} (h0 : 0 ≤ ggInd) (h255 : ggInd ≤ 255)
    (hm : ggMin ≤ 255) (h : ggAdjust α fsInd ggInd ggMin spec est = .ok g)
    (hlow : ∀ i, i < 5 → spec < est →
      lt (ofInt est : α) (ofInt spec - (ggDelta (GG_T1.getD i 0) (GG_T2.getD i 0) (GG_T3.getD i 0) est + ofRat 2)) = false) :
    0 ≤ g ∧ g ≤ 255 := by
  unfold ggAdjust at h
  obtain ⟨t1, h1, h⟩ := Res.bind_eq_ok.1 h
  obtain ⟨t2, h2, h⟩ := Res.bind_eq_ok.1 h
  obtain ⟨t3, h3, h⟩ := Res.bind_eq_ok.1 h
  have hi : fsInd < 5 := by
    by_contra hc
    rw [idx_eq_panic (by simp [GG_T1]; omega)] at h1
    cases h1
  have e1 : GG_T1.getD fsInd 0 = t1 := by simp [List.getD, idx_ok_iff.1 h1]
  have e2 : GG_T2.getD fsInd 0 = t2 := by simp [List.getD, idx_ok_iff.1 h2]
  have e3 : GG_T3.getD fsInd 0 = t3 := by simp [List.getD, idx_ok_iff.1 h3]
  have hl := hlow fsInd hi
  rw [e1, e2, e3] at hl
  simp only at h
  obtain ⟨low, hlw⟩ : ∃ b, b = lt (ofInt est : α) (ofInt spec - (ggDelta t1 t2 t3 est + ofRat 2)) := ⟨_, rfl⟩
  rw [← hlw] at h hl
  split at h
  · rename_i hc
    obtain ⟨g', hg, h⟩ := Res.bind_eq_ok.1 h
    simp only [Res.ok.injEq] at h
    subst h
    cases low with
    | true =>
      rw [if_pos rfl] at hg
      have := i16Chk_inv hg
      rcases hc with ⟨-, hc⟩ | ⟨hc, -⟩
      · simpa using hl hc
      · omega
    | false =>
      have hc' : ggInd < 255 := by
        rcases hc with ⟨hc, -⟩ | ⟨-, hc⟩
        · exact hc
        · cases hc
      rw [if_neg (by simp)] at hg
      split at hg
      · have := i16Chk_inv hg
        omega
      · rename_i hne
        have := i16Chk_inv hg
        have : ggInd ≠ 254 := fun h => hne (.inl h)
        omega
  · simp only [Res.ok.injEq] at h
    omega

/-! ### binary32 -/

namespace F32

/-- zero, positive, or positive infinity -/
def NN (x : F32) : Prop := x = inf false ∨ ∃ q : ℚ, 0 ≤ q ∧ x = fin q

theorem nn_rnd {q : ℚ} (h : 0 ≤ q) : NN (rnd q) := by
  have h1 := rndQ_nonneg h
  unfold rnd
  split
  · exact .inl rfl
  · rw [if_neg (by have : (0 : ℚ) < 2 ^ 128 := by norm_num
                   linarith)]
    exact .inr ⟨_, h1, rfl⟩

theorem nn_add {a b : F32} (ha : NN a) (hb : NN b) : NN (add a b) := by
  rcases ha with rfl | ⟨p, hp, rfl⟩ <;> rcases hb with rfl | ⟨q, hq, rfl⟩
  · exact .inl rfl
  · exact .inl rfl
  · exact .inl rfl
  · exact nn_rnd (by linarith)

theorem nn_div {a : F32} {q : ℚ} (ha : NN a) (hq : 0 < q) : NN (div a (fin q)) := by
  rcases ha with rfl | ⟨p, hp, rfl⟩
  · left
    show inf (false != decide (q < 0)) = _
    simp [not_lt.2 hq.le]
  · show NN (if q = 0 then _ else _)
    rw [if_neg hq.ne']
    exact nn_rnd (div_nonneg hp hq.le)

theorem nn_floor {a : F32} (ha : NN a) : NN (floorF a) := by
  rcases ha with rfl | ⟨p, hp, rfl⟩
  · exact .inl rfl
  · exact .inr ⟨_, by exact_mod_cast Int.floor_nonneg.2 hp, rfl⟩

theorem rnd_nat {n : ℕ} (h : n < 2 ^ 20) : rnd (n : ℚ) = fin n := by
  have := rnd_sixteenth (n := (n * 16 : ℕ)) (by rw [abs_of_nonneg (by positivity)]; norm_cast; omega)
  have e : ((((n * 16 : ℕ) : ℤ) : ℚ) / 16) = n := by push_cast; ring
  rwa [e] at this

/-- subtracting something non-negative does not exceed what was there before -/
theorem lt_sub_nn {n m : ℕ} {d : F32} (hn : n < 2 ^ 20) (hnm : n < m) (hd : NN d) :
    lt (rnd (m : ℚ)) (sub (rnd (n : ℚ)) d) = false := by
  rw [rnd_nat hn]
  have hmono : (n : ℚ) ≤ rndQ m := by
    have h1 := rndQ_mono (a := (n : ℚ)) (b := m) (by exact_mod_cast hnm.le)
    have h2 := rnd_nat hn
    unfold rnd at h2
    split at h2
    · cases h2
    · split at h2
      · cases h2
      · simp only [fin.injEq] at h2
        linarith
  have hb : (n : ℚ) < 2 ^ 20 := by exact_mod_cast hn
  obtain ⟨A, hA⟩ : ∃ A, A = rnd (m : ℚ) := ⟨_, rfl⟩
  have hA' : A = inf false ∨ ∃ q : ℚ, (n : ℚ) ≤ q ∧ A = fin q := by
    rw [hA]
    unfold rnd
    split
    · exact .inl rfl
    · rw [if_neg (by have : (0 : ℚ) < 2 ^ 128 := by norm_num
                     have : (0 : ℚ) ≤ n := by positivity
                     linarith)]
      exact .inr ⟨_, hmono, rfl⟩
  rw [← hA]
  obtain ⟨C, hC⟩ : ∃ C, C = sub (fin n) d := ⟨_, rfl⟩
  have hC' : C = inf true ∨ ∃ q : ℚ, q ≤ n ∧ C = fin q := by
    rw [hC]
    rcases hd with rfl | ⟨q, hq, rfl⟩
    · exact .inl rfl
    · have hs : sub (fin n) (fin q) = rnd (n + -q) := rfl
      rw [hs]
      have h1 := rndQ_mono (a := (n : ℚ) + -q) (b := n) (by linarith)
      have h2 : rndQ (n : ℚ) = n := by
        have h2 := rnd_nat hn
        unfold rnd at h2
        split at h2
        · cases h2
        · split at h2
          · cases h2
          · simpa using h2
      rw [h2] at h1
      unfold rnd
      rw [if_neg (by have : (2 : ℚ) ^ 20 < 2 ^ 128 := by norm_num
                     linarith)]
      split
      · exact .inl rfl
      · exact .inr ⟨_, h1, rfl⟩
  rw [← hC]
  rcases hA' with rfl | ⟨a, ha, rfl⟩ <;> rcases hC' with rfl | ⟨c, hc, rfl⟩
  · rfl
  · rfl
  · rfl
  · show decide (a < c) = false
    simp; linarith

theorem nn_sub_nat {n m : ℕ} (hm : m < 2 ^ 20) (h : n ≤ m) : NN (sub (rnd (m : ℚ)) (rnd (n : ℚ))) := by
  rw [rnd_nat hm, rnd_nat (by omega)]
  show NN (rnd (m + -n))
  refine nn_rnd ?_
  have : (n : ℚ) ≤ m := by exact_mod_cast h
  linarith

end F32

def isNNfin : F32 → Bool
  | .fin q => decide (0 ≤ q)
  | _ => false

theorem ggDelta0_nn (el : F32.Elem) {i est : Nat} (hi : i < 5) :
    F32.NN (@ggDelta0 F32 (F32.scalar el) (GG_T1.getD i 0) (GG_T2.getD i 0) (GG_T3.getD i 0) est) := by
  have h16 : F32.rnd 16 = F32.fin 16 := by have := F32.rnd_nat (n := 16) (by norm_num); exact_mod_cast this
  have h48 : F32.rnd 48 = F32.fin 48 := by have := F32.rnd_nat (n := 48) (by norm_num); exact_mod_cast this
  have hint : ∀ n : ℕ, @ofInt F32 (F32.scalar el) (n : ℤ) = F32.rnd (n : ℚ) := fun n => by
    show F32.rnd (((n : ℤ) : ℚ)) = _
    norm_cast
  have ht : GG_T1.getD i 0 < GG_T2.getD i 0 ∧ GG_T2.getD i 0 < 2 ^ 20 := by
    revert i; decide
  unfold ggDelta0
  simp only [hint]
  split
  · show F32.NN (F32.div (F32.add (F32.rnd est) (F32.rnd 48)) (F32.rnd 16))
    rw [h16]
    exact F32.nn_div (F32.nn_add (F32.nn_rnd (by positivity)) (F32.nn_rnd (by norm_num))) (by norm_num)
  · split
    · rename_i h1 h2
      show F32.NN (F32.add (F32.div (F32.mul (F32.sub (F32.rnd est) (F32.rnd (GG_T1.getD i 0 : ℕ))) (F32.sub (F32.div (F32.rnd (GG_T2.getD i 0 : ℕ)) (F32.rnd 48))
        (F32.add (F32.div (F32.rnd (GG_T1.getD i 0 : ℕ)) (F32.rnd 16)) (F32.rnd 3))))
        (F32.sub (F32.rnd (GG_T2.getD i 0 : ℕ)) (F32.rnd (GG_T1.getD i 0 : ℕ))))
        (F32.add (F32.div (F32.rnd (GG_T1.getD i 0 : ℕ)) (F32.rnd 16)) (F32.rnd 3)))
      have hc : ∃ q : ℚ, 0 ≤ q ∧ F32.sub (F32.div (F32.rnd (GG_T2.getD i 0 : ℕ)) (F32.rnd 48))
        (F32.add (F32.div (F32.rnd (GG_T1.getD i 0 : ℕ)) (F32.rnd 16)) (F32.rnd 3)) = F32.fin q := by
        have hk : ∀ i, i < 5 → isNNfin (F32.sub (F32.div (F32.rnd (GG_T2.getD i 0 : ℕ)) (F32.rnd 48))
            (F32.add (F32.div (F32.rnd (GG_T1.getD i 0 : ℕ)) (F32.rnd 16)) (F32.rnd 3))) = true := by decide +kernel
        have := hk i hi
        revert this
        generalize F32.sub (F32.div (F32.rnd (GG_T2.getD i 0 : ℕ)) (F32.rnd 48))
            (F32.add (F32.div (F32.rnd (GG_T1.getD i 0 : ℕ)) (F32.rnd 16)) (F32.rnd 3)) = x
        cases x with
        | nan => intro h; cases h
        | inf b => intro h; cases h
        | fin q => intro h; exact ⟨q, by simpa [isNNfin] using h, rfl⟩
      obtain ⟨q, hq, hc⟩ := hc
      rw [hc, F32.rnd_nat (n := est) (by omega), F32.rnd_nat (n := GG_T1.getD i 0) (by omega),
        F32.rnd_nat (n := GG_T2.getD i 0) (by omega), h16]
      have hdiff : F32.sub (F32.fin (GG_T2.getD i 0 : ℕ)) (F32.fin (GG_T1.getD i 0 : ℕ)) =
          F32.fin ((GG_T2.getD i 0 - GG_T1.getD i 0 : ℕ)) := by
        show F32.rnd _ = _
        rw [← F32.rnd_nat (by omega)]
        congr 1
        push_cast [ht.1.le]
        ring
      rw [hdiff]
      refine F32.nn_add (F32.nn_div ?_ (by norm_cast; omega)) (F32.nn_add (F32.nn_div (.inr ⟨_, by positivity, rfl⟩) (by norm_num)) (F32.nn_rnd (by norm_num)))
      have hd2 : F32.sub (F32.fin (est : ℕ)) (F32.fin (GG_T1.getD i 0 : ℕ)) = F32.fin ((est - GG_T1.getD i 0 : ℕ)) := by
        show F32.rnd _ = _
        rw [← F32.rnd_nat (by omega)]
        congr 1
        push_cast [not_lt.1 h1]
        ring
      rw [hd2]
      exact F32.nn_rnd (mul_nonneg (by positivity) hq)
    · split
      · show F32.NN (F32.div (F32.rnd est) (F32.rnd 48))
        rw [h48]
        exact F32.nn_div (F32.nn_rnd (by positivity)) (by norm_num)
      · show F32.NN (F32.div (F32.rnd (GG_T3.getD i 0 : ℕ)) (F32.rnd 48))
        rw [h48]
        exact F32.nn_div (F32.nn_rnd (by positivity)) (by norm_num)

/-- **C26** In binary32, for every spectrum, state and budget below 128 KiB: if the limiter bound is at most 255, the transmitted gain
index is in 0..255 (8 bits), and it is not below the limiter bound. -/
theorem C26 (el : F32.Elem) {ne fsInd nbits nbw ntns nltpf : Nat} {s s' : QuantSt F32} {xf : List F32} {o : QuantOut F32}
    (hn : nbits < 2 ^ 20) (h : @quantRun F32 (F32.scalar el) ne fsInd s xf nbits nbw ntns nltpf = .ok (s', o))
    (hm : @ggMinOf F32 (F32.scalar el) xf (ggOffEnc nbits fsInd) ≤ 255) :
    0 ≤ o.ggInd ∧ o.ggInd ≤ 255 := by
  obtain ⟨-, hb, ind0, reset, ggMin, ggInd, q0, q, h1, h2, -, h3, -⟩ := @quantRun_inv F32 (F32.scalar el) _ _ _ _ _ _ _ _ _ _ h
  have hs := @C26_search F32 (F32.scalar el) (@spectralEnergy F32 (F32.scalar el) (ne / 4) xf)
    (@nbitsSpecAdj F32 (F32.scalar el) o.nbitsSpec (@nbitsOffset F32 (F32.scalar el) s)) (ggOffEnc nbits fsInd)
  rw [← h1] at hs
  have hz0 : (@zero F32 (F32.scalar el)) = F32.fin 0 := by
    show F32.rnd 0 = _
    rw [show (0 : ℚ) = ((0 : ℤ) : ℚ) by norm_num, F32.rnd_int (by norm_num)]
  have hz : F32.eq (@maxAbs F32 (F32.scalar el) xf) (@zero F32 (F32.scalar el)) = true →
      @ggMinOf F32 (F32.scalar el) xf (ggOffEnc nbits fsInd) = 0 := by
    intro he
    rw [hz0] at he
    have hmz : @maxAbs F32 (F32.scalar el) xf = F32.fin 0 := by
      revert he
      cases @maxAbs F32 (F32.scalar el) xf with
      | nan => intro he; exact absurd he (by simp [F32.eq])
      | inf b => intro he; exact absurd he (by simp [F32.eq])
      | fin q => intro he; simpa [F32.eq] using he
    unfold ggMinOf
    rw [hmz, hz0]
    exact if_neg (by show ¬ (decide ((0 : ℚ) < 0) = true); simp)
  obtain ⟨g1, g2, g3, -⟩ := @ggLimit_bounds F32 (F32.scalar el) _ _ _ _ _ _ hs.1 hs.2 h2 hm hz
  refine @ggAdjust_bounds F32 (F32.scalar el) _ _ _ _ _ _ g2 g3 (by omega) h3 ?_
  intro i hi hse
  have hnn := ggDelta0_nn el (est := q0.bc.nbitsEst) hi
  have hint : ∀ n : ℕ, @ofInt F32 (F32.scalar el) (n : ℤ) = F32.rnd (n : ℚ) := fun n => by
    show F32.rnd (((n : ℤ) : ℚ)) = _
    norm_cast
  show F32.lt _ (F32.sub _ (F32.add (F32.floorF (F32.add _ (F32.rnd (1 / 2)))) (F32.rnd 2))) = false
  rw [hint, hint]
  exact F32.lt_sub_nn (by omega) hse
    (F32.nn_add (F32.nn_floor (F32.nn_add hnn (F32.nn_rnd (by norm_num)))) (F32.nn_rnd (by norm_num)))

/-! ## Encoder and decoder gain -/

/-- **C25** For every frame of at most 4095 bytes, every sampling rate index and every gain index: the gain the encoder quantises with is
the gain the decoder multiplies with (any scalar type, so bit for bit the same `f32`). -/
theorem C25 {nbits fsInd ggInd : Nat} (hn : nbits < 32768) :
    ggOffEnc nbits fsInd = ggOffDec nbits fsInd ∧
    (ggValue (ggInd : Int) (ggOffEnc nbits fsInd) : α) = globalGainFactor nbits fsInd ggInd := by
  have h : ggOffEnc nbits fsInd = ggOffDec nbits fsInd := by
    unfold ggOffEnc ggOffDec toI16Wrap toI32Wrap
    simp only
    rw [if_pos (by omega), if_pos (by omega), Nat.mod_eq_of_lt (by omega), Nat.mod_eq_of_lt (by omega), Int.min_comm]
  refine ⟨h, ?_⟩
  unfold ggValue globalGainFactor
  rw [h]
  congr 3

/-- **C25** (run) The gain reported by the quantiser is the one the decoder computes from the transmitted index. -/
theorem C25_run {ne fsInd nbits nbw ntns nltpf : Nat} {s s' : QuantSt α} {xf : List α} {o : QuantOut α} (hn : nbits < 32768)
    (h : quantRun ne fsInd s xf nbits nbw ntns nltpf = .ok (s', o)) (h0 : 0 ≤ o.ggInd) :
    o.gg = globalGainFactor nbits fsInd o.ggInd.toNat := by
  obtain ⟨-, -, _, _, _, _, _, q, -, -, -, -, hq, ho⟩ := quantRun_inv h
  have hg : q.gg = ggValue o.ggInd (ggOffEnc nbits fsInd) := by
    unfold quantSpectrum at hq
    obtain ⟨bc, -, hq⟩ := Res.bind_eq_ok.1 hq
    split at hq
    · simp only [Res.ok.injEq] at hq
      rw [← hq]
    · cases hq
  rw [ho]
  simp only
  rw [hg, ← (C25 (α := α) (fsInd := fsInd) (ggInd := o.ggInd.toNat) hn).2]
  congr 1
  omega

/-- beyond the format's frame sizes the two sides differ: the encoder converts the number of bits to `i16` -/
theorem C25_limit : ggOffEnc 40000 4 ≠ ggOffDec 40000 4 := by decide

/-- 150 bytes at 48 kHz -/
example : ggOffEnc 1200 4 = -154 := by decide

end Lc3
