import Verif.Props.TnsBoth
/-! C129: temporal noise shaping does not depend on loudness and polarity, in exact arithmetic -/

namespace Lc3
open Scalar Spec

theorem sliceR_scaled (c : ℝ) (x : List ℝ) (a b : ℕ) :
    sliceR (x.map (c * ·)) a b = (sliceR x a b).bind fun l => .ok (l.map (c * ·)) := by
  unfold sliceR
  rw [List.length_map]
  split
  · show Res.ok _ = Res.ok _
    rw [List.map_drop, List.map_take]
  · rfl

theorem dot_foldl_scaled (c : ℝ) (l : List (ℝ × ℝ)) : ∀ e,
    (l.map fun p => (c * p.1, c * p.2)).foldl (fun s p => s + p.1 * p.2) (c ^ 2 * e) = c ^ 2 * l.foldl (fun s p => s + p.1 * p.2) e := by
  induction l with
  | nil => intro e; rfl
  | cons p l ih => intro e; rw [List.map_cons, List.foldl_cons, List.foldl_cons, ← ih]; congr 1; ring

theorem dotS_scaled (c : ℝ) (l m : List ℝ) : dotS (l.map (c * ·)) (m.map (c * ·)) = c ^ 2 * dotS l m := by
  unfold dotS
  have h := dot_foldl_scaled c (l.zip m) zero
  rw [show c ^ 2 * (zero : ℝ) = zero by show c ^ 2 * ((0 : ℚ) : ℝ) = ((0 : ℚ) : ℝ); simp] at h
  rw [← h, List.zip_map]
  rfl

theorem squares_scaled (c : ℝ) (l : List ℝ) : ∀ a, (l.map (c * ·)).foldl (fun e h => e + h * h) (c ^ 2 * a) = c ^ 2 * l.foldl (fun e h => e + h * h) a := by
  induction l with
  | nil => intro a; rfl
  | cons x l ih => intro a; rw [List.map_cons, List.foldl_cons, List.foldl_cons, ← ih]; congr 1; ring

/-- the products of energies are scaled by a factor that is not zero, the normalised correlations not at all -/
theorem tnsCorrParts_scaled {c : ℝ} (hc : c ≠ 0) (x : List ℝ) (k : ℕ) (ps : List (ℕ × ℕ)) : ∀ u e r : ℝ,
    tnsCorrParts (x.map (c * ·)) k ps (u * e) r = (tnsCorrParts x k ps e r).bind fun q => .ok (u * (c ^ 2) ^ ps.length * q.1, q.2) := by
  have hz : c ^ 2 * (zero : ℝ) = zero := by show c ^ 2 * ((0 : ℚ) : ℝ) = ((0 : ℚ) : ℝ); simp
  induction ps with
  | nil => intro u e r; show Res.ok _ = Res.ok _; simp
  | cons p ps ih =>
    obtain ⟨a, b⟩ := p
    intro u e r
    rw [tnsCorrParts, tnsCorrParts, sliceR_scaled]
    cases hs : sliceR x a b with
    | err => rfl
    | panic => rfl
    | ok part =>
    have h2 := squares_scaled c part zero
    rw [hz] at h2
    show ((if a + k < (x.map (c * ·)).length ∧ a + k < b then _ else _) >>= fun ac => tnsCorrParts (x.map (c * ·)) k ps
      (u * e * (part.map (c * ·)).foldl (fun s v => s + v * v) zero) (r + ac / (part.map (c * ·)).foldl (fun s v => s + v * v) zero)) =
      Res.bind ((if a + k < x.length ∧ a + k < b then _ else _) >>= fun ac => tnsCorrParts x k ps
        (e * part.foldl (fun s v => s + v * v) zero) (r + ac / part.foldl (fun s v => s + v * v) zero)) _
    rw [h2, List.length_map]
    generalize part.foldl (fun s v => s + v * v) zero = E
    have hstep : ∀ ac : ℝ, tnsCorrParts (x.map (c * ·)) k ps (u * e * (c ^ 2 * E)) (r + c ^ 2 * ac / (c ^ 2 * E)) =
        (tnsCorrParts x k ps (e * E) (r + ac / E)).bind fun q => .ok (u * (c ^ 2) ^ (ps.length + 1) * q.1, q.2) := by
      intro ac
      rw [mul_div_mul_left _ _ (pow_ne_zero 2 hc), show u * e * (c ^ 2 * E) = (u * c ^ 2) * (e * E) by ring, ih]
      congr 1
      funext q
      rw [pow_succ]
      congr 2
      ring
    split
    · rw [sliceR_scaled]
      cases sliceR x (a + k) b with
      | err => rfl
      | panic => rfl
      | ok sh =>
        show tnsCorrParts _ k ps _ (r + dotS (part.map (c * ·)) (sh.map (c * ·)) / _) = _
        rw [dotS_scaled, hstep]
        rfl
    · show tnsCorrParts _ k ps _ (r + (zero : ℝ) / _) = _
      rw [← hz, hstep, hz]
      rfl

theorem tnsCorrFrom_scaled {c : ℝ} (hc : c ≠ 0) (x : List ℝ) (sub : List (ℕ × ℕ)) (ws : List ℚ) : ∀ k,
    tnsCorrFrom (x.map (c * ·)) sub k ws = tnsCorrFrom x sub k ws := by
  induction ws with
  | nil => intro k; rfl
  | cons w ws ih =>
    intro k
    rw [tnsCorrFrom, tnsCorrFrom, ih]
    have h := tnsCorrParts_scaled hc x k sub 1 one zero
    rw [one_mul] at h
    rw [h]
    cases tnsCorrParts x k sub (one : ℝ) zero with
    | err => rfl
    | panic => rfl
    | ok q =>
      obtain ⟨e, r⟩ := q
      have he : eq (1 * (c ^ 2) ^ sub.length * e) (zero : ℝ) = eq e zero := by
        show decide (_ = ((0 : ℚ) : ℝ)) = decide (_ = ((0 : ℚ) : ℝ))
        rw [decide_eq_decide]
        have : (c ^ 2) ^ sub.length ≠ 0 := pow_ne_zero _ (pow_ne_zero 2 hc)
        simp [hc]
      show (tnsCorrFrom x sub (k + 1) ws >>= fun rest => Res.ok ((if eq (1 * (c ^ 2) ^ sub.length * e) zero then _ else _) * _ :: rest)) = _
      rw [he]
      rfl

theorem tnsFilterInts_scaled {c : ℝ} (hc : c ≠ 0) (x : List ℝ) (nn : Bool) (w : ℕ) :
    tnsFilterInts (x.map (c * ·)) nn w = tnsFilterInts x nn w := by
  funext sub
  unfold tnsFilterInts tnsCorr
  rw [tnsCorrFrom_scaled hc]

theorem encLattice_scaled (c : ℝ) (rs : List ℝ) : ∀ (ss : List ℝ) (t save : ℝ), encLattice rs (ss.map (c * ·)) (c * t) (c * save) =
    (c * (encLattice rs ss t save).1, c * (encLattice rs ss t save).2.1, (encLattice rs ss t save).2.2.map (c * ·)) := by
  induction rs with
  | nil => intro ss t save; cases ss <;> rfl
  | cons r rs ih =>
    intro ss t save
    cases ss with
    | nil => rfl
    | cons s ss =>
      rw [List.map_cons, encLattice, encLattice]
      rw [show c * t + r * (c * s) = c * (t + r * s) by ring, show r * (c * t) + c * s = c * (r * t + s) by ring, ih]
      rfl

theorem at0_scaled (c : ℝ) (l : List ℝ) (i : ℕ) : at0 (l.map (c * ·)) i = c * at0 l i := by
  unfold at0
  rw [List.getD_eq_getElem?_getD, List.getD_eq_getElem?_getD, List.getElem?_map]
  cases l[i]? with
  | some v => rfl
  | none => show ((0 : ℚ) : ℝ) = c * ((0 : ℚ) : ℝ); simp

theorem encLatticeLine_scaled (c : ℝ) (rc : List ℝ) (x : ℝ) (st : List ℝ) :
    encLatticeLine rc (c * x) (st.map (c * ·)) = (c * (encLatticeLine rc x st).1, (encLatticeLine rc x st).2.map (c * ·)) := by
  unfold encLatticeLine
  simp only
  rw [← List.map_take, encLattice_scaled, at0_scaled, ← List.map_drop]
  simp only [List.map_append, List.map_cons, Prod.mk.injEq, and_true]
  ring

theorem encLatticeBand_scaled (c : ℝ) (rc : List ℝ) (xs : List ℝ) : ∀ st : List ℝ,
    encLatticeBand rc (xs.map (c * ·)) (st.map (c * ·)) = ((encLatticeBand rc xs st).1.map (c * ·), (encLatticeBand rc xs st).2.map (c * ·)) := by
  induction xs with
  | nil => intro st; rfl
  | cons x xs ih => intro st; rw [List.map_cons, encLatticeBand, encLatticeBand, encLatticeLine_scaled]; simp only; rw [ih]; rfl

theorem tnsFilterLoop_scaled (c : ℝ) (bands : List (ℕ × ℕ)) : ∀ (rcs : List (List ℝ)) (lines st : List ℝ),
    tnsFilterLoop bands rcs (lines.map (c * ·)) (st.map (c * ·)) = (tnsFilterLoop bands rcs lines st).bind fun l => .ok (l.map (c * ·)) := by
  induction bands with
  | nil => intro rcs lines st; rfl
  | cons p bands ih =>
    obtain ⟨a, b⟩ := p
    intro rcs lines st
    cases rcs with
    | nil => rfl
    | cons rc rcs =>
      rw [tnsFilterLoop, tnsFilterLoop]
      split
      · rw [sliceR_scaled]
        cases sliceR lines a b with
        | err => rfl
        | panic => rfl
        | ok l =>
          have h := ih rcs (lines.take a ++ (encLatticeBand rc l st).1 ++ lines.drop b) (encLatticeBand rc l st).2
          rw [List.map_append, List.map_append, List.map_take, List.map_drop] at h
          show tnsFilterLoop bands rcs (_ ++ (encLatticeBand rc (l.map (c * ·)) (st.map (c * ·))).1 ++ _) (encLatticeBand rc (l.map (c * ·)) (st.map (c * ·))).2 = _
          rw [encLatticeBand_scaled]
          exact h
      · exact ih rcs lines st

/-- **C129** In exact arithmetic, for every spectrum and every factor other than zero: temporal noise shaping of the multiplied spectrum gives the same
number of bits, weighting, orders and coefficients, and the multiplied lines; it panics for the one exactly if it panics for the other. -/
theorem C129 {c : ℝ} (hc : c ≠ 0) (cfg : Lc3Config) (x : List ℝ) (bw nbits : ℕ) (nn : Bool) :
    tnsEncRun cfg (x.map (c * ·)) bw nbits nn =
      (tnsEncRun cfg x bw nbits nn >>= fun r => Res.ok { r with lines := r.lines.map (c * ·) }) := by
  unfold tnsEncRun
  rw [List.length_map]
  split
  · rfl
  cases tnsParams cfg.nMs bw with
  | err => rfl
  | panic => rfl
  | ok p =>
  simp only [Res.bind_ok]
  rw [tnsFilterInts_scaled hc]
  cases p.subs.mapM (tnsFilterInts x nn (lpcWeightingOf cfg.nMs nbits)) with
  | err => rfl
  | panic => rfl
  | ok ints =>
  simp only [Res.bind_ok]
  cases ints.mapM (tnsFilterBits ℝ (lpcWeightingOf cfg.nMs nbits)) with
  | err => rfl
  | panic => rfl
  | ok bits =>
  simp only [Res.bind_ok]
  have h := tnsFilterLoop_scaled c p.bands (ints.map fun l => (l.take (tnsOrder l)).map tnsQuant) x (List.replicate 8 zero)
  rw [List.map_replicate, show c * (zero : ℝ) = zero by show c * ((0 : ℚ) : ℝ) = ((0 : ℚ) : ℝ); simp] at h
  rw [h]
  cases tnsFilterLoop p.bands (ints.map fun l => (l.take (tnsOrder l)).map tnsQuant) x (List.replicate 8 (zero : ℝ)) <;> rfl

/-- C129 with both filters on: 48 kHz, decaying pulses, multiplied by -1/3 -/
example : ∃ res, tnsEncRun (Lc3Config.new .hz48000 .tenMs) ((castL bothWitness).map ((-1 / 3) * ·)) 4 800 false = .ok res ∧ res.rcOrder = [1, 1] := by
  obtain ⟨res, h, -, ho, -⟩ := bothWitness_run
  rw [C129 (by norm_num), h]
  exact ⟨_, rfl, ho⟩

end Lc3
