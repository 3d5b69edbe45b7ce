import Verif.Model.EncTns
import Verif.Model.DecSpectrum
import Verif.Model.ScalarReal
import Verif.Lemmas.EncLtpf
import Mathlib.Tactic.Ring
/-! Lemmas for C15: the lattice filters of encoder and decoder are inverse to each other in exact arithmetic. -/

namespace Lc3
open Scalar

/-- forward values of the lattice: `f 0 = x`, `f (j + 1) = f j + r j * s j` -/
def latF (r s : Nat → ℝ) (x : ℝ) : Nat → ℝ
  | 0 => x
  | j + 1 => latF r s x j + r j * s j

/-- backward values of the lattice: `b 0 = x`, `b (j + 1) = r j * f j + s j` -/
def latB (r s : Nat → ℝ) (x : ℝ) : Nat → ℝ
  | 0 => x
  | j + 1 => r j * latF r s x j + s j

theorem encLattice_eq (rs ss : List ℝ) (h : rs.length = ss.length) :
    ∀ (n : Nat) (r s : Nat → ℝ) (x : ℝ), (∀ j, j < rs.length → rs[j]? = some (r (n + j)) ∧ ss[j]? = some (s (n + j))) →
      encLattice rs ss (latF r s x n) (latB r s x n)
        = (latF r s x (n + rs.length), latB r s x (n + rs.length),
            (List.range rs.length).map fun j => latB r s x (n + j)) := by
  induction rs generalizing ss with
  | nil =>
    intro n r s x _
    cases ss with
    | nil => rfl
    | cons _ _ => simp at h
  | cons a as ih =>
    intro n r s x hv
    cases ss with
    | nil => simp at h
    | cons b bs =>
      obtain ⟨h1, h2⟩ := hv 0 (by simp)
      simp only [List.getElem?_cons_zero, Option.some.injEq, Nat.add_zero] at h1 h2
      subst h1; subst h2
      have := ih bs (by simpa using h) (n + 1) r s x (fun j hj => by
        have := hv (j + 1) (by simpa using hj)
        simpa [Nat.add_assoc, Nat.add_comm 1 j] using this)
      unfold encLattice
      simp only [List.length_cons]
      have e1 : latF r s x n + r n * s n = latF r s x (n + 1) := rfl
      have e2 : r n * latF r s x n + s n = latB r s x (n + 1) := rfl
      change (let p := encLattice as bs (latF r s x n + r n * s n) (r n * latF r s x n + s n);
        (p.1, p.2.1, latB r s x n :: p.2.2)) = _
      rw [e1, e2, this]
      simp only [List.range_succ_eq_map, List.map_cons, List.map_map, Prod.mk.injEq]
      refine ⟨by congr 1; omega, by congr 1; omega, ?_⟩
      rw [Nat.add_zero]
      congr 1
      apply List.map_congr_left
      intro j _
      show latB r s x (n + 1 + j) = latB r s x (n + (j + 1))
      congr 1; omega

theorem setIdx_okT {β : Type} {l : List β} {i : Nat} {v : β} (h : i < l.length) : setIdx l i v = .ok (l.set i v) := by
  simp [setIdx, h]

theorem latticeLoop_inv (rc : List ℝ) (off : Nat) (r s : Nat → ℝ) (x : ℝ) :
    ∀ (k : Nat) (st : List ℝ), k < st.length → (∀ j, j < k → rc[j + off]? = some (r j)) → (∀ j, j < k → st[j]? = some (s j)) →
      ∃ st', latticeLoop rc off k (latF r s x k) st = .ok (x, st') ∧ st'.length = st.length ∧
        (∀ j, j < k → st'[j + 1]? = some (latB r s x (j + 1))) ∧ (∀ j, (j = 0 ∨ k < j) → st'[j]? = st[j]?)
  | 0, st, _, _, _ => ⟨st, rfl, rfl, fun _ h => absurd h (by omega), fun _ _ => rfl⟩
  | k + 1, st, hk, hr, hs => by
    unfold latticeLoop
    rw [idx_ok_iff.2 (hr k (by omega)), Res.bind_ok, idx_ok_iff.2 (hs k (by omega)), Res.bind_ok]
    have e : latF r s x (k + 1) - r k * s k = latF r s x k := by
      show latF r s x k + r k * s k - r k * s k = _
      ring
    show ∃ st', (setIdx st (k + 1) (r k * (latF r s x (k + 1) - r k * s k) + s k) >>=
      fun st => latticeLoop rc off k (latF r s x (k + 1) - r k * s k) st) = _ ∧ _
    rw [e, setIdx_okT hk, Res.bind_ok]
    obtain ⟨st', h1, h2, h3, h4⟩ := latticeLoop_inv rc off r s x k (st.set (k + 1) (r k * latF r s x k + s k))
      (by simp; omega) (fun j hj => hr j (by omega)) (fun j hj => by
        rw [List.getElem?_set_ne (by omega)]; exact hs j (by omega))
    refine ⟨st', h1, by rw [h2, List.length_set], ?_, ?_⟩
    · intro j hj
      by_cases hjk : j = k
      · subst hjk
        rw [h4 (j + 1) (Or.inr (by omega)), List.getElem?_set_self hk]
        rfl
      · exact h3 j (by omega)
    · intro j hj
      rw [h4 j (by omega), List.getElem?_set_ne (by omega)]

/-- one line: the decoder restores the line and ends in the encoder's filter states -/
theorem latticeLine_inv (rcE rc : List ℝ) (off : Nat) (x : ℝ) (st : List ℝ) (h0 : rcE.length ≠ 0) (h8 : rcE.length ≤ st.length)
    (hrc : ∀ j, j < rcE.length → rc[j + off]? = rcE[j]?) :
    latticeLine rc off rcE.length (encLatticeLine rcE x st).1 st = .ok (x, (encLatticeLine rcE x st).2) ∧
      (encLatticeLine rcE x st).2.length = st.length := by
  obtain ⟨k, hk⟩ : ∃ k, rcE.length = k + 1 := ⟨rcE.length - 1, by omega⟩
  let r : Nat → ℝ := fun j => at0 rcE j
  let s : Nat → ℝ := fun j => at0 st j
  have hrE : ∀ j, j < k + 1 → rcE[j]? = some (r j) := fun j hj => by
    show _ = some (rcE.getD j _)
    rw [List.getD_eq_getElem?_getD, List.getElem?_eq_getElem (by omega)]; rfl
  have hsE : ∀ j, j < k + 1 → st[j]? = some (s j) := fun j hj => by
    show _ = some (st.getD j _)
    rw [List.getD_eq_getElem?_getD, List.getElem?_eq_getElem (by omega)]; rfl
  have hl : (rcE.take k).length = k := by rw [List.length_take]; omega
  have hl2 : (st.take k).length = k := by rw [List.length_take]; omega
  have hE := encLattice_eq (rcE.take k) (st.take k) (by rw [hl, hl2]) 0 r s x (fun j hj => by
    rw [hl] at hj
    rw [List.getElem?_take_of_lt hj, List.getElem?_take_of_lt hj, Nat.zero_add]
    exact ⟨hrE j (by omega), hsE j (by omega)⟩)
  rw [hl] at hE
  simp only [Nat.zero_add] at hE
  have hline : encLatticeLine rcE x st = (latF r s x k + r k * s k,
      (List.range k).map (fun j => latB r s x j) ++ latB r s x k :: st.drop (k + 1)) := by
    unfold encLatticeLine
    have : rcE.length - 1 = k := by omega
    simp only [this]
    have e := hE
    change encLattice (rcE.take k) (st.take k) x x = _ at e
    rw [e]
  rw [hline]
  constructor
  · unfold latticeLine
    have e1 : rcE.length - 1 = k := by omega
    simp only [e1]
    rw [idx_ok_iff.2 ((hrc k (by omega)).trans (hrE k (by omega))), Res.bind_ok, idx_ok_iff.2 (hsE k (by omega)), Res.bind_ok]
    have e : latF r s x k + r k * s k - r k * s k = latF r s x k := by ring
    change ((latticeLoop rc off k (latF r s x k + r k * s k - r k * s k) st) >>= _) = _
    rw [e]
    obtain ⟨st', h1, h2, h3, h4⟩ := latticeLoop_inv rc off r s x k st (by omega)
      (fun j hj => (hrc j (by omega)).trans (hrE j (by omega))) (fun j hj => hsE j (by omega))
    rw [h1, Res.bind_ok]
    simp only
    rw [setIdx_okT (by omega), Res.bind_ok]
    congr 2
    apply List.ext_getElem?
    intro j
    have hlr : ((List.range k).map (fun j => latB r s x j)).length = k := by simp
    by_cases hj0 : j = 0
    · subst hj0
      rw [List.getElem?_set_self (by omega)]
      by_cases hk0 : k = 0
      · subst hk0; rfl
      · rw [List.getElem?_append_left (by omega), List.getElem?_map, List.getElem?_range (by omega)]
        rfl
    · rw [List.getElem?_set_ne (by omega)]
      obtain ⟨i, rfl⟩ : ∃ i, j = i + 1 := ⟨j - 1, by omega⟩
      by_cases hjk : i + 1 ≤ k
      · rw [h3 i (by omega)]
        by_cases hjk2 : i + 1 < k
        · rw [List.getElem?_append_left (by omega), List.getElem?_map, List.getElem?_range hjk2]
          rfl
        · have : i + 1 = k := by omega
          rw [List.getElem?_append_right (by omega), hlr, this, Nat.sub_self]
          rfl
      · rw [h4 (i + 1) (Or.inr (by omega)), List.getElem?_append_right (by omega), hlr]
        obtain ⟨m, hm⟩ : ∃ m, i + 1 - k = m + 1 := ⟨i - k, by omega⟩
        rw [hm, List.getElem?_cons_succ, List.getElem?_drop]
        congr 1; omega
  · simp only [List.length_append, List.length_map, List.length_range, List.length_cons, List.length_drop]
    omega

/-- a band: the decoder restores all lines and ends in the encoder's filter states -/
theorem latticeBand_inv (rcE rc : List ℝ) (off : Nat) (h0 : rcE.length ≠ 0)
    (hrc : ∀ j, j < rcE.length → rc[j + off]? = rcE[j]?) :
    ∀ (xs st : List ℝ), rcE.length ≤ st.length →
    latticeBand rc off rcE.length (encLatticeBand rcE xs st).1 st = .ok (xs, (encLatticeBand rcE xs st).2) ∧
      (encLatticeBand rcE xs st).2.length = st.length ∧ (encLatticeBand rcE xs st).1.length = xs.length
  | [], st, _ => ⟨rfl, rfl, rfl⟩
  | x :: xs, st, h8 => by
    obtain ⟨h1, h2⟩ := latticeLine_inv rcE rc off x st h0 h8 hrc
    obtain ⟨h3, h4, h5⟩ := latticeBand_inv rcE rc off h0 hrc xs (encLatticeLine rcE x st).2 (by omega)
    unfold encLatticeBand
    simp only
    refine ⟨?_, by rw [h4, h2], by simp [h5]⟩
    unfold latticeBand
    rw [h1, Res.bind_ok]
    simp only
    rw [h3, Res.bind_ok]

/-- the bands follow one another: each starts at or after `c` and before it ends -/
def BandsFrom : Nat → List (Nat × Nat) → Prop
  | _, [] => True
  | c, (a, b) :: bs => c ≤ a ∧ a ≤ b ∧ BandsFrom b bs

variable {α : Type} [Scalar α]

theorem BandsFrom.mono {c c' : Nat} {bs : List (Nat × Nat)} (h : BandsFrom c bs) (hc : c' ≤ c) : BandsFrom c' bs := by
  cases bs with
  | nil => trivial
  | cons p bs => exact ⟨le_trans hc h.1, h.2⟩

theorem encLatticeBand_length (rc : List α) : ∀ (xs st : List α), (encLatticeBand rc xs st).1.length = xs.length
  | [], _ => rfl
  | x :: xs, st => by
    unfold encLatticeBand
    simp only [List.length_cons]
    rw [encLatticeBand_length rc xs]

/-- the encoder's filters leave the lines before the first band alone, and do not depend on them -/
theorem tnsFilterLoop_prefix : ∀ (bands : List (Nat × Nat)) (rcs : List (List α)) (p q st L' : List α),
    BandsFrom p.length bands → tnsFilterLoop bands rcs (p ++ q) st = .ok L' →
    ∃ q', L' = p ++ q' ∧ q'.length = q.length ∧ ∀ p' : List α, p'.length = p.length →
      tnsFilterLoop bands rcs (p' ++ q) st = .ok (p' ++ q') := by
  intro bands
  induction bands with
  | nil =>
    intro rcs p q st L' _ h
    refine ⟨q, ?_, rfl, fun p' _ => ?_⟩
    · simpa [tnsFilterLoop] using h.symm
    · simp [tnsFilterLoop]
  | cons bd bands ih =>
    obtain ⟨a, b⟩ := bd
    intro rcs p q st L' hb h
    cases rcs with
    | nil =>
      refine ⟨q, ?_, rfl, fun p' _ => ?_⟩
      · simpa [tnsFilterLoop] using h.symm
      · simp [tnsFilterLoop]
    | cons rc rcs =>
      obtain ⟨hb1, hb2, hb3⟩ := hb
      unfold tnsFilterLoop at h
      by_cases hz : rc.length ≠ 0
      · rw [if_pos hz, Res.bind_eq_ok] at h
        obtain ⟨l, hl, h⟩ := h
        have hlen : b ≤ (p ++ q).length := by
          unfold sliceR at hl; split at hl
          · rename_i hc; exact hc.2
          · simp at hl
        rw [sliceR_ok hb2 hlen] at hl
        injection hl with hl
        -- the band in terms of `q`
        have key : ∀ p' : List α, p'.length = p.length → ((p' ++ q).take b).drop a = (q.take (b - p.length)).drop (a - p.length) := by
          intro p' hp'
          rw [List.take_append, List.drop_append, hp']
          have : (List.take b p').length = p.length := by rw [List.length_take]; omega
          rw [this, List.drop_eq_nil_of_le (by omega), List.nil_append]
        have rest : ∀ (p' : List α) (m : List α), p'.length = p.length →
            (p' ++ q).take a ++ m ++ (p' ++ q).drop b = p' ++ (q.take (a - p.length) ++ m ++ q.drop (b - p.length)) := by
          intro p' m hp'
          rw [List.take_append, List.drop_append, hp', List.take_of_length_le (by omega), List.drop_eq_nil_of_le (by omega)]
          simp
        rw [List.length_append] at hlen
        have hlm : l.length = b - a := by
          rw [← hl, key p rfl, List.length_drop, List.length_take]; omega
        simp only at h
        rw [rest p _ rfl] at h
        have hq1 : (q.take (a - p.length) ++ (encLatticeBand rc l st).1 ++ q.drop (b - p.length)).length = q.length := by
          simp only [List.length_append, encLatticeBand_length, List.length_take, List.length_drop, hlm]; omega
        obtain ⟨q', h1, h2, h3⟩ := ih rcs p (q.take (a - p.length) ++ (encLatticeBand rc l st).1 ++ q.drop (b - p.length))
          (encLatticeBand rc l st).2 L' (hb3.mono (by omega)) h
        refine ⟨q', h1, by rw [h2, hq1], fun p' hp' => ?_⟩
        unfold tnsFilterLoop
        rw [if_pos hz, sliceR_ok hb2 (by rw [List.length_append]; omega), key p' hp', ← key p rfl, hl, Res.bind_ok]
        simp only
        rw [rest p' _ hp']
        exact h3 p' hp'
      · rw [if_neg hz] at h
        obtain ⟨q', h1, h2, h3⟩ := ih rcs p q st L' (hb3.mono (by omega)) h
        refine ⟨q', h1, h2, fun p' hp' => ?_⟩
        unfold tnsFilterLoop
        rw [if_neg hz]
        exact h3 p' hp'

/-- **the filters of the decoder undo the filters of the encoder** for any bands in order, whenever both sides use the same
coefficients -/
theorem tnsLoop_inv (rc : List ℝ) : ∀ (bands : List (Nat × Nat)) (rcs : List (List ℝ)) (f c : Nat) (L st L' : List ℝ),
    BandsFrom c bands → (∀ i l, rcs[i]? = some l → l.length ≤ st.length ∧ ∀ j, j < l.length → rc[j + (f + i) * 8]? = l[j]?) →
    tnsFilterLoop bands rcs L st = .ok L' → tnsLoop rc f bands (rcs.map List.length) L' st = .ok L := by
  intro bands
  induction bands with
  | nil =>
    intro rcs f c L st L' _ _ h
    unfold tnsFilterLoop at h
    injection h with h
    subst h
    simp [tnsLoop]
  | cons bd bands ih =>
    obtain ⟨a, b⟩ := bd
    intro rcs f c L st L' hb hrc h
    cases rcs with
    | nil =>
      unfold tnsFilterLoop at h
      injection h with h
      subst h
      simp [tnsLoop]
    | cons r rcs =>
      obtain ⟨hb1, hb2, hb3⟩ := hb
      unfold tnsFilterLoop at h
      rw [List.map_cons]
      unfold tnsLoop
      by_cases hz : r.length ≠ 0
      · rw [if_pos hz, Res.bind_eq_ok] at h
        obtain ⟨l, hl, h⟩ := h
        have hlen : b ≤ L.length := by
          unfold sliceR at hl; split at hl
          · rename_i hc; exact hc.2
          · simp at hl
        rw [sliceR_ok hb2 hlen] at hl
        injection hl with hl
        simp only at h
        obtain ⟨h8, hr⟩ := hrc 0 r rfl
        obtain ⟨i1, i2, i3⟩ := latticeBand_inv r rc (f * 8) hz (by simpa using hr) l st h8
        have hlm : l.length = b - a := by
          rw [← hl, List.length_drop, List.length_take]; omega
        have hta : (L.take a).length = a := by rw [List.length_take]; omega
        have hp : (L.take a ++ (encLatticeBand r l st).1).length = b := by
          rw [List.length_append, hta, i3, hlm]; omega
        obtain ⟨q', h1, h2, h3⟩ := tnsFilterLoop_prefix bands rcs (L.take a ++ (encLatticeBand r l st).1) (L.drop b) _ L'
          (by rw [hp]; exact hb3) h
        have e1 : (L'.take b).drop a = (encLatticeBand r l st).1 := by
          rw [h1, List.take_append_of_le_length (by omega), List.take_of_length_le (by omega), List.drop_append_of_le_length (by omega),
            List.drop_eq_nil_of_le (by omega), List.nil_append]
        have e2 : L'.take a = L.take a := by
          rw [h1, List.take_append_of_le_length (by omega), List.take_append_of_le_length (by omega), List.take_of_length_le (by omega)]
        have e3 : L'.drop b = q' := by
          rw [h1, List.drop_append, hp, Nat.sub_self, List.drop_eq_nil_of_le (by omega)]; rfl
        have hL : L.take a ++ l = L.take b := by
          rw [← hl]
          conv_rhs => rw [← List.take_append_drop a (L.take b)]
          rw [List.take_take, Nat.min_eq_left hb2]
        rw [if_pos (by omega), e1, i1, Res.bind_ok]
        simp only
        rw [e2, e3]
        have h4 := h3 (L.take a ++ l) (by simp [i3])
        rw [hL, List.take_append_drop] at h4
        rw [hL]
        exact ih rcs (f + 1) b L _ _ hb3 (fun i l' hi => by
          obtain ⟨g1, g2⟩ := hrc (i + 1) l' (by simpa using hi)
          refine ⟨by omega, fun j hj => ?_⟩
          have := g2 j hj
          rwa [show f + (i + 1) = f + 1 + i by omega] at this) h4
      · rw [if_neg hz] at h
        rw [if_neg (by omega)]
        exact ih rcs (f + 1) b L st L' hb3 (fun i l' hi => by
          obtain ⟨g1, g2⟩ := hrc (i + 1) l' (by simpa using hi)
          refine ⟨g1, fun j hj => ?_⟩
          have := g2 j hj
          rwa [show f + (i + 1) = f + 1 + i by omega] at this) h

end Lc3
