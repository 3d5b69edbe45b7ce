import Verif.Lemmas.Safe
import Verif.Model.LtpfDec
import Verif.Spec.Ltpf
import Mathlib.Data.List.GetD
import Mathlib.Tactic.Linarith
import Mathlib.Tactic.Ring
/-! The circular memories of the post filter represent signals over absolute time. -/

namespace Lc3
open Scalar Tables Spec
variable {α : Type} [Scalar α]

/-- the circular memory holds the signal `h` at the times from `lo` up to `hi` -/
def Ring (mem : List α) (ring : Nat) (h : Int → α) (lo hi : Int) : Prop :=
  mem.length = ring ∧ ∀ t, lo ≤ t → t < hi → mem[(t % ring).toNat]? = some (h t)

theorem Ring.shrink {mem : List α} {ring : Nat} {h : Int → α} {lo hi lo' hi' : Int} (r : Ring mem ring h lo hi)
    (h1 : lo ≤ lo') (h2 : hi' ≤ hi) : Ring mem ring h lo' hi' :=
  ⟨r.1, fun t a b => r.2 t (by omega) (by omega)⟩

theorem ring_emod {ring : Nat} {B i : Int} (hB : (ring : Int) ∣ B) (h1 : -(ring : Int) ≤ i) (h2 : i < ring) :
    (B + i) % (ring : Int) = if i < 0 then i + ring else i := by
  obtain ⟨q, rfl⟩ := hB
  rw [Int.mul_add_emod_self_left]
  split
  · rw [← Int.add_emod_right, Int.emod_eq_of_lt (by omega) (by omega)]
  · rw [Int.emod_eq_of_lt (by omega) h2]

theorem Ring.read {mem : List α} {ring : Nat} {h : Int → α} {lo hi B i : Int} (r : Ring mem ring h lo hi)
    (hB : (ring : Int) ∣ B) (h1 : -(ring : Int) ≤ i) (h2 : i < ring) (h3 : lo ≤ B + i) (h4 : B + i < hi) :
    ringRead mem ring i = .ok (h (B + i)) := by
  have := r.2 (B + i) h3 h4
  rw [ring_emod hB h1 h2] at this
  unfold ringRead
  split
  · rename_i hneg
    rw [if_neg (by omega)]
    rw [if_pos hneg] at this
    exact idx_ok_iff.2 this
  · rename_i hneg
    rw [if_neg hneg] at this
    exact idx_ok_iff.2 this

theorem firAdd_ok {mem : List α} {ring : Nat} {h : Int → α} {lo hi B : Int} (r : Ring mem ring h lo hi)
    (hB : (ring : Int) ∣ B) : ∀ (cs : List α) (i : Int) (acc : α), i < ring → B + i < hi →
    -(ring : Int) ≤ i - cs.length + 1 → lo ≤ B + i - cs.length + 1 →
    firAdd mem ring cs i acc = .ok (addTaps h cs (B + i) acc)
  | [], i, acc, _, _, _, _ => rfl
  | c :: cs, i, acc, h1, h2, h3, h4 => by
    simp only [List.length_cons, Nat.cast_add, Nat.cast_one] at h3 h4
    rw [firAdd, addTaps, r.read hB (by omega) h1 (by omega) h2]
    simp only [Res.bind_ok]
    rw [firAdd_ok r hB cs (i - 1) _ (by omega) (by omega) (by omega) (by omega)]
    congr 2
    omega

theorem firSub_ok {mem : List α} {ring : Nat} {h : Int → α} {lo hi B : Int} (r : Ring mem ring h lo hi)
    (hB : (ring : Int) ∣ B) : ∀ (cs : List α) (i : Int) (acc : α), i < ring → B + i < hi →
    -(ring : Int) ≤ i - cs.length + 1 → lo ≤ B + i - cs.length + 1 →
    firSub mem ring cs i acc = .ok (subTaps h cs (B + i) acc)
  | [], i, acc, _, _, _, _ => rfl
  | c :: cs, i, acc, h1, h2, h3, h4 => by
    simp only [List.length_cons, Nat.cast_add, Nat.cast_one] at h3 h4
    rw [firSub, subTaps, r.read hB (by omega) h1 (by omega) h2]
    simp only [Res.bind_ok]
    rw [firSub_ok r hB cs (i - 1) _ (by omega) (by omega) (by omega) (by omega)]
    congr 2
    omega

/-- writing one sample -/
theorem Ring.put {mem : List α} {ring : Nat} {h : Int → α} {lo hi B : Int} {j : Nat} {v : α}
    (hlen : mem.length = ring) (hB : (ring : Int) ∣ B) (hj : j < ring) (hw : hi - lo ≤ ring)
    (hin : lo ≤ B + j ∧ B + j < hi)
    (r : ∀ t, lo ≤ t → t < hi → t ≠ B + j → mem[(t % ring).toNat]? = some (h t)) :
    Ring (mem.set j v) ring (Spec.put h (B + j) v) lo hi := by
  refine ⟨by simpa using hlen, ?_⟩
  intro t h1 h2
  have hmod : ((B + j) % (ring : Int)).toNat = j := by
    rw [ring_emod hB (by omega) (by omega), if_neg (by omega)]; omega
  by_cases e : t = B + j
  · subst e
    rw [hmod, List.getElem?_set_self (by omega)]
    simp [Spec.put]
  · have hne : (t % (ring : Int)).toNat ≠ j := by
      intro hc
      have hpos : (0 : Int) < ring := by omega
      have hc' : t % (ring : Int) = (B + j) % (ring : Int) := by
        have a1 := Int.emod_nonneg t (show (ring : Int) ≠ 0 by omega)
        have a2 := Int.emod_nonneg (B + j) (show (ring : Int) ≠ 0 by omega)
        omega
      have hd : (ring : Int) ∣ t - (B + j) := Int.dvd_of_emod_eq_zero (Int.emod_eq_emod_iff_emod_sub_eq_zero.1 hc')
      obtain ⟨q, hq⟩ := hd
      have hlt : t - (B + j) < ring ∧ -(ring : Int) < t - (B + j) := by omega
      have hq0 : q = 0 := by
        rcases lt_trichotomy q 0 with hq1 | hq1 | hq1
        · have : (ring : Int) * q ≤ ring * (-1) := Int.mul_le_mul_of_nonneg_left (by omega) (by omega)
          omega
        · exact hq1
        · have : (ring : Int) * 1 ≤ ring * q := Int.mul_le_mul_of_nonneg_left (by omega) (by omega)
          omega
      subst hq0
      omega
    rw [List.getElem?_set_ne (by omega), r t h1 h2 e]
    simp [Spec.put, e]

/-- sizes of the filter -/
structure FilterDims (ring nf N lDen : Nat) : Prop where
  ringLo : 2 * nf ≤ ring
  quarter : N ≤ nf
  taps : lDen ≤ nf
  two : 4 ≤ lDen
  le12 : lDen ≤ 12

/-- lags with which the filter never leaves its memory and only sees finished output -/
def LagOk (ring lDen pitch : Nat) : Prop := lDen / 2 < pitch ∧ pitch + lDen ≤ ring

theorem computeFilter_ok {ring nf N lDen : Nat} (hd : FilterDims ring nf N lDen) {cNum cDen xMem yMem : List α}
    (hcn : cNum.length = lDen - 1) (hcd : cDen.length = lDen + 1) {pitch : Nat} (hp : LagOk ring lDen pitch)
    {B : Int} (hB : (ring : Int) ∣ B) {blk n : Nat} (hblk : blk + nf ≤ ring) (hn : n < nf)
    {x y : Int → α} {lo hi : Int}
    (rx : Ring xMem ring x (B + blk + nf - ring) (B + blk + nf)) (ry : Ring yMem ring y lo hi)
    (hlo : lo ≤ B + blk + n + 1 - ring) (hhi : B + blk + n ≤ hi) :
    computeFilter ring cNum cDen xMem yMem (blk + n) pitch =
      .ok (filterAt cNum cDen pitch x y (B + (blk + n : Nat))) := by
  obtain ⟨p1, p2⟩ := hp
  have d1 := hd.ringLo; have d3 := hd.taps; have d4 := hd.two
  unfold computeFilter filterAt
  simp only
  rw [firAdd_ok rx hB cNum _ zero (by omega) (by push_cast; omega) (by rw [hcn]; omega) (by rw [hcn]; push_cast; omega)]
  simp only [Res.bind_ok]
  rw [firSub_ok ry hB cDen _ _ (by rw [hcd]; push_cast; omega) (by rw [hcd]; push_cast; omega)
    (by rw [hcd]; push_cast; omega) (by rw [hcd]; push_cast; omega)]
  congr 2
  omega

/-- one step of filtering that extends the output -/
theorem ltpfSample_ok {ring nf N lDen : Nat} (hd : FilterDims ring nf N lDen) {cNum cDen xMem yMem : List α}
    (hcn : cNum.length = lDen - 1) (hcd : cDen.length = lDen + 1) {pitch : Nat} (hp : LagOk ring lDen pitch)
    {B : Int} (hB : (ring : Int) ∣ B) {blk n : Nat} (hblk : blk + nf ≤ ring) (hn : n < nf) (scale : Nat → α → α)
    {x y : Int → α}
    (rx : Ring xMem ring x (B + blk + nf - ring) (B + blk + nf))
    (ry : Ring yMem ring y (B + blk + n - ring) (B + blk + n)) :
    ∃ yMem', ltpfSample ring cNum cDen xMem blk pitch scale n yMem = .ok yMem' ∧
      Ring yMem' ring (put y (B + blk + n) (x (B + blk + n) - scale n (filterAt cNum cDen pitch x y (B + blk + n))))
        (B + blk + n + 1 - ring) (B + blk + n + 1) := by
  have d1 := hd.ringLo
  unfold ltpfSample
  have hx : idx xMem (blk + n) = .ok (x (B + blk + n)) := by
    have := rx.read hB (i := (blk + n : Nat)) (by omega) (by omega) (by push_cast; omega) (by push_cast; omega)
    unfold ringRead at this
    rw [if_neg (by omega)] at this
    simp only [Int.toNat_natCast] at this
    rw [this]; congr 2; push_cast; ring
  rw [hx]
  simp only [Res.bind_ok]
  have hset : setIdx yMem (blk + n) (x (B + blk + n)) = .ok (yMem.set (blk + n) (x (B + blk + n))) := by
    unfold setIdx; rw [if_pos (by have := ry.1; omega)]
  rw [hset]
  simp only [Res.bind_ok]
  have ry1 : Ring (yMem.set (blk + n) (x (B + blk + n))) ring
      (put y (B + (blk + n : Nat)) (x (B + blk + n))) (B + blk + n + 1 - ring) (B + blk + n + 1) := by
    refine Ring.put ry.1 hB (by omega) (by omega) (by push_cast; omega) ?_
    intro t h1 h2 h3
    exact ry.2 t (by omega) (by push_cast at h3; omega)
  rw [computeFilter_ok hd hcn hcd hp hB hblk hn rx ry1 (by omega) (by omega)]
  simp only [Res.bind_ok]
  have hl : (yMem.set (blk + n) (x (B + blk + n))).length = ring := ry1.1
  rw [idx_eq_ok (by omega)]
  simp only [Res.bind_ok, List.getElem_set_self]
  have heq : filterAt cNum cDen pitch x (put y (B + (blk + n : Nat)) (x (B + blk + n))) (B + (blk + n : Nat)) =
      filterAt cNum cDen pitch x y (B + blk + n) := by
    have e : (B + ((blk + n : Nat) : Int)) = B + blk + n := by push_cast; ring
    rw [e]
    unfold filterAt
    have : ∀ (cs : List α) (t : Int) (acc : α), t < B + blk + n →
        subTaps (put y (B + blk + n) (x (B + blk + n))) cs t acc = subTaps y cs t acc := by
      intro cs
      induction cs with
      | nil => intros; rfl
      | cons c cs ih =>
        intro t acc ht
        rw [subTaps, subTaps, ih (t - 1) _ (by omega)]
        simp [Spec.put, show t ≠ B + blk + n by omega]
    rw [this]
    obtain ⟨p1, p2⟩ := hp
    have d4 := hd.two
    rw [hcd]; push_cast; omega
  rw [heq]
  refine ⟨_, by unfold setIdx; rw [if_pos (by omega)], ?_⟩
  rw [List.set_set]
  have e : (B + ((blk + n : Nat) : Int)) = B + blk + n := by push_cast; ring
  rw [← e]
  refine Ring.put ry.1 hB (by omega) (by omega) (by push_cast; omega) ?_
  intro t h1 h2 h3
  exact ry.2 t (by push_cast at h1; omega) (by push_cast at h2 h3; omega)

theorem filterLoop_ok {ring nf N lDen : Nat} (hd : FilterDims ring nf N lDen) {cNum cDen xMem : List α}
    (hcn : cNum.length = lDen - 1) (hcd : cDen.length = lDen + 1) {pitch : Nat} (hp : LagOk ring lDen pitch)
    {B : Int} (hB : (ring : Int) ∣ B) {blk : Nat} (hblk : blk + nf ≤ ring) (scale : Nat → α → α)
    {x : Int → α} (rx : Ring xMem ring x (B + blk + nf - ring) (B + blk + nf)) :
    ∀ (count a : Nat) (y : Int → α) (yMem : List α), a + count ≤ nf →
    Ring yMem ring y (B + blk + a - ring) (B + blk + a) →
    ∃ yMem', forRange (ltpfSample ring cNum cDen xMem blk pitch scale) a count yMem = .ok yMem' ∧
      Ring yMem' ring (filterRange cNum cDen pitch scale (B + blk) x a count y)
        (B + blk + (a + count : Nat) - ring) (B + blk + (a + count : Nat))
  | 0, a, y, yMem, _, ry => ⟨yMem, rfl, by simpa [filterRange] using ry⟩
  | n + 1, a, y, yMem, ha, ry => by
    obtain ⟨y1, e1, r1⟩ := ltpfSample_ok hd hcn hcd hp hB hblk (show a < nf by omega) scale rx ry
    obtain ⟨y2, e2, r2⟩ := filterLoop_ok hd hcn hcd hp hB hblk scale rx n (a + 1) _ y1 (by omega)
      (by convert r1 using 1 <;> push_cast <;> ring)
    refine ⟨y2, ?_, ?_⟩
    · rw [forRange, e1]; exact e2
    · rw [filterRange]
      convert r2 using 1 <;> push_cast <;> ring

/-- copying loop, as used for the inactive filter -/
theorem copyLoop_ok {ring nf : Nat} (hr : 2 * nf ≤ ring) {xMem : List α} {B : Int} (hB : (ring : Int) ∣ B)
    {blk : Nat} (hblk : blk + nf ≤ ring) {x : Int → α}
    (rx : Ring xMem ring x (B + blk + nf - ring) (B + blk + nf)) :
    ∀ (count a : Nat) (y : Int → α) (yMem : List α), a + count ≤ nf →
    Ring yMem ring y (B + blk + a - ring) (B + blk + a) →
    ∃ yMem', forRange (fun n y => do
        let x ← idx xMem (blk + n)
        setIdx y (blk + n) x) a count yMem = .ok yMem' ∧
      Ring yMem' ring (copyRange (B + blk) x a count y)
        (B + blk + (a + count : Nat) - ring) (B + blk + (a + count : Nat))
  | 0, a, y, yMem, _, ry => ⟨yMem, rfl, by simpa [copyRange] using ry⟩
  | n + 1, a, y, yMem, ha, ry => by
    have hx : idx xMem (blk + a) = .ok (x (B + blk + a)) := by
      have := rx.read hB (i := (blk + a : Nat)) (by omega) (by omega) (by push_cast; omega) (by push_cast; omega)
      unfold ringRead at this
      rw [if_neg (by omega)] at this
      simp only [Int.toNat_natCast] at this
      rw [this]; congr 2; push_cast; ring
    have hset : setIdx yMem (blk + a) (x (B + blk + a)) = .ok (yMem.set (blk + a) (x (B + blk + a))) := by
      unfold setIdx; rw [if_pos (by have := ry.1; omega)]
    have ry1 : Ring (yMem.set (blk + a) (x (B + blk + a))) ring
        (put y (B + (blk + a : Nat)) (x (B + blk + a))) (B + blk + a + 1 - ring) (B + blk + a + 1) := by
      refine Ring.put ry.1 hB (by omega) (by omega) (by push_cast; omega) ?_
      intro t h1 h2 h3
      exact ry.2 t (by omega) (by push_cast at h3; omega)
    obtain ⟨y2, e2, r2⟩ := copyLoop_ok hr hB hblk rx n (a + 1) _ _ (by omega)
      (by convert ry1 using 1 <;> push_cast <;> ring)
    refine ⟨y2, ?_, ?_⟩
    · rw [forRange, hx]
      simp only [Res.bind_ok]
      rw [hset]
      exact e2
    · rw [copyRange]
      convert r2 using 1
      · push_cast; rw [← add_assoc]
      · push_cast; ring
      · push_cast; ring

end Lc3
