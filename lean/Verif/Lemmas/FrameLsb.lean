import Verif.Lemmas.FrameDec
import Verif.Lemmas.SideIndep
/-! A body that was encoded without panic satisfies the assumption about the postponed bits; the result does
not depend on stale states. -/

namespace Lc3
open Tables

theorem encPairs_lsbs {lsb : Bool} {rf ne nl : Nat} (hrf : rf ≤ 512) :
    ∀ (n : Nat) (xs : List Int) (k c : Nat) (acc : List Bool) (s s' : EncSt) (l : List Bool),
      xs.length = 2 * n → c < 256 → (∀ x ∈ xs, x.natAbs < 32768) → acc.length ≤ nl →
      encPairs lsb rf ne nl xs k c acc s = .ok (l, s') →
      l = acc ++ pairsLsbs lsb xs ∧ l.length ≤ nl := by
  intro n
  induction n with
  | zero =>
    intro xs k c acc s s' l hl hc hx hacc h
    have : xs = [] := List.length_eq_zero_iff.1 (by omega)
    subst this
    simp only [encPairs, Res.ok.injEq, Prod.mk.injEq] at h
    simp [pairsLsbs, ← h.1, hacc]
  | succ n ih =>
    intro xs k c acc s s' l hl hc hx hacc h
    match xs, hl with
    | x0 :: x1 :: xs, hl =>
      have h0 : x0.natAbs < 32768 := hx x0 (by simp)
      have h1 : x1.natAbs < 32768 := hx x1 (by simp)
      obtain ⟨he, ha, hb, hlev⟩ := escOf_eq lsb (c + rf + if k > ne / 2 then 256 else 0) h0 h1
      have ht : c + rf + (if k > ne / 2 then 256 else 0) < 1024 := by split <;> omega
      simp only [encPairs] at h
      generalize htt : c + rf + (if k > ne / 2 then 256 else 0) = t at *
      rw [encEscapes_eq ht 16 _ _ _ (by omega), escRun_fuel lsb t 13 16 _ _ _ (by omega) (by omega)] at h
      rw [show escRun lsb t 13 x0.natAbs x1.natAbs 0 = escOf lsb t x0 x1 from rfl, he, Res.bind_assoc] at h
      obtain ⟨s1, e1, h⟩ := Res.bind_eq_ok.1 h
      simp only [Res.bind_ok] at h
      obtain ⟨s2, e2, h⟩ := Res.bind_eq_ok.1 h
      generalize hacc2 : (if (lsb && decide (levOf x0 x1 > 0)) = true then acc ++ pairLsbs x0 x1 else acc) = acc2 at h
      by_cases hle : acc2.length > nl
      · rw [if_pos hle] at h; simp at h
      · rw [if_neg hle] at h
        obtain ⟨s3, e3, h⟩ := Res.bind_eq_ok.1 h
        obtain ⟨s4, e4, h⟩ := Res.bind_eq_ok.1 h
        obtain ⟨r1, r2⟩ := ih xs _ _ _ _ _ _ (by simp at hl; omega)
          (by
            have hct := ctxT_lt (lev := levOf x0 x1) ha hb
            rw [show (15 : Nat) = 2 ^ 4 - 1 from rfl, Nat.and_two_pow_sub_one_eq_mod]
            omega)
          (fun x hx' => hx x (by simp [hx'])) (by omega) h
        refine ⟨?_, r2⟩
        rw [r1, ← hacc2]
        simp only [pairsLsbs]
        split <;> simp

theorem runEv_buf_len {N : Nat} {s s' : EncSt} {σ : ASt} (es : List Ev) (h : PtrInv N s σ) (ho : σ.Ok)
    (hv : ∀ e ∈ es, e.Valid) (hs : runEv es s = .ok s') : s'.buf.length = N :=
  (runEv_ptr es h ho hv hs).len

/-- the assumptions about the postponed bits follow from success -/
theorem encodeBody_lsbs {ne : Nat} {p : FrameParams} {stale s : EncSt} {buf : List Nat} {lsbs : List Bool}
    (hrf : p.rateFlag ≤ 512) (hev : p.lastnz % 2 = 0)
    (hx : ∀ x ∈ p.xq.take p.lastnz, x.natAbs < 32768)
    (hb : encodeBody ne p stale buf = .ok (lsbs, s)) :
    p.nbitsLsb ≤ 3840 ∧ lsbs = pairsLsbs p.lsbMode (p.xq.take p.lastnz) ∧ lsbs.length ≤ p.nbitsLsb := by
  unfold encodeBody at hb
  obtain ⟨w, _, hb⟩ := Res.bind_eq_ok.1 hb
  obtain ⟨s1, _, hb⟩ := Res.bind_eq_ok.1 hb
  obtain ⟨s2, _, hb⟩ := Res.bind_eq_ok.1 hb
  unfold encSpectral at hb
  obtain ⟨_, _, hb⟩ := Res.bind_eq_ok.1 hb
  split at hb
  · simp at hb
  · split at hb
    · simp at hb
    · have hl : (p.xq.take p.lastnz).length = 2 * (p.lastnz / 2) := by simp; omega
      obtain ⟨r1, r2⟩ := encPairs_lsbs hrf _ _ _ _ _ _ _ _ hl (by omega) hx (by simp) hb
      exact ⟨by omega, by simpa using r1, r2⟩

theorem bodyHyp_of_ok {f : SamplingFrequency} {d : FrameDuration} {p : FrameParams} {q : PulseIdx}
    {buf : List Nat} {stale s : EncSt} {lsbs : List Bool} (hs : SideOk (Lc3Config.new f d) p q)
    (hd : DataOk (Lc3Config.new f d) buf.length p)
    (hb : encodeBody (Lc3Config.new f d).ne p stale buf = .ok (lsbs, s)) :
    BodyHyp (Lc3Config.new f d) buf.length p q := by
  obtain ⟨h1, h2, h3⟩ := encodeBody_lsbs hd.rate_le hs.lastnzEven hd.range hb
  exact ⟨hs, hd, h1, h2 ▸ h3⟩

/-! ### stale states -/

/-- another range coder state -/
def EncSt.withAc (s : EncSt) (ac : AcEnc) : EncSt := { s with ac := ac }

/-- a step that ignores the range coder -/
def AcFree (f : EncSt → Res EncSt) : Prop :=
  ∀ s ac, f (s.withAc ac) = (f s >>= fun s' => .ok (s'.withAc ac))

theorem AcFree.bool (b : Bool) : AcFree (fun s => s.bool b) := fun s ac => bool_ac s b ac

theorem AcFree.uint (v n : Nat) : AcFree (fun s => s.uint v n) := by
  intro s ac
  unfold EncSt.uint EncSt.withAc
  simp only
  cases s.w.writeUintBackward s.buf v n <;> rfl

theorem AcFree.ok : AcFree (fun s => .ok s) := fun _ _ => rfl

theorem AcFree.panic : AcFree (fun _ => .panic) := fun _ _ => rfl

theorem AcFree.bind {f g : EncSt → Res EncSt} (hf : AcFree f) (hg : AcFree g) :
    AcFree (fun s => f s >>= g) := by
  intro s ac
  simp only [hf s ac, Res.bind_assoc]
  congr 1; funext s'
  exact hg s' ac

theorem AcFree.const {α} (x : Res α) {g : α → EncSt → Res EncSt} (hg : ∀ a, AcFree (g a)) :
    AcFree (fun s => x >>= fun a => g a s) := by
  intro s ac
  cases x with
  | ok a => exact hg a s ac
  | err => rfl
  | panic => rfl

theorem AcFree.ite {c : Prop} [Decidable c] {f g : EncSt → Res EncSt} (hf : AcFree f) (hg : AcFree g) :
    AcFree (fun s => if c then f s else g s) := by
  intro s ac
  by_cases h : c
  · simp only [h, if_true]; exact hf s ac
  · simp only [h, if_false]; exact hg s ac

theorem AcFree.tnsFlags (os : List Nat) : AcFree (encTnsFlags os) := by
  induction os with
  | nil => exact AcFree.ok
  | cons o os ih => exact (AcFree.bool (o != 0)).bind ih

theorem AcFree.scf2 (p : FrameParams) : AcFree (encScf2 p) := by
  unfold encScf2
  refine (AcFree.bool _).bind ?_
  refine AcFree.const _ (fun nb => AcFree.const _ (fun lb => ?_))
  refine (AcFree.uint _ _).bind ((AcFree.bool _).bind ?_)
  exact AcFree.ite ((AcFree.uint _ _).bind (AcFree.uint _ _)) ((AcFree.uint _ _).bind (AcFree.uint _ _))

theorem AcFree.sideInfo (ne : Nat) (p : FrameParams) : AcFree (encSideInfo ne p) := by
  unfold encSideInfo
  refine (AcFree.ite (AcFree.uint _ _) AcFree.ok).bind ?_
  refine AcFree.const _ (fun v => ?_)
  refine (AcFree.uint _ _).bind ((AcFree.bool _).bind ((AcFree.uint _ _).bind ?_))
  refine (AcFree.ite (AcFree.tnsFlags _) AcFree.panic).bind ?_
  refine (AcFree.bool _).bind ((AcFree.uint _ _).bind ((AcFree.uint _ _).bind ((AcFree.scf2 p).bind ?_)))
  refine AcFree.bind (AcFree.ite ((AcFree.bool _).bind (AcFree.uint _ _)) AcFree.ok) (AcFree.uint _ _)

theorem encodeBody_stale (ne : Nat) (p : FrameParams) (stale stale' : EncSt) {buf buf' : List Nat}
    (h : buf.length = buf'.length) : encodeBody ne p stale buf = encodeBody ne p stale' buf' := by
  unfold encodeBody
  rw [h]
  apply Res.bind_congr'
  intro w _
  have h1 : ({ stale with w := w, buf := List.replicate buf'.length 0 } : EncSt) =
      EncSt.withAc ⟨w, List.replicate buf'.length 0, initAc⟩ stale.ac := rfl
  have h2 : ({ stale' with w := w, buf := List.replicate buf'.length 0 } : EncSt) =
      EncSt.withAc ⟨w, List.replicate buf'.length 0, initAc⟩ stale'.ac := rfl
  simp only [h1, h2]
  rw [AcFree.sideInfo ne p _ stale.ac, AcFree.sideInfo ne p _ stale'.ac, Res.bind_assoc, Res.bind_assoc]
  rfl

end Lc3
