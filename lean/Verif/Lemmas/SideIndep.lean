import Verif.Lemmas.RangeFinish2
/-! The range coder does not look at the backward write position. -/

namespace Lc3

/-- another backward position -/
def EncSt.side (s : EncSt) (p m : Nat) : EncSt := { s with w := { s.w with bpSide := p, maskSide := m } }

theorem byte_side (s : EncSt) (v p m : Nat) :
    (s.side p m).byte v = (s.byte v >>= fun s' => .ok (s'.side p m)) := by
  unfold EncSt.byte Writer.writeByteForward EncSt.side
  simp only [setIdx]
  split <;> rfl

theorem uintFwd_side (s : EncSt) (v n p m : Nat) :
    (s.side p m).uintFwd v n = (s.uintFwd v n >>= fun s' => .ok (s'.side p m)) := by
  unfold EncSt.uintFwd Writer.writeUintForward EncSt.side
  simp only
  cases writeUintForwardLoop s.w.bp v s.buf 128 n <;> rfl

theorem flushCarries_side (n : Nat) (s : EncSt) (p m : Nat) :
    flushCarries (s.side p m) n = (flushCarries s n >>= fun s' => .ok (s'.side p m)) := by
  induction n generalizing s with
  | zero => rfl
  | succ n ih =>
    simp only [flushCarries]
    rw [byte_side, Res.bind_assoc, Res.bind_assoc]
    have h : (s.side p m).ac = s.ac := rfl
    rw [h]
    congr 1; funext s'
    rw [Res.bind_ok, ih]

theorem acShift_side (s : EncSt) (p m : Nat) :
    acShift (s.side p m) = (acShift s >>= fun s' => .ok (s'.side p m)) := by
  unfold acShift
  have h : (s.side p m).ac = s.ac := rfl
  rw [h]
  split
  · by_cases hc : s.ac.cache ≥ 0
    · simp only [hc, if_true]
      rw [byte_side, Res.bind_assoc, Res.bind_assoc]
      congr 1; funext s'
      rw [Res.bind_ok, flushCarries_side, Res.bind_assoc]
      have h' : (s'.side p m).ac = s'.ac := rfl
      rw [h', Res.bind_assoc]
      rfl
    · simp only [hc, if_false, Res.bind_ok]
      rw [h, flushCarries_side, Res.bind_assoc, Res.bind_assoc]
      rfl
  · rfl

theorem finishShift_side (fuel : Nat) (bits : Int) (s : EncSt) (p m : Nat) :
    finishShift fuel bits (s.side p m) =
      (finishShift fuel bits s >>= fun r => .ok (r.1, r.2.side p m)) := by
  induction fuel generalizing bits s with
  | zero =>
    unfold finishShift; split <;> rfl
  | succ fuel ih =>
    rw [finishShift.eq_def, finishShift.eq_def (fuel + 1) bits s]
    simp only
    split
    · rw [acShift_side, Res.bind_assoc, Res.bind_assoc]
      congr 1; funext s'
      rw [Res.bind_ok, ih]
    · rfl

theorem finishCarries_side (n : Nat) (s : EncSt) (p m : Nat) :
    finishCarries (s.side p m) n = (finishCarries s n >>= fun s' => .ok (s'.side p m)) := by
  induction n generalizing s with
  | zero => rfl
  | succ n ih =>
    simp only [finishCarries]
    rw [byte_side, Res.bind_assoc, Res.bind_assoc]
    congr 1; funext s'
    exact ih { s' with ac := { s'.ac with carryCount := s'.ac.carryCount - 1 } }

theorem acEncFinish_side (s : EncSt) (p m : Nat) :
    acEncFinish (s.side p m) = (acEncFinish s >>= fun s' => .ok (s'.side p m)) := by
  unfold acEncFinish
  have h : (s.side p m).ac = s.ac := rfl
  rw [h, Res.bind_assoc]
  congr 1; funext bits
  have h2 : ∀ ac, ({ s.side p m with ac := ac } : EncSt) = ({ s with ac := ac } : EncSt).side p m := fun _ => rfl
  simp only [h2]
  rw [finishShift_side, Res.bind_assoc, Res.bind_assoc]
  congr 1; funext r
  simp only [Res.bind_ok]
  have h3 : (r.2.side p m).ac = r.2.ac := rfl
  rw [h3]
  split
  · rfl
  · split
    · rw [byte_side, Res.bind_assoc, Res.bind_assoc]
      congr 1; funext s'
      rw [Res.bind_ok]
      have h4 : (s'.side p m).ac = s'.ac := rfl
      rw [h4, finishCarries_side, Res.bind_assoc, Res.bind_assoc]
      congr 1; funext s''
      rw [Res.bind_ok, uintFwd_side]
    · rw [uintFwd_side]

/-- the unused bits can be counted as written zeros -/
theorem FrameInv.padTail {N : Nat} {s : EncSt} {hd : List Nat} {tl : List Bool} (h : FrameInv N s hd tl)
    (z : Nat) (hz : 8 * hd.length + tl.length + z ≤ 8 * N) (hz2 : tl.length + z < 8 * N) :
    FrameInv N (s.side (N - 1 - (tl.length + z) / 8) (2 ^ ((tl.length + z) % 8))) hd
      (tl ++ List.replicate z false) := by
  have hlen : (tl ++ List.replicate z false).length = tl.length + z := by simp
  refine ⟨h.len, h.small, h.bytes, h.bp, h.head, ?_, ?_, ?_, ?_, ?_, ?_⟩
  · rw [hlen]; exact hz2
  · rw [hlen]; rfl
  · rw [hlen]; rfl
  · intro j hj
    rw [hlen] at hj
    show tailBit s.buf j = _
    by_cases h1 : j < tl.length
    · rw [List.getElem_append_left h1]; exact h.tail j h1
    · rw [List.getElem_append_right (by omega), List.getElem_replicate]
      exact h.gap j (by omega) (by omega)
  · intro j h1 h2
    rw [hlen] at h1
    exact h.gap j (by omega) h2
  · rw [hlen]; omega

/-- `acEncFinish` touches only the reserved bits -/
theorem acEncFinish_local {N : Nat} {s : EncSt} {hd : List Nat} {tl : List Bool} {a : Abs}
    (hf : FrameInv N s hd tl) (hc : CInv s.ac hd a)
    (hfit : nbitsAriForecast s + tl.length ≤ 8 * N) (hroom : a.S + 3 ≤ N) :
    ∃ s', acEncFinish s = .ok s' ∧ s'.buf.length = N ∧
      ∀ j, j + nbitsAriForecast s < 8 * N → tailBit s'.buf j = tailBit s.buf j := by
  have hbp := hf.bp
  have hK : 8 * hd.length + 8 ≤ nbitsAriForecast s := by unfold nbitsAriForecast; omega
  obtain ⟨z, hz⟩ : ∃ z, z = 8 * N - nbitsAriForecast s - tl.length := ⟨_, rfl⟩
  have hp := hf.padTail z (by omega) (by omega)
  have hfore : nbitsAriForecast (s.side (N - 1 - (tl.length + z) / 8) (2 ^ ((tl.length + z) % 8))) =
    nbitsAriForecast s := rfl
  obtain ⟨s', e, post⟩ := acEncFinish_spec hp (a := a) hc (by rw [hfore]; simp; omega) hroom
  rw [acEncFinish_side] at e
  obtain ⟨s1, e1, e2⟩ := Res.bind_eq_ok.1 e
  rw [Res.ok.injEq] at e2
  subst e2
  refine ⟨s1, e1, post.len, ?_⟩
  intro j hj
  have h1 := post.tail j (by simp; omega)
  have h2 := hp.tail j (by simp; omega)
  exact h1.trans h2.symm

end Lc3
