import Verif.Lemmas.NoErr
import Verif.Model.EncSns
import Verif.Model.EncTns
/-! The enumeration of the noise shaping and the temporal noise shaping of the encoder report no errors. -/

namespace Lc3
open Scalar Tables
variable {α : Type} [Scalar α]

theorem noErr_usizeChk (x : Nat) : NoErr (usizeChk x) := by unfold usizeChk; no_err

theorem noErr_i8Chk (x : Int) : NoErr (i8Chk x) := by unfold i8Chk; no_err

theorem noErr_sliceR {β : Type} (l : List β) (a b : Nat) : NoErr (sliceR l a b) := by unfold sliceR; no_err

theorem noErr_enumLoop : ∀ (l : List Int) (k : Nat), NoErr (enumLoop k l)
  | [], _ => by simp [enumLoop]
  | x :: xs, k => by
    rw [enumLoop]
    refine (noErr_enumLoop xs _).bind fun s => ?_
    have h8 := noErr_i8Chk
    have hu := noErr_usizeChk
    unfold enumStep
    simp only
    repeat' (first | exact noErr_ok _ | exact noErr_panic | exact noErr_idx _ _ | exact noErr_usub _ _ | exact h8 _ | exact hu _ | apply noErr_ite | apply NoErr.bind | intro _)

theorem noErr_mvpqEnum (n : Nat) (v : List Int) : NoErr (mvpqEnum n v) := by
  unfold mvpqEnum
  exact noErr_ite noErr_panic ((noErr_enumLoop _ _).bind fun _ => noErr_ok _)

theorem noErr_snsEnumerate (j g : Nat) (y0 y1 y2 y3 : List Int) : NoErr (snsEnumerate j g y0 y1 y2 y3) := by
  have h := noErr_mvpqEnum
  have h' := noErr_usizeChk
  unfold snsEnumerate
  simp only
  split <;> (repeat' (first | exact noErr_ok _ | exact noErr_panic | exact h _ _ | exact h' _ | apply NoErr.bind | intro _))

theorem noErr_tnsCorrParts (x : List α) (k : Nat) : ∀ (ps : List (Nat × Nat)) (e r : α), NoErr (tnsCorrParts x k ps e r)
  | [], _, _ => by simp [tnsCorrParts]
  | (a, b) :: ps, e, r => by
    rw [tnsCorrParts]
    refine (noErr_sliceR _ _ _).bind fun _ => NoErr.bind ?_ fun _ => noErr_tnsCorrParts x k ps _ _
    exact noErr_ite ((noErr_sliceR _ _ _).bind fun _ => noErr_ok _) (noErr_ok _)

theorem noErr_tnsCorrFrom (x : List α) (sub : List (Nat × Nat)) : ∀ (ws : List Rat) (k : Nat), NoErr (tnsCorrFrom x sub k ws)
  | [], _ => by simp [tnsCorrFrom]
  | w :: ws, k => by
    rw [tnsCorrFrom]
    exact (noErr_tnsCorrParts _ _ _ _ _).bind fun _ => (noErr_tnsCorrFrom x sub ws _).bind fun _ => noErr_ok _

theorem noErr_tnsFilterInts (x : List α) (nn : Bool) (w : Nat) (sub : List (Nat × Nat)) : NoErr (tnsFilterInts x nn w sub) := by
  unfold tnsFilterInts
  refine NoErr.bind (noErr_tnsCorrFrom _ _ _ _) fun r => noErr_mapM (fun c => ?_) _
  unfold tnsIndex
  exact (noErr_i8Chk _).bind fun _ => noErr_ok _

theorem noErr_tnsCoefBits : ∀ (l : List Nat) (k : Nat), NoErr (tnsCoefBits k l)
  | [], _ => by simp [tnsCoefBits]
  | i :: is, k => by
    rw [tnsCoefBits]
    exact (noErr_idx _ _).bind fun _ => (noErr_idx _ _).bind fun _ => (noErr_tnsCoefBits is _).bind fun _ => noErr_ok _

theorem noErr_tnsFilterBits (w : Nat) (ints : List Nat) : NoErr (tnsFilterBits α w ints) := by
  unfold tnsFilterBits
  refine NoErr.bind (noErr_ite ((noErr_idx _ _).bind fun _ => noErr_idx _ _) (noErr_ok _)) fun _ => (noErr_tnsCoefBits _ _).bind fun _ => noErr_ok _

theorem noErr_tnsFilterLoop : ∀ (bands : List (Nat × Nat)) (rcs : List (List α)) (lines st : List α), NoErr (tnsFilterLoop bands rcs lines st)
  | [], _, _, _ => by simp [tnsFilterLoop]
  | _ :: _, [], _, _ => by simp [tnsFilterLoop]
  | (a, b) :: bands, rc :: rcs, lines, st => by
    rw [tnsFilterLoop]
    exact noErr_ite ((noErr_sliceR _ _ _).bind fun _ => noErr_tnsFilterLoop bands rcs _ _) (noErr_tnsFilterLoop bands rcs _ _)

theorem noErr_tnsEncRun (cfg : Lc3Config) (x : List α) (bw nbits : Nat) (nn : Bool) : NoErr (tnsEncRun cfg x bw nbits nn) := by
  have hp : NoErr (tnsParams cfg.nMs bw) := by unfold tnsParams; split <;> simp
  unfold tnsEncRun
  exact noErr_ite noErr_panic (hp.bind fun _ => (noErr_mapM (fun _ => noErr_tnsFilterInts _ _ _ _) _).bind fun _ =>
    (noErr_mapM (fun _ => noErr_tnsFilterBits _ _) _).bind fun _ => (noErr_tnsFilterLoop _ _ _ _).bind fun _ => noErr_ok _)

theorem noErr_pulseScan (corrLast enLast : α) : ∀ (xs : List α) (cs : List Int) (n : Nat) (s : Nat × α × α) (t : α × α),
    NoErr (pulseScan corrLast enLast xs cs n s t)
  | [], _, _, (_, _, _), (_, _) => by simp [pulseScan]
  | _ :: _, [], _, (_, _, _), (_, _) => by simp [pulseScan]
  | _ :: xs, _ :: cs, _, (_, _, _), (_, _) => by
    rw [pulseScan]
    exact noErr_pulseScan corrLast enLast xs cs _ _ _

theorem noErr_addUnitPulse (absX : List α) (nMax : Nat) : ∀ (r : Nat) (cand : List Int) (a b c e : α),
    NoErr (addUnitPulse absX nMax r cand a b c e)
  | 0, _, _, _, _, _ => by simp [addUnitPulse]
  | r + 1, cand, a, b, c, e => by
    rw [addUnitPulse]
    have hi : ∀ x, NoErr (i32Chk x) := fun x => by unfold i32Chk; no_err
    exact (noErr_idx _ _).bind fun _ => (noErr_idx _ _).bind fun _ => (noErr_pulseScan _ _ _ _ _ _ _).bind fun _ =>
      (noErr_idx _ _).bind fun _ => (noErr_idx _ _).bind fun _ => (hi _).bind fun _ => (noErr_setIdx _ _ _).bind fun _ =>
      noErr_addUnitPulse absX nMax r _ _ _ _ _

theorem noErr_snsRemove : ∀ (ys : List Int) (as : List α) (k : Int) (c e : α), NoErr (snsRemove ys as k c e)
  | [], _, _, _, _ => by simp [snsRemove]
  | _ :: _, [], _, _, _ => by simp [snsRemove]
  | y :: ys, a :: as, k, c, e => by
    rw [snsRemove]
    have hi : ∀ x, NoErr (i32Chk x) := fun x => by unfold i32Chk; no_err
    exact noErr_ite ((hi _).bind fun _ => noErr_snsRemove ys as _ _ _) (noErr_snsRemove ys as _ _ _)

theorem noErr_snsStage2 (r1 st1 : List α) : NoErr (snsStage2 r1 st1) := by
  unfold snsStage2 snsCands snsSearch
  refine NoErr.bind (NoErr.bind ?_ fun _ => noErr_ok _) fun _ => (noErr_snsEnumerate _ _ _ _ _ _).bind fun _ => noErr_ok _
  exact (noErr_addUnitPulse _ _ _ _ _ _ _ _).bind fun _ => (noErr_addUnitPulse _ _ _ _ _ _ _ _).bind fun _ =>
    (noErr_snsRemove _ _ _ _ _).bind fun _ => (noErr_addUnitPulse _ _ _ _ _ _ _ _).bind fun _ => (noErr_setIdx _ _ _).bind fun _ => noErr_ok _

theorem noErr_snsEncRun (cfg : Lc3Config) (x eb : List α) (attack : Bool) : NoErr (snsEncRun cfg x eb attack) := by
  have h1 : NoErr (snsTarget cfg eb attack) := by
    unfold snsTarget snsPad
    exact (noErr_idx _ _).bind fun _ => NoErr.bind ((noErr_usub _ _).bind fun _ => noErr_ite (noErr_ite noErr_panic (noErr_ok _))
      (noErr_ite (noErr_ok _) noErr_panic)) fun _ => noErr_ok _
  have h2 : ∀ scf : List α, NoErr (snsStage1 scf) := fun scf => by
    unfold snsStage1
    exact noErr_ite noErr_panic ((noErr_idx _ _).bind fun _ => (noErr_idx _ _).bind fun _ => noErr_ok _)
  have h3 : ∀ (nb : Nat) (f : List α), NoErr (snsEncFactors nb f) := fun nb f => by
    unfold snsEncFactors snsReduceEnc
    refine NoErr.bind ((noErr_usub _ _).bind fun _ => noErr_ite ?_ (noErr_ok _)) fun _ => noErr_ok _
    exact (noErr_mapM (fun _ => (noErr_idx _ _).bind fun _ => (noErr_idx _ _).bind fun _ => noErr_ok _) _).bind fun _ =>
      (noErr_idx _ _).bind fun _ => noErr_ok _
  have h4 : NoErr (bandTable cfg.nMs cfg.fsInd) := by unfold bandTable; split <;> simp
  unfold snsEncRun
  exact noErr_ite noErr_panic (h1.bind fun _ => (h2 _).bind fun _ => (noErr_snsStage2 _ _).bind fun _ => (h3 _ _).bind fun _ =>
    h4.bind fun _ => (noErr_shapeLoop _ _ _ _).bind fun _ => noErr_ok _)

end Lc3
