import Verif.Lemmas.Silence32Dec
import Verif.Lemmas.SilenceFrame
import Verif.Lemmas.EncAnalyse32
import Verif.Props.EncoderReturns32
/-!
# Digital silence in binary32: the stages of the encoder in front of the quantiser
-/

namespace Lc3
open Scalar Tables Spec
namespace F32

variable {el : Elem}

/-! ## The transform -/

theorem lt_zn {a b : F32} (ha : Zn a) (hb : Zn b) : F32.lt a b = false := by
  rcases ha with rfl | rfl <;> rcases hb with rfl | rfl <;> first | rfl | exact decide_eq_false (lt_irrefl (0 : ℚ))

theorem winMul_zn {p : Int × Rat} (h : p.1 = 0) : Zn (@winMul F32 (scalar el) p) := by
  unfold winMul
  rw [h]
  refine Zn.mul ?_ _
  left
  show rnd ((0 : ℤ) : ℚ) = fin 0
  rw [Int.cast_zero]
  exact rnd_zero

theorem mdctFold_zn {nf : Nat} {freq : List Int} {wn : List Rat} {t : List F32} (h0 : AllZero freq)
    (h : @mdctFold F32 (scalar el) nf freq wn = .ok t) : AllZn t := by
  letI := scalar el
  unfold mdctFold at h
  simp only at h
  obtain ⟨k, -, h⟩ := bind_ok_inv h
  obtain ⟨t1, e1, h⟩ := bind_ok_inv h
  obtain ⟨w1, -, h⟩ := bind_ok_inv h
  obtain ⟨t2, e2, h⟩ := bind_ok_inv h
  obtain ⟨w2, -, h⟩ := bind_ok_inv h
  obtain ⟨t3, e3, h⟩ := bind_ok_inv h
  obtain ⟨w3, -, h⟩ := bind_ok_inv h
  obtain ⟨t4, e4, h⟩ := bind_ok_inv h
  obtain ⟨w4, -, h⟩ := bind_ok_inv h
  simp only [Res.ok.injEq] at h
  subst h
  have z1 := fun v hv => h0 v (sliceR_mem e1 v hv)
  have z2 := fun v hv => h0 v (sliceR_mem e2 v hv)
  have z3 := fun v hv => h0 v (sliceR_mem e3 v hv)
  have z4 := fun v hv => h0 v (sliceR_mem e4 v hv)
  have key : ∀ (l m : List (Int × Rat)) (g : F32 → F32 → F32), (∀ a b, Zn a → Zn b → Zn (g a b)) → (∀ p ∈ l, p.1 = 0) → (∀ p ∈ m, p.1 = 0) →
      AllZn (List.zipWith (fun p q => g (winMul p) (winMul q)) l m) := by
    intro l m g hg hl hm v hv
    obtain ⟨i, hi, rfl⟩ := List.mem_iff_getElem.1 hv
    rw [List.getElem_zipWith]
    exact hg _ _ (winMul_zn (hl _ (List.getElem_mem _))) (winMul_zn (hm _ (List.getElem_mem _)))
  refine AllZn.append (key _ _ (fun a b => -a - b) (fun a b ha hb => ha.neg.sub hb) ?_ ?_) (key _ _ (fun a b => a - b) (fun a b ha hb => ha.sub hb) ?_ ?_)
  · intro p hp
    exact z1 _ (List.mem_reverse.1 (List.of_mem_zip hp).1)
  · intro p hp
    exact z2 _ (List.of_mem_zip hp).1
  · intro p hp
    exact z3 _ (List.of_mem_zip hp).1
  · intro p hp
    exact z4 _ (List.mem_reverse.1 (List.of_mem_zip hp).1)

theorem mdctApply_zn {nf : Nat} {freq : List Int} {wn : List Rat} {t : List F32} (h0 : AllZero freq)
    (h : @mdctApply F32 (scalar el) nf freq wn = .ok t) : AllZn t := by
  letI := scalar el
  unfold mdctApply at h
  obtain ⟨t1, e1, h⟩ := bind_ok_inv h
  obtain ⟨y, e2, h⟩ := bind_ok_inv h
  cases h
  exact (dctIv_zn (mdctFold_zn h0 e1) e2).map fun a ha => ha.mul _

theorem foldl_zn {β : Type} {g : F32 → β → F32} (hg : ∀ a, Zn a → ∀ b, Zn (g a b)) : ∀ (l : List β) (a : F32), Zn a → Zn (l.foldl g a)
  | [], _, h => h
  | b :: l, a, h => foldl_zn hg l _ (hg a h b)

theorem foldl_zn_mem {g : F32 → F32 → F32} (hg : ∀ a, Zn a → ∀ b, Zn b → Zn (g a b)) : ∀ (l : List F32) (a : F32), AllZn l → Zn a → Zn (l.foldl g a)
  | [], _, _, h => h
  | b :: l, a, hl, h => foldl_zn_mem hg l _ (fun v hv => hl v (by simp [hv])) (hg a h b (hl b (by simp)))

theorem energyBands_zn {tab : List Nat} {out : List F32} (h0 : AllZn out) : ∀ n b eb, @energyBands F32 (scalar el) tab out b n = .ok eb → AllZn eb := by
  letI := scalar el
  intro n
  induction n with
  | zero => intro b eb h; cases h; intro v hv; cases hv
  | succ n ih =>
    intro b eb h
    rw [energyBands] at h
    obtain ⟨i, -, h⟩ := bind_ok_inv h
    obtain ⟨j, -, h⟩ := bind_ok_inv h
    obtain ⟨w, -, h⟩ := bind_ok_inv h
    obtain ⟨part, hp, h⟩ := bind_ok_inv h
    obtain ⟨r, hr, h⟩ := bind_ok_inv h
    cases h
    intro v hv
    rcases List.mem_cons.1 hv with rfl | hv
    · exact foldl_zn_mem (fun a ha b hb => ha.add ((hb.mul _).div _)) _ _ (fun v hv => h0 v (sliceR_mem hp v hv)) zero_zn
    · exact ih _ _ hr v hv

theorem sum_zn {l : List F32} (h : AllZn l) : Zn (@List.foldl F32 F32 (fun a b => F32.add a b) (@Scalar.zero F32 (scalar el)) l) :=
  foldl_zn_mem (fun _ ha _ hb => ha.add hb) _ _ h zero_zn

/-- the transform of silence -/
theorem mdctEncRun_silence32 (hel : Accurate el) {f : SamplingFrequency} {d : FrameDuration} {fr x freq : List Int} {out eb : List F32} {nn : Bool}
    (hl : fr.length = (Lc3Config.new f d).nf * 2) (h1 : AllZero fr) (h2 : AllZero x)
    (h : @mdctEncRun F32 (scalar el) (Lc3Config.new f d) fr x = .ok (freq, out, eb, nn)) :
    AllZero freq ∧ (∀ v ∈ out, v = fin 0) ∧ AllZn eb ∧ nn = false := by
  letI := scalar el
  have small : ∀ {l : List Int}, AllZero l → ∀ v ∈ l, |v| ≤ 2 ^ 15 := fun hl v hv => by rw [hl v hv]; norm_num
  have hb := bd_mdctEncRun hel (by omega) (small h1) (small h2) h
  unfold mdctEncRun at h
  split at h
  · cases h
  obtain ⟨freq', e1, h⟩ := bind_ok_inv h
  obtain ⟨wn, e2, h⟩ := bind_ok_inv h
  obtain ⟨out', e3, h⟩ := bind_ok_inv h
  obtain ⟨tab, e4, h⟩ := bind_ok_inv h
  obtain ⟨eb', e5, h⟩ := bind_ok_inv h
  obtain ⟨nn', e6, h⟩ := bind_ok_inv h
  simp only [Res.ok.injEq, Prod.mk.injEq] at h
  obtain ⟨rfl, rfl, rfl, rfl⟩ := h
  have hf0 := mdctUpdate_zero e1 h1 h2
  have ho := mdctApply_zn hf0 e3
  have heb := energyBands_zn ho _ _ _ e5
  refine ⟨hf0, fun v hv => (ho v hv).eq_zero (hb v hv).1, heb, ?_⟩
  unfold isNearNyquist at e6
  split at e6
  · obtain ⟨k, -, e6⟩ := bind_ok_inv e6
    simp only [Res.ok.injEq] at e6
    rw [← e6]
    exact lt_zn (Zn.mul' (sum_zn (heb.take _)) _) (sum_zn (heb.drop _))
  · cases e6; rfl

end F32
end Lc3
