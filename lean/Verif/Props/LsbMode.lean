import Verif.Props.EncQuant
import Verif.Props.EncLimiter
/-!
# C122: when the encoder uses the least significant bit mode

For every arithmetic: the limit of the frame size and the choice between the two modes and the truncation.
-/

namespace Lc3
open Scalar

section
variable {α : Type} [Scalar α]

/-- the mode of a quantised spectrum -/
theorem quantSpectrum_mode {ne fsInd nbits spec : Nat} {ggOff ggInd : Int} {xf : List α} (h2 : 2 ≤ ne) (he : ne % 2 = 0)
    (hl : xf.length = ne) {r : QuantResult α} (h : quantSpectrum ne fsInd xf nbits ggOff ggInd spec = .ok r) :
    (nbits < 480 + 160 * fsInd → r.lsbMode = false) ∧
    (480 + 160 * fsInd ≤ nbits → r.lsbMode = false → r.xq = xf.map (quantLine (ggValue ggInd ggOff))) := by
  obtain ⟨r', h', -, -, -, hx, -⟩ := C27_spectrum (α := α) (fsInd := fsInd) (nbits := nbits) (spec := spec) (ggOff := ggOff) (ggInd := ggInd) h2 he hl
  rw [h] at h'
  obtain rfl : r = r' := by simpa using h'
  have hb : ∀ x ∈ xf.map (quantLine (ggValue ggInd ggOff)), x.natAbs ≤ 32768 := by
    intro x hx
    obtain ⟨y, -, rfl⟩ := List.mem_map.1 hx
    exact quantLine_bounds _ _
  obtain ⟨bc, e1, -, -, -, -, -, -, e8, -, -⟩ := bitConsumption_ok (α := α) (fsInd := fsInd) (nbits := nbits) (spec := spec)
    h2 he (xq := xf.map (quantLine (ggValue ggInd ggOff))) (by simpa using hl) hb
  unfold quantSpectrum at h
  simp only at h
  rw [e1, Res.bind_ok] at h
  split at h
  case isFalse => cases h
  simp only [Res.ok.injEq] at h
  have hm : r.lsbMode = (encModeFlag nbits fsInd && decide (r.bc.nbitsEst > spec)) := by
    rw [← h, ← e8]
  rw [hm]
  unfold encModeFlag
  constructor
  · intro hn
    rw [decide_eq_false (by omega), Bool.false_and]
  · intro hn hf
    rw [decide_eq_true (by omega), Bool.true_and] at hf
    exact hx (by simpa using hf)

/-- **C122** In every arithmetic and for every frame: frames of less than `480 + 160 i` bits (`i` the index of the sampling frequency) never use the
least significant bit mode; frames of that size or more never lose a line to the truncation in normal mode: if the estimate is above the
budget, they use the least significant bit mode. -/
theorem C122 (f : SamplingFrequency) (d : FrameDuration) {nbits nbw ntns nltpf : Nat} {s s' : QuantSt α} {xf : List α} {o : QuantOut α}
    (h : quantRun (Lc3Config.new f d).ne (Lc3Config.new f d).fsInd s xf nbits nbw ntns nltpf = .ok (s', o)) :
    (nbits < 480 + 160 * (Lc3Config.new f d).fsInd → o.lsbMode = false) ∧
    (480 + 160 * (Lc3Config.new f d).fsInd ≤ nbits → o.lsbMode = false → o.xq = xf.map (quantLine o.gg)) := by
  have hne : 2 ≤ (Lc3Config.new f d).ne ∧ (Lc3Config.new f d).ne % 2 = 0 := by
    cases f <;> cases d <;> decide
  obtain ⟨hl, -, _, _, _, _, _, q, -, -, -, -, hq, ho⟩ := quantRun_inv h
  obtain ⟨k1, k2⟩ := quantSpectrum_mode hne.1 hne.2 hl hq
  obtain ⟨r, h1, -, -, -, -, -, h7, -⟩ := C27_spectrum (α := α) (fsInd := (Lc3Config.new f d).fsInd) (nbits := nbits) (spec := o.nbitsSpec)
    (ggOff := ggOffEnc nbits (Lc3Config.new f d).fsInd) (ggInd := o.ggInd) hne.1 hne.2 hl
  rw [hq] at h1
  obtain rfl : q = r := by simpa using h1
  have e1 : o.lsbMode = q.lsbMode := by rw [ho]
  have e2 : o.xq = q.xq := by rw [ho]
  have e3 : o.gg = q.gg := by rw [ho]
  rw [e1, e2, e3, h7]
  exact ⟨k1, k2⟩

end

/-- 8 kHz, 10 ms, a frame of exactly 480 bits: both sides of the limit are reached by silent frames -/
example : ∀ nbits ∈ [472, 480], ∃ s' o, quantRun (Lc3Config.new .hz8000 .tenMs).ne (Lc3Config.new .hz8000 .tenMs).fsInd QuantSt.new
    (List.replicate 80 (0 : ℝ)) nbits 0 1 1 = .ok (s', o) := by
  have hmax : maxAbs (List.replicate 80 (0 : ℝ)) = 0 := by
    rw [maxAbs_real]
    have : ∀ n, (List.replicate n (0 : ℝ)).foldl (fun m x => max m |x|) 0 = 0 := by
      intro n
      induction n with
      | zero => rfl
      | succ n ih => rw [List.replicate_succ, List.foldl_cons]; simpa using ih
    exact this 80
  intro nbits hn
  have hz : ggMinOf (List.replicate 80 (0 : ℝ)) (ggOffEnc nbits (Lc3Config.new .hz8000 .tenMs).fsInd) = 0 := by
    unfold ggMinOf
    rw [hmax]
    rw [if_neg]
    show ¬ decide (((0 : ℚ) : ℝ) < 0) = true
    simp
  refine C44 _ _ (by decide) (by rw [List.length_replicate]; rfl) ?_ (by rw [hz]; norm_num) (by rw [hz]; norm_num)
  simp only [List.mem_cons, List.not_mem_nil, or_false] at hn
  rcases hn with rfl | rfl <;> decide

end Lc3
