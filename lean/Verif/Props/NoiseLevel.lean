import Verif.Props.CodecError
import Verif.Props.Bandwidth
import Verif.Props.EncQuant
/-!
# C119: the noise that the decoder fills in has the level the encoder measured

The encoder transmits one number in 0..7 for the lines that the quantiser left empty (C39). The decoder puts plus or minus a
level computed from this number on those lines (C13) and multiplies by the global gain (C25). In exact arithmetic the level after
the gain is the mean magnitude of the lines of the encoder, up to half a step of the quantisation of the level.
-/

namespace Lc3
open Scalar Spec

/-- mean magnitude of a list of lines -/
noncomputable def meanAbs (l : List ℝ) : ℝ := (l.map abs).sum / (l.length : ℝ)

theorem i32AsUsize_min7 {f : Int} (h0 : 0 ≤ f) :
    i32AsUsize (min 7 (max (-2147483648) (min 2147483647 f))) = min 7 f.toNat := by
  unfold i32AsUsize
  omega

/-- the quantisation of the level: error at most half a step of 1/16 between the ends 1/16 and 1/2 -/
theorem noiseQuant_err (l : ℝ) : |(8 - (noiseQuant l : ℝ)) / 16 - max (1 / 16) (min (1 / 2) l)| ≤ 1 / 32 := by
  have e8 : (ofRat 8 : ℝ) = 8 := by show ((8 : ℚ) : ℝ) = 8; norm_num
  have e16 : (ofRat 16 : ℝ) = 16 := by show ((16 : ℚ) : ℝ) = 16; norm_num
  have eh : (ofRat (1 / 2) : ℝ) = 1 / 2 := by show ((1 / 2 : ℚ) : ℝ) = 1 / 2; norm_num
  unfold noiseQuant
  simp only [e8, e16, eh]
  by_cases h : (0 : ℝ) ≤ 8 - 16 * l
  · rw [if_pos ((geS_real _ _).2 (by rw [zero_real]; exact h))]
    have h1 : (0 : ℝ) ≤ 8 - 16 * l + 1 / 2 := by linarith
    have hf := Int.floor_nonneg.2 h1
    have e : i32AsUsize (min 7 (toI32 (8 - 16 * l + 1 / 2 : ℝ))) = min 7 ⌊8 - 16 * l + 1 / 2⌋.toNat := by
      show i32AsUsize (min 7 (realToI32 _)) = _
      unfold realToI32
      rw [if_pos h1, i32AsUsize_min7 hf]
    rw [e]
    obtain ⟨f, hfe⟩ : ∃ f : Nat, ⌊8 - 16 * l + 1 / 2⌋ = (f : ℤ) := ⟨_, (Int.toNat_of_nonneg hf).symm⟩
    have f1 := Int.floor_le (8 - 16 * l + 1 / 2)
    have f2 := Int.lt_floor_add_one (8 - 16 * l + 1 / 2)
    rw [hfe] at f1 f2 ⊢
    rw [Int.toNat_natCast]
    push_cast at f1 f2
    rw [min_eq_right (by linarith : l ≤ 1 / 2)]
    rcases Nat.lt_or_ge f 8 with h8 | h8
    · rw [min_eq_right (by omega : f ≤ 7)]
      have h7 : (f : ℝ) ≤ 7 := by exact_mod_cast (by omega : f ≤ 7)
      rcases le_total l (1 / 16) with h3 | h3
      · rw [max_eq_left h3, abs_le]
        constructor <;> linarith
      · rw [max_eq_right h3, abs_le]
        constructor <;> linarith
    · rw [min_eq_left (by omega : 7 ≤ f)]
      have h7 : (8 : ℝ) ≤ f := by exact_mod_cast h8
      rw [max_eq_left (by linarith), abs_le]
      constructor <;> norm_num
  · rw [if_neg (by rw [geS_real, zero_real]; exact h)]
    rw [min_eq_left (by linarith : (1 / 2 : ℝ) ≤ l)]
    norm_num

theorem foldl_abs_div (g : ℝ) (l : List ℝ) : ∀ s : ℝ,
    l.foldl (fun s x => s + absS x / g) s = s + (l.map abs).sum / g := by
  induction l with
  | nil => intro s; simp
  | cons a l ih =>
    intro s
    rw [List.foldl_cons, ih, List.map_cons, List.sum_cons]
    show s + |a| / g + _ = _
    ring

theorem meanLevel_real (g : ℝ) (l : List ℝ) : meanLevel g l = meanAbs l / g := by
  unfold meanLevel meanAbs
  split
  · rename_i h; rw [h, zero_real]; simp
  · rw [foldl_abs_div, zero_real, zero_add, ofInt_real]
    push_cast
    ring

theorem noiseLevel_real_eq (nf : Nat) : (noiseLevel nf : ℝ) = (8 - (nf : ℝ)) / 16 := by
  unfold noiseLevel
  show (((8 : ℚ) : ℝ) - ((nf : ℚ) : ℝ)) / ((16 : ℚ) : ℝ) = _
  push_cast
  rfl

theorem globalGainFactor_pos (nbits fsInd ggInd : Nat) : (0 : ℝ) < globalGainFactor nbits fsInd ggInd := by
  unfold globalGainFactor
  exact Real.rpow_pos_of_pos (by norm_num) _

/-- a line that is quantised to zero is smaller than five eighths of the gain -/
theorem quantLine_eq_zero {g x : ℝ} (hg : 0 < g) (h : quantLine g x = 0) : |x| < 5 / 8 * g := by
  have h38 : (ofRat (3 / 8) : ℝ) = 3 / 8 := by show ((3 / 8 : ℚ) : ℝ) = 3 / 8; norm_num
  unfold quantLine at h
  rw [h38] at h
  have key : ∀ y : ℝ, toI16 y = 0 → -1 < y ∧ y < 1 := by
    intro y hy
    unfold toI16 at hy
    change max (-32768) (min 32767 (realToI32 y)) = 0 at hy
    unfold realToI32 at hy
    split at hy
    · rename_i h0
      have : ⌊y⌋ = 0 := by omega
      rw [Int.floor_eq_zero_iff] at this
      exact ⟨by linarith [this.1], this.2⟩
    · rename_i h0
      have : ⌈y⌉ = 0 := by omega
      rw [Int.ceil_eq_zero_iff] at this
      exact ⟨this.1, by linarith [this.2]⟩
  split at h
  · rename_i h0
    rw [geS_real, zero_real] at h0
    obtain ⟨-, k⟩ := key _ h
    rw [abs_of_nonneg h0]
    have : x / g < 5 / 8 := by linarith
    rwa [div_lt_iff₀ hg] at this
  · rename_i h0
    rw [geS_real, zero_real, not_le] at h0
    obtain ⟨k, -⟩ := key _ h
    rw [abs_of_neg h0]
    have : -(5 / 8) < x / g := by linarith
    rw [lt_div_iff₀ hg] at this
    linarith

theorem meanAbs_le {c : ℝ} (hc : 0 ≤ c) {l : List ℝ} (h : ∀ x ∈ l, |x| ≤ c) : 0 ≤ meanAbs l ∧ meanAbs l ≤ c := by
  have hs : ∀ l : List ℝ, (∀ x ∈ l, |x| ≤ c) → 0 ≤ (l.map abs).sum ∧ (l.map abs).sum ≤ (l.length : ℝ) * c := by
    intro l
    induction l with
    | nil => intro _; simp
    | cons a l ih =>
      intro h
      obtain ⟨i1, i2⟩ := ih (fun x hx => h x (List.mem_cons_of_mem _ hx))
      have := h a List.mem_cons_self
      have ha := abs_nonneg a
      rw [List.map_cons, List.sum_cons, List.length_cons]
      push_cast
      constructor <;> linarith
  obtain ⟨s1, s2⟩ := hs l h
  unfold meanAbs
  refine ⟨div_nonneg s1 (Nat.cast_nonneg _), ?_⟩
  rcases Nat.eq_zero_or_pos l.length with h0 | h0
  · rw [h0]; simpa using hc
  · have : (0 : ℝ) < (l.length : ℝ) := by exact_mod_cast h0
    rw [div_le_iff₀ this]
    linarith

/-- **C119** For every spectrum, every quantised spectrum and every gain index: the encoder estimates a noise factor of at most 7,
and every empty line that the decoder fills with it has after the global gain a magnitude that differs by at most 1/32 of the gain
from the mean magnitude of the empty lines of the encoder, moved into the range 1/16 to 1/2 of the gain that the field can
express. The seed and the values of the decoded lines play no role. -/
theorem C119 (d : FrameDuration) {bw ne nbits fsInd ggInd seed : Nat} (hb : bw ≤ 4) {xf lines : List ℝ} {xq : List Int} {gg : ℝ}
    (hgg : gg = globalGainFactor nbits fsInd ggInd) (hs : seed < 65536)
    (hl : bandLimit d bw ≤ xq.length) (hn : bandLimit d bw ≤ ne) (hf : bandLimit d bw ≤ xf.length) :
    ∃ n l, noiseFactor d ne xf xq bw gg = .ok n ∧ n ≤ 7 ∧ noiseFilling false seed bw d n xq lines = .ok l ∧
      ∀ k, k < lines.length → Empty d bw xq k → ∃ v, (globalGain nbits fsInd ggInd l)[k]? = some v ∧
        |(|v| - max (gg / 16) (min (gg / 2) (meanAbs (emptyLines d bw xq xf))))| ≤ gg / 32 := by
  have hpos : 0 < gg := by rw [hgg]; exact globalGainFactor_pos _ _ _
  refine ⟨_, _, C39_lines d hb gg hl hn hf, noiseQuant_real _, (C13 d _ lines hb hs hl).1, ?_⟩
  intro k hk he
  unfold globalGain
  rw [List.getElem?_map, List.getElem?_map, List.getElem?_zipIdx, List.getElem?_eq_getElem hk]
  refine ⟨_, rfl, ?_⟩
  rw [← hgg, abs_mul, abs_of_pos hpos]
  have hq := noiseQuant_real (meanLevel gg (emptyLines d bw xq xf))
  have herr := noiseQuant_err (meanLevel gg (emptyLines d bw xq xf))
  set n := noiseQuant (meanLevel gg (emptyLines d bw xq xf)) with hn'
  have hv : |filledLine d bw seed n xq (0 + k) lines[k]| = (8 - (n : ℝ)) / 16 := by
    have h7 : (n : ℝ) ≤ 7 := by exact_mod_cast hq
    have h0 : 0 ≤ (8 - (n : ℝ)) / 16 := by linarith
    rw [Nat.zero_add]
    rcases C13_level (seed := seed) (nf := n) lines[k] he with h | h
    · rw [h, noiseLevel_real_eq, abs_of_nonneg h0]
    · rw [h, noiseLevel_real_eq, abs_neg, abs_of_nonneg h0]
  rw [hv]
  rw [meanLevel_real] at herr
  have hm : max (gg / 16) (min (gg / 2) (meanAbs (emptyLines d bw xq xf))) =
      max (1 / 16) (min (1 / 2) (meanAbs (emptyLines d bw xq xf) / gg)) * gg := by
    rw [max_mul_of_nonneg _ _ hpos.le, min_mul_of_nonneg _ _ hpos.le, div_mul_cancel₀ _ hpos.ne']
    congr 1
    · ring
    · congr 1; ring
  rw [hm, ← sub_mul, abs_mul, abs_of_pos hpos]
  calc _ ≤ 1 / 32 * gg := mul_le_mul_of_nonneg_right herr hpos.le
    _ = gg / 32 := by ring

/-- **C119** (quantised spectrum) If the quantised lines are those of the quantiser, the mean magnitude of the empty lines is at
most 5/8 of the gain, and the magnitude of the filled lines differs from it by at most 5/32 of the gain; by at most 1/32 if the
mean magnitude lies between 1/16 and 1/2 of the gain. -/
theorem C119_quantised (d : FrameDuration) {bw ne nbits fsInd ggInd seed : Nat} (hb : bw ≤ 4) {xf lines : List ℝ} {gg : ℝ}
    (hgg : gg = globalGainFactor nbits fsInd ggInd) (hs : seed < 65536)
    (hn : bandLimit d bw ≤ ne) (hf : bandLimit d bw ≤ xf.length) :
    meanAbs (emptyLines d bw (xf.map (quantLine gg)) xf) ≤ 5 / 8 * gg ∧
    ∃ n l, noiseFactor d ne xf (xf.map (quantLine gg)) bw gg = .ok n ∧
      noiseFilling false seed bw d n (xf.map (quantLine gg)) lines = .ok l ∧
      ∀ k, k < lines.length → Empty d bw (xf.map (quantLine gg)) k → ∃ v, (globalGain nbits fsInd ggInd l)[k]? = some v ∧
        |(|v| - meanAbs (emptyLines d bw (xf.map (quantLine gg)) xf))| ≤ 5 / 32 * gg ∧
        (gg / 16 ≤ meanAbs (emptyLines d bw (xf.map (quantLine gg)) xf) →
          meanAbs (emptyLines d bw (xf.map (quantLine gg)) xf) ≤ gg / 2 →
          |(|v| - meanAbs (emptyLines d bw (xf.map (quantLine gg)) xf))| ≤ gg / 32) := by
  classical
  have hpos : 0 < gg := by rw [hgg]; exact globalGainFactor_pos _ _ _
  have hmem : ∀ x ∈ emptyLines d bw (xf.map (quantLine gg)) xf, |x| ≤ 5 / 8 * gg := by
    intro x hx
    unfold emptyLines at hx
    rw [List.mem_map] at hx
    obtain ⟨⟨y, k⟩, hp, rfl⟩ := hx
    rw [List.mem_filter, List.mem_zipIdx_iff_getElem?] at hp
    obtain ⟨h1, h2⟩ := hp
    have he : Empty d bw (xf.map (quantLine gg)) k := by simpa using h2
    have h0 := he.2.2 k (by omega) (by omega) he.2.1
    simp only at h1
    rw [List.getD_eq_getElem?_getD, List.getElem?_map, h1] at h0
    exact (quantLine_eq_zero hpos (by simpa using h0)).le
  obtain ⟨m1, m2⟩ := meanAbs_le (by positivity : 0 ≤ 5 / 8 * gg) hmem
  refine ⟨m2, ?_⟩
  obtain ⟨n, l, e1, -, e2, h⟩ := C119 d (lines := lines) (xq := xf.map (quantLine gg)) hb hgg hs (by simpa using hf) hn hf
  refine ⟨n, l, e1, e2, fun k hk he => ?_⟩
  obtain ⟨v, hv, hd⟩ := h k hk he
  refine ⟨v, hv, ?_, ?_⟩
  · set m := meanAbs (emptyLines d bw (xf.map (quantLine gg)) xf)
    rw [abs_le] at hd ⊢
    rcases le_total m (gg / 16) with c | c
    · rw [min_eq_right (by linarith : m ≤ gg / 2), max_eq_left c] at hd
      constructor <;> linarith [hd.1, hd.2]
    · rcases le_total m (gg / 2) with c' | c'
      · rw [min_eq_right c', max_eq_right c] at hd
        constructor <;> linarith [hd.1, hd.2]
      · rw [min_eq_left c', max_eq_right (by linarith)] at hd
        constructor <;> linarith [hd.1, hd.2]
  · intro c c'
    rwa [min_eq_right c', max_eq_right c] at hd

/-- with 80 lines of 3/10 of the gain the quantiser leaves all lines empty, and the field says 3: the noise has 5/16 of the gain -/
example : noiseQuant (3 / 10 : ℝ) = 3 := by
  have e8 : (ofRat 8 : ℝ) = 8 := by show ((8 : ℚ) : ℝ) = 8; norm_num
  have e16 : (ofRat 16 : ℝ) = 16 := by show ((16 : ℚ) : ℝ) = 16; norm_num
  have eh : (ofRat (1 / 2) : ℝ) = 1 / 2 := by show ((1 / 2 : ℚ) : ℝ) = 1 / 2; norm_num
  unfold noiseQuant
  simp only [e8, e16, eh]
  rw [if_pos ((geS_real _ _).2 (by rw [zero_real]; norm_num))]
  show i32AsUsize (min 7 (realToI32 _)) = _
  unfold realToI32
  rw [if_pos (by norm_num), i32AsUsize_min7 (Int.floor_nonneg.2 (by norm_num))]
  have : ⌊(8 - 16 * (3 / 10) + 1 / 2 : ℝ)⌋ = 3 := by rw [Int.floor_eq_iff]; norm_num
  rw [this]
  rfl

/-- a spectrum of zeros: line 40 is empty -/
example : Empty .tenMs 0 (List.replicate 80 0) 40 := by
  refine ⟨by decide, by decide, fun j _ _ _ => ?_⟩
  rw [List.getD_eq_getElem?_getD, List.getElem?_replicate]
  split <;> rfl

end Lc3
