import Verif.Lemmas.ShapeGain
import Verif.Props.Silence32
/-!
# Properties: the gains of the decoder's noise shaping in binary32
-/

namespace Lc3
open Scalar Spec Tables
namespace F32

/-- **C105.** Binary32, every configuration, any indices: line `k` of band `b` is multiplied by two to the power of the band's factor (the one
of exact arithmetic, see C92), up to a relative error of `δ + 2 ^ -14`, where `δ` is the relative error of the decoder's power of two; lines
behind the last band are unchanged. -/
theorem C105 {el : Elem} (he : Tame el) {δ δ' : ℝ} (hp : Powers el δ δ') (hδ : 0 ≤ δ) (hδ1 : δ ≤ 1 / 2) {f : SamplingFrequency} {d : FrameDuration}
    {sns : SnsVq} {lines r : List F32} (hl : ∀ x ∈ lines, IsFin x ∧ |val x| ≤ 2 ^ 71)
    (h : @snsDecode F32 (scalar el) (Lc3Config.new f d) sns lines = .ok r) :
    ∃ (tab : List ℕ) (lf hf : List ℚ) (y : List ℤ) (g : ℚ), bandTable d (Lc3Config.new f d).fsInd = .ok tab ∧
      LFCB[sns.indLf]? = some lf ∧ HFCB[sns.indHf]? = some hf ∧ snsPulses sns = .ok y ∧ y.length = 16 ∧ snsGain sns = .ok g ∧
      r.length = lines.length ∧
      (∀ b k x G, b < (Lc3Config.new f d).nb → InBand tab b k → lines[k]? = some x →
        G = (2 : ℝ) ^ bandFactor (Lc3Config.new f d).nb (shapedFactor (fun n => ((lf ++ hf).getD n 0 : ℝ)) g
          (fun i => (y.getD i 0 : ℝ)) (fun n i => ((D.getD n []).getD i 0 : ℝ))) b →
        ∃ z, r[k]? = some z ∧ IsFin z ∧ |val z - val x * G| ≤ (δ + 1 / 2 ^ 14) * (|val x| * G) + 1 / 2 ^ 150) ∧
      ∀ k, (Lc3Config.new f d).ne ≤ k → r[k]? = lines[k]? := by
  letI := scalar el
  obtain ⟨gs, tab, h1, h2, h3, h4, h5, h6⟩ := C24 h
  have hn1 : 32 ≤ (Lc3Config.new f d).nb := by cases f <;> cases d <;> decide
  have hn2 : (Lc3Config.new f d).nb ≤ 64 := by cases f <;> cases d <;> decide
  obtain ⟨lf, hf, y, g, a1, a2, a3, a4, a5, a6⟩ := decGain_ab he hp hδ hδ1 hn1 hn2 h1
  refine ⟨tab, lf, hf, y, g, h3, a1, a2, a3, a4, a5, h4, ?_, h6⟩
  intro b k x G hb hk hx hG
  obtain ⟨b1, b2, b3⟩ := a6 b hb
  have hz := h5 b k hb hk
  have h0 : @Scalar.zero F32 (scalar el) = fin 0 := zero_eq
  rw [hx, h0] at hz
  rw [← hG] at b2 b3
  have := line_gain hδ hδ1 (hl x (List.mem_of_getElem? hx)) b1 (by rw [hG]; exact Real.rpow_pos_of_pos (by norm_num) _) b2 b3
  exact ⟨_, hz, this.1, this.2⟩

/-- elementary functions with powers of two of any given accuracy exist -/
theorem exists_powers {δ δ' : ℝ} (hδ : 0 < δ) (hδ1 : δ ≤ 1) (hδ' : 0 < δ') (hδ1' : δ' ≤ 1) : ∃ el, EncFunctions el ∧ LogFunctions el ∧ Powers el δ δ' := by
  obtain ⟨el, he, hl⟩ := exists_logFunctions
  have near : ∀ e : ℝ, 0 < e → ∀ q : ℚ, ∃ c : ℚ, |(c : ℝ) - (2 : ℝ) ^ (q : ℝ)| ≤ e * (2 : ℝ) ^ (q : ℝ) := by
    intro e he q
    have hp : 0 < e * (2 : ℝ) ^ (q : ℝ) := by positivity
    obtain ⟨c, h1, h2⟩ := exists_rat_btwn (show (2 : ℝ) ^ (q : ℝ) - e * (2 : ℝ) ^ (q : ℝ) < (2 : ℝ) ^ (q : ℝ) + e * (2 : ℝ) ^ (q : ℝ) by linarith)
    exact ⟨c, abs_le.2 ⟨by linarith, by linarith⟩⟩
  have two : ∀ e : ℝ, e ≤ 1 → ∀ q c : ℚ, |(c : ℝ) - (2 : ℝ) ^ (q : ℝ)| ≤ e * (2 : ℝ) ^ (q : ℝ) → |(c : ℝ)| ≤ 2 * (2 : ℝ) ^ (q : ℝ) := by
    intro e he q c h
    have h0 : 0 < (2 : ℝ) ^ (q : ℝ) := by positivity
    have := abs_sub_abs_le_abs_sub (c : ℝ) ((2 : ℝ) ^ (q : ℝ))
    rw [abs_of_pos h0] at this
    nlinarith
  choose c1 h1 using near δ hδ
  choose c2 h2 using near δ' hδ'
  refine ⟨{ el with
      exp2Raw := fun a => (match a with | fin q => fin (c1 q) | _ => nan)
      exp2 := fun a => (match a with | fin q => fin (c2 q) | _ => nan)
      powi := fun a n => if a = fin 10 ∧ n = -4 then fin (1 / 10000) else el.powi a n },
    ⟨⟨⟨he.cosPi, he.sinPi, he.sqrt⟩, he.piOver17, he.sin, he.pow10, fun q _ => ⟨c1 q, rfl, two _ hδ1 _ _ (h1 q)⟩⟩,
      ⟨he.gain.log10, he.gain.log10_zero, he.gain.pow10⟩, fun q _ => ⟨c2 q, rfl, two _ hδ1' _ _ (h2 q)⟩, he.asin, he.asin_one, he.asin_neg_one,
      he.asin_out, he.asin_nan, he.asin_inf, he.step⟩, ⟨hl.log2, ?_⟩,
    ⟨fun q _ => ⟨c1 q, rfl, h1 q⟩, fun q _ => ⟨c2 q, rfl, h2 q⟩, ⟨1 / 10000, by simp, by norm_num⟩⟩⟩
  have := hl.powi
  simpa using this

/-- C105 applies at 8 kHz and 7.5 ms (60 bands), pulses of shape 3, powers of two right up to 1/1000 -/
example : ∃ el, Tame el ∧ Powers el (1 / 1000) (1 / 1000) ∧ ∀ l : List F32, l.length = 60 → (∀ x ∈ l, x = fin 3) →
    (∀ x ∈ l, IsFin x ∧ |val x| ≤ 2 ^ 71) ∧
    ∃ r, @snsDecode F32 (scalar el) (Lc3Config.new .hz8000 .sevenPointFiveMs) ⟨3, 7, 0, 0, 5, 0, 1, 1, 2⟩ l = .ok r := by
  obtain ⟨el, he, -, hp⟩ := exists_powers (δ := 1 / 1000) (δ' := 1 / 1000) (by norm_num) (by norm_num) (by norm_num) (by norm_num)
  letI := scalar el
  refine ⟨el, he.toTame, hp, fun l hl h3 => ⟨?_, ?_⟩⟩
  · intro x hx
    rw [h3 x hx]
    refine ⟨⟨3, rfl⟩, ?_⟩
    show |((3 : ℚ) : ℝ)| ≤ _
    norm_num
  · have h : SideBounds (Lc3Config.new .hz8000 .sevenPointFiveMs) ⟨0, 2, false, 0, 1, [0, 0], ⟨3, 7, 0, 0, 5, 0, 1, 1, 2⟩, ⟨false, false, 0⟩, 0⟩ := by
      constructor <;> decide +kernel
    have key : ∀ (f : SamplingFrequency) (d : FrameDuration) (si : SideInfo) (l : List F32), SideBounds (Lc3Config.new f d) si →
        l.length = (Lc3Config.new f d).ne → ∃ r, snsDecode (Lc3Config.new f d) si.snsVq l = .ok r := by
      intro f d si l h hl
      obtain ⟨r, e, -⟩ := (safe_snsDecode h hl).exists_ok (noErr_snsDecode _ _ _)
      exact ⟨r, e⟩
    exact key _ _ _ l h (hl.trans (by decide))

end F32
end Lc3
