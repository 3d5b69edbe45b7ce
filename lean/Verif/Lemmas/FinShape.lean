import Verif.Lemmas.FinSns
/-! Sizes in the decoder in binary32: interpolation of the scale factors and shaping of the spectrum. -/

namespace Lc3.F32
open Scalar Tables

variable {el : Elem}

theorem lerp_bd {a b : F32} {c : ℚ} (ha : Bd 11 a) (hb : Bd 11 b) (h0 : 0 ≤ c) (h1 : c ≤ 1) :
    Bd (1101 / 100) (F32.add a (F32.mul (rnd c) (F32.sub b a))) := by
  have hd : |val b - val a| ≤ 22 := by
    have := abs_sub (val b) (val a)
    linarith [ha.2, hb.2]
  obtain ⟨fd, ed⟩ := sub_val hb.1 ha.1 (hd.trans (by norm_num))
  generalize F32.sub b a = d at *
  have hc0 : (0 : ℝ) ≤ c := by exact_mod_cast h0
  have hc1 : (c : ℝ) ≤ 1 := by exact_mod_cast h1
  have hcabs : |(c : ℝ)| ≤ 1 := by rw [abs_of_nonneg hc0]; exact hc1
  obtain ⟨fc, ec⟩ := rnd_val (hcabs.trans (by norm_num))
  generalize rnd c = k at *
  obtain ⟨A, hA⟩ : ∃ A, A = val a := ⟨_, rfl⟩
  obtain ⟨B, hB⟩ : ∃ B, B = val b := ⟨_, rfl⟩
  obtain ⟨γ, hγ⟩ : ∃ γ : ℝ, γ = c := ⟨_, rfl⟩
  obtain ⟨Dv, hDv⟩ : ∃ D, D = val d := ⟨_, rfl⟩
  obtain ⟨K, hK⟩ : ∃ K, K = val k := ⟨_, rfl⟩
  have hAb := ha.2
  have hBb := hb.2
  rw [← hA] at hd ed hAb
  rw [← hB] at hd ed hBb
  rw [← hDv] at ed
  rw [← hγ] at hc0 hc1 ec hcabs
  rw [← hK] at ec
  have ed' : |Dv - (B - A)| ≤ 1 / 2 ^ 19 := by norm_num at ed ⊢; linarith
  have ec' : |K - γ| ≤ 1 / 2 ^ 23 := by norm_num at ec ⊢; linarith
  have hD : |Dv| ≤ 23 := by
    have := abs_sub_abs_le_abs_sub Dv (B - A)
    norm_num at ed'
    linarith
  have hp : |K * Dv - γ * (B - A)| ≤ 1 / 2 ^ 17 := by
    have e : K * Dv - γ * (B - A) = (K - γ) * Dv + γ * (Dv - (B - A)) := by ring
    rw [e]
    have i1 := abs_add_le ((K - γ) * Dv) (γ * (Dv - (B - A)))
    rw [abs_mul, abs_mul, abs_of_nonneg hc0] at i1
    have i2 : |K - γ| * |Dv| ≤ 1 / 2 ^ 23 * 23 := mul_le_mul ec' hD (abs_nonneg _) (by positivity)
    have i3 : γ * |Dv - (B - A)| ≤ 1 * (1 / 2 ^ 19) := mul_le_mul hc1 ed' (abs_nonneg _) (by norm_num)
    norm_num at i1 i2 i3 ⊢
    linarith
  have hγd : |γ * (B - A)| ≤ 22 := by
    rw [abs_mul, abs_of_nonneg hc0]
    nlinarith [abs_nonneg (B - A)]
  have hKD : |K * Dv| ≤ 23 := by
    have := abs_sub_abs_le_abs_sub (K * Dv) (γ * (B - A))
    norm_num at hp
    linarith
  obtain ⟨fp, ep⟩ := mul_val fc fd (by rw [← hK, ← hDv]; exact hKD.trans (by norm_num))
  generalize F32.mul k d = p at *
  rw [← hK, ← hDv] at ep
  have ep' : |val p - K * Dv| ≤ 23 / 2 ^ 24 + 1 / 2 ^ 150 := ep.trans (by gcongr)
  have hcv : |A + γ * (B - A)| ≤ 11 := by
    rw [abs_le] at hAb hBb ⊢
    constructor <;> nlinarith
  have hs : |A + val p| ≤ 11 + 1 / 2 ^ 16 := by
    have e : A + val p = (A + γ * (B - A)) + ((val p - K * Dv) + (K * Dv - γ * (B - A))) := by ring
    rw [e]
    have i1 := abs_add_le (A + γ * (B - A)) ((val p - K * Dv) + (K * Dv - γ * (B - A)))
    have i2 := abs_add_le (val p - K * Dv) (K * Dv - γ * (B - A))
    have i3 : (11 : ℝ) + (23 / 2 ^ 24 + 1 / 2 ^ 150 + 1 / 2 ^ 17) ≤ 11 + 1 / 2 ^ 16 := by norm_num
    linarith
  obtain ⟨fs, es⟩ := add_val ha.1 fp (by rw [← hA]; refine hs.trans ?_; norm_num)
  rw [← hA] at es
  refine (bd_of_err fs es hs (by norm_num)).mono (by norm_num)

theorem extra_bd {a b : F32} {c : ℚ} (ha : Bd 11 a) (hb : Bd 11 b) (h0 : 0 ≤ c) (h1 : c ≤ 3 / 8) :
    Bd (1926 / 100) (F32.add a (F32.mul (rnd c) (F32.sub a b))) := by
  have hc : |(c : ℝ)| ≤ 3 / 8 := by
    have h0' : (0 : ℝ) ≤ c := by exact_mod_cast h0
    have h1' : (c : ℝ) ≤ ((3 / 8 : ℚ) : ℝ) := by exact_mod_cast h1
    push_cast at h1'
    rw [abs_of_nonneg h0']
    exact h1'
  have b1 := bd_rnd hc (by norm_num) (by norm_num)
  have b2 := ha.sub hb (by norm_num) (by norm_num)
  have b3 := b1.mul b2 (by norm_num) (by norm_num)
  exact (ha.add b3 (by norm_num) (by norm_num)).mono (by norm_num)

theorem bd_interpTail : ∀ (l : List F32) (prev : F32), Bd 11 prev → AllBd 11 l → AllBd (1926 / 100) (@interpTail F32 (scalar el) prev l)
  | [], _, _, _ => AllBd.nil
  | [last], prev, hp, h => by
    have hl : Bd 11 last := h last (by simp)
    letI := scalar el
    unfold interpTail
    refine AllBd.cons ?_ (AllBd.cons ?_ AllBd.nil)
    · exact extra_bd hl hp (by norm_num) (by norm_num)
    · exact extra_bd hl hp (by norm_num) (by norm_num)
  | a :: b :: l, prev, hp, h => by
    have ha : Bd 11 a := h a (by simp)
    have hb : Bd 11 b := h b (by simp)
    letI := scalar el
    unfold interpTail
    refine AllBd.append ?_ (bd_interpTail (b :: l) a ha fun x hx => h x (by simp at hx ⊢; tauto))
    have k : ∀ c : ℚ, 0 ≤ c → c ≤ 1 → Bd (1926 / 100) (F32.add a (F32.mul (rnd c) (F32.sub b a))) := fun c h0 h1 =>
      (lerp_bd ha hb h0 h1).mono (by norm_num)
    refine AllBd.cons ?_ (AllBd.cons ?_ (AllBd.cons ?_ (AllBd.cons ?_ AllBd.nil)))
    · exact k _ (by norm_num) (by norm_num)
    · exact k _ (by norm_num) (by norm_num)
    · exact k _ (by norm_num) (by norm_num)
    · exact k _ (by norm_num) (by norm_num)

theorem bd_interp {l : List F32} (h : AllBd 11 l) : AllBd (1926 / 100) (@snsInterp F32 (scalar el) l) := by
  cases l with
  | nil => exact AllBd.nil
  | cons a l =>
    have ha : Bd 11 a := h a (by simp)
    have ha' : Bd (1926 / 100) a := ha.mono (by norm_num)
    exact AllBd.cons ha' (AllBd.cons ha' (bd_interpTail _ a ha h))

theorem allBd_mapM {β : Type} {B : ℝ} {f : β → Res F32} (hf : ∀ i a, f i = .ok a → Bd B a) : ∀ {l : List β} {r : List F32}, l.mapM f = .ok r →
    AllBd B r
  | [], r, h => by
    cases h
    exact AllBd.nil
  | x :: l, r, h => by
    rw [mapM_cons'] at h
    obtain ⟨a, h1, h⟩ := bind_ok_inv h
    obtain ⟨r', h2, h⟩ := bind_ok_inv h
    cases h
    exact AllBd.cons (hf x a h1) (allBd_mapM hf h2)

theorem bd_reduce {nb : ℕ} {f l : List F32} (h : AllBd (1926 / 100) f) (e : @snsReduce F32 (scalar el) nb f = .ok l) : AllBd (1927 / 100) l := by
  letI := scalar el
  have h' : AllBd (1927 / 100) f := h.mono (by norm_num)
  unfold snsReduce at e
  obtain ⟨n2, -, e⟩ := bind_ok_inv e
  split at e
  · obtain ⟨x, h1, e⟩ := bind_ok_inv e
    obtain ⟨y, h2, e⟩ := bind_ok_inv e
    cases e
    refine AllBd.append (allBd_mapM ?_ h1) (allBd_mapM (fun i a ha => h'.idx ha) h2)
    intro i a ha
    obtain ⟨u, hu, ha⟩ := bind_ok_inv ha
    obtain ⟨v, hv, ha⟩ := bind_ok_inv ha
    cases ha
    have b1 := (h.idx hu).add (h.idx hv) (by norm_num) (by norm_num)
    have e2 : rnd 2 = fin 2 := by
      have := rnd_int (n := 2) (by norm_num)
      simpa using this
    have b2 := b1.div (b := rnd 2) (B := 2) (by rw [e2]; exact ⟨_, rfl⟩) (by norm_num) (by
      rw [e2]
      show (2 : ℝ) ≤ |((2 : ℚ) : ℝ)|
      norm_num) (by norm_num) (by norm_num)
    exact b2.mono (by norm_num)
  · cases e
    exact h'

theorem bd_exp2Raw (he : Tame el) {a : F32} (h : Bd (1927 / 100) a) : Bd (5 / 4 * 2 ^ 20) (el.exp2Raw a) := by
  obtain ⟨⟨q, rfl⟩, hb⟩ := h
  have hb' : |(q : ℝ)| ≤ 1927 / 100 := hb
  obtain ⟨c, hc, hce⟩ := he.exp2Raw q (by
    have : |(q : ℝ)| ≤ ((32 : ℚ) : ℝ) := hb'.trans (by norm_num)
    exact_mod_cast this)
  rw [hc]
  refine ⟨⟨c, rfl⟩, ?_⟩
  show |(c : ℝ)| ≤ _
  have h1 : (2 : ℝ) ^ (q : ℝ) ≤ (2 : ℝ) ^ (19 + 27 / 100 : ℝ) :=
    Real.rpow_le_rpow_of_exponent_le (by norm_num) (by have := le_abs_self (q : ℝ); linarith)
  have h2 : (2 : ℝ) ^ (27 / 100 : ℝ) ≤ 5 / 4 := by
    have : (2 : ℝ) ^ (27 / 100 : ℝ) = ((2 : ℝ) ^ (27 : ℕ)) ^ (1 / 100 : ℝ) := by
      rw [← Real.rpow_natCast, ← Real.rpow_mul (by norm_num)]
      norm_num
    rw [this]
    have h3 : ((2 : ℝ) ^ (27 : ℕ)) ^ (1 / 100 : ℝ) ≤ ((5 / 4 : ℝ) ^ (100 : ℕ)) ^ (1 / 100 : ℝ) :=
      Real.rpow_le_rpow (by norm_num) (by norm_num) (by norm_num)
    refine h3.trans ?_
    rw [← Real.rpow_natCast, ← Real.rpow_mul (by norm_num)]
    norm_num
  have h3 : (2 : ℝ) ^ (19 + 27 / 100 : ℝ) = 2 ^ 19 * (2 : ℝ) ^ (27 / 100 : ℝ) := by
    rw [Real.rpow_add (by norm_num)]
    congr 1
    rw [← Real.rpow_natCast]
    norm_num
  rw [h3] at h1
  norm_num at h1 h2 hce ⊢
  linarith

theorem bd_shapeLoop {tab : List ℕ} {X Y G : ℝ} (hXY : X ≤ Y) (hG : ∀ a g, Bd X a → Bd G g → Bd Y (F32.mul a g)) :
    ∀ (gs : List F32) (b i : ℕ) (l r : List F32), AllBd G gs → (∀ j, idx tab b = .ok j → i = j) → AllBd Y (l.take i) → AllBd X (l.drop i) →
    @shapeLoop F32 (scalar el) tab b gs l = .ok r → r.length = l.length ∧ AllBd Y r
  | [], b, i, l, r, _, _, h1, h2, e => by
    simp only [shapeLoop, Res.ok.injEq] at e
    subst e
    refine ⟨rfl, ?_⟩
    have := h1.append (h2.mono hXY)
    rwa [List.take_append_drop] at this
  | g :: gs, b, i, l, r, hg, hi, h1, h2, e => by
    letI := scalar el
    rw [shapeLoop] at e
    obtain ⟨i0, e0, e⟩ := bind_ok_inv e
    obtain ⟨i1, e1, e⟩ := bind_ok_inv e
    obtain ⟨l1, e2, e⟩ := bind_ok_inv e
    have hi0 := hi i0 e0
    subst hi0
    unfold scaleRange at e2
    split at e2
    · rename_i hlt
      cases e2
      have hlen : ((l.take i).length) = i := by rw [List.length_take]; omega
      have hmid : (((l.take i1).drop i).map (· * g)).length = i1 - i := by
        rw [List.length_map, List.length_drop, List.length_take]; omega
      have hb : AllBd Y (((l.take i1).drop i).map (· * g)) := by
        intro a ha
        obtain ⟨x, hx, rfl⟩ := List.mem_map.1 ha
        refine hG x g ?_ (hg g (by simp))
        rw [List.drop_take] at hx
        exact h2 x (List.mem_of_mem_take hx)
      have hl2 : (l.take i ++ ((l.take i1).drop i).map (· * g) ++ l.drop i1).length = l.length := by
        simp only [List.length_append, hlen, hmid, List.length_drop]
        omega
      have hA : (l.take i ++ ((l.take i1).drop i).map (· * g)).length = i1 := by
        rw [List.length_append, hlen, hmid]
        omega
      obtain ⟨k1, k2⟩ := bd_shapeLoop hXY hG gs (b + 1) i1 _ r (fun a ha => hg a (by simp [ha])) (fun j hj => by
        rw [e1] at hj; cases hj; rfl) (by
          rw [List.take_append_of_le_length (by omega), List.take_of_length_le (by omega)]
          exact h1.append hb) (by
          rw [List.drop_append_of_le_length (by omega), List.drop_eq_nil_of_le (by omega), List.nil_append]
          have : l.drop i1 = (l.drop i).drop (i1 - i) := by
            rw [List.drop_drop]
            congr 1
            omega
          rw [this]
          exact h2.drop _) e
      exact ⟨by omega, k2⟩
    · cases e2

/-- the shaped spectrum -/
theorem bd_snsDecode (he : Tame el) {cfg : Lc3Config} {sns : SnsVq} {l r : List F32} (h : AllBd (2 ^ 71) l)
    (e : @snsDecode F32 (scalar el) cfg sns l = .ok r) : r.length = l.length ∧ AllBd (13 / 10 * 2 ^ 91) r := by
  letI := scalar el
  unfold snsDecode at e
  obtain ⟨g, h1, e⟩ := bind_ok_inv e
  obtain ⟨tab, h2, e⟩ := bind_ok_inv e
  have hg : AllBd (5 / 4 * 2 ^ 20) g := by
    unfold snsGains at h1
    obtain ⟨scf, k1, h1⟩ := bind_ok_inv h1
    obtain ⟨f, k2, h1⟩ := bind_ok_inv h1
    cases h1
    intro a ha
    obtain ⟨x, hx, rfl⟩ := List.mem_map.1 ha
    exact bd_exp2Raw he (bd_reduce (bd_interp (bd_scaleFactors he k1)) k2 x (List.mem_of_mem_take hx))
  have hm : ∀ a g, Bd (2 ^ 71) a → Bd (5 / 4 * 2 ^ 20) g → Bd (13 / 10 * 2 ^ 91) (F32.mul a g) := by
    intro a g ha hg
    exact (ha.mul hg (by norm_num) (by norm_num)).mono (by norm_num)
  have hfirst : ∃ i, ∀ j, idx tab 0 = .ok j → i = j := by
    cases h0 : idx tab 0 with
    | ok j => exact ⟨j, fun k hk => by cases hk; rfl⟩
    | err => exact ⟨0, fun k hk => by cases hk⟩
    | panic => exact ⟨0, fun k hk => by cases hk⟩
  obtain ⟨i, hi⟩ := hfirst
  exact bd_shapeLoop (by norm_num) hm g 0 i l r hg hi ((h.mono (by norm_num)).take _) (h.drop _) e

end Lc3.F32
