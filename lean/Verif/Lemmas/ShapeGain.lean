import Verif.Lemmas.ShapeNear
import Verif.Spec.Powers
import Verif.Props.Shaping
/-!
# Gains of the noise shaping in binary32

Interpolation of the scale factors, powers of two, and the multiplication of the lines.
-/

namespace Lc3
open Scalar Tables Spec
namespace F32

variable {el : Elem}

/-- a finite value near `t`, and `t` is at most `B` in size -/
def Nb (e B : ℝ) (a : F32) (t : ℝ) : Prop := Ab t e a ∧ |t| ≤ B

theorem ab_self {a : F32} (h : IsFin a) : Ab (val a) 0 a := ⟨h, by simp⟩

theorem lerp_ab {a d : F32} (ha : Bd 12 a) (hd : Bd 23 d) {c : ℚ} (h0 : 0 ≤ c) (h1 : c ≤ 1) :
    Ab (val a + c * val d) (82 / 2 ^ 24) (F32.add a (F32.mul (rnd c) d)) := by
  have hc0 : (0 : ℝ) ≤ c := by exact_mod_cast h0
  have hc1 : (c : ℝ) ≤ 1 := by exact_mod_cast h1
  have hc : |(c : ℝ)| ≤ 1 := by rw [abs_of_nonneg hc0]; exact hc1
  have hd2 := hd.2
  have ha2 := ha.2
  have hcd : |(c : ℝ) * val d| ≤ 23 := by
    rw [abs_mul]
    nlinarith [abs_nonneg (c : ℝ), abs_nonneg (val d)]
  have p := (ab_rnd hc (by norm_num)).mul (ab_self hd.1) (M := 231 / 10) (by
    generalize |(c : ℝ) * val d| = z at *
    generalize |val d| = w at *
    norm_num
    linarith) (by norm_num)
  have p' := p.mono (e' := 463 / 10 / 2 ^ 24) (by
    generalize |val d| = w at *
    norm_num
    linarith)
  have := abs_add_le (val a) (c * val d)
  refine ((ab_self ha.1).add p' (M := 351 / 10) ?_ (by norm_num)).mono ?_
  · norm_num at *
    linarith
  · norm_num

theorem interp_nb {e : ℝ} {a b : F32} {A B : ℝ} (he : e ≤ 1 / 2 ^ 10) (ha : Nb e (111 / 10) a A) (hb : Nb e (111 / 10) b B) {c : ℚ} (h0 : 0 ≤ c) (h1 : c ≤ 1) :
    Nb (7 / 4 * e + 106 / 2 ^ 24) 20 (F32.add a (F32.mul (rnd c) (F32.sub b a))) (A + c * (B - A)) := by
  obtain ⟨ha, hA⟩ := ha
  obtain ⟨hb, hB⟩ := hb
  have he0 : 0 ≤ e := (abs_nonneg _).trans ha.2
  have hc0 : (0 : ℝ) ≤ c := by exact_mod_cast h0
  have hc1 : (c : ℝ) ≤ 1 := by exact_mod_cast h1
  have ba : Bd 12 a := ha.bd (by linarith)
  have bb : Bd 12 b := hb.bd (by linarith)
  have hv : |val b - val a| ≤ 225 / 10 := by
    have e1 : val b - val a = (val b - B) + (B - A) + (A - val a) := by ring
    rw [e1]
    have i1 := abs_add_le ((val b - B) + (B - A)) (A - val a)
    have i2 := abs_add_le (val b - B) (B - A)
    have i3 := abs_sub B A
    have i4 := ha.2
    have i5 := hb.2
    rw [abs_sub_comm] at i4
    linarith
  have d := (ab_self bb.1).sub (ab_self ba.1) (M := 225 / 10) (by linarith) (by norm_num)
  have d2 : |val (F32.sub b a) - (val b - val a)| ≤ 23 / 2 ^ 24 := d.2.trans (by norm_num)
  have bd : Bd 23 (F32.sub b a) := d.bd (by
    generalize |val b - val a| = z at *
    norm_num
    linarith)
  have r := lerp_ab ba bd h0 h1
  constructor
  · refine ⟨r.1, ?_⟩
    have r2 := r.2
    have e1 : val (F32.add a (F32.mul (rnd c) (F32.sub b a))) - (A + c * (B - A)) =
        (val (F32.add a (F32.mul (rnd c) (F32.sub b a))) - (val a + c * val (F32.sub b a))) +
          c * (val (F32.sub b a) - (val b - val a)) + ((1 - c) * (val a - A) + c * (val b - B)) := by ring
    rw [e1]
    have i1 := abs_add_le ((val (F32.add a (F32.mul (rnd c) (F32.sub b a))) - (val a + c * val (F32.sub b a))) +
          c * (val (F32.sub b a) - (val b - val a))) ((1 - c) * (val a - A) + c * (val b - B))
    have i2 := abs_add_le (val (F32.add a (F32.mul (rnd c) (F32.sub b a))) - (val a + c * val (F32.sub b a)))
          (c * (val (F32.sub b a) - (val b - val a)))
    have i3 := abs_add_le ((1 - (c : ℝ)) * (val a - A)) (c * (val b - B))
    rw [abs_mul, abs_mul, abs_of_nonneg hc0, abs_of_nonneg (by linarith : (0 : ℝ) ≤ 1 - c)] at i3
    rw [abs_mul (c : ℝ), abs_of_nonneg hc0] at i2
    have j1 : (1 - (c : ℝ)) * |val a - A| ≤ (1 - c) * e := mul_le_mul_of_nonneg_left ha.2 (by linarith)
    have j2 : (c : ℝ) * |val b - B| ≤ c * e := mul_le_mul_of_nonneg_left hb.2 hc0
    have j3 : (c : ℝ) * |val (F32.sub b a) - (val b - val a)| ≤ 1 * (23 / 2 ^ 24) := mul_le_mul hc1 d2 (abs_nonneg _) (by norm_num)
    have j4 : (1 - (c : ℝ)) * e + c * e = e := by ring
    norm_num at r2 j3 ⊢
    linarith
  · rw [show A + (c : ℝ) * (B - A) = (1 - c) * A + c * B by ring]
    have i3 := abs_add_le ((1 - (c : ℝ)) * A) (c * B)
    rw [abs_mul, abs_mul, abs_of_nonneg hc0, abs_of_nonneg (by linarith : (0 : ℝ) ≤ 1 - c)] at i3
    nlinarith

theorem extrap_nb {e : ℝ} {a b : F32} {A B : ℝ} (he : e ≤ 1 / 2 ^ 10) (ha : Nb e (111 / 10) a A) (hb : Nb e (111 / 10) b B) {c : ℚ} (h0 : 0 ≤ c) (h1 : c ≤ 3 / 8) :
    Nb (7 / 4 * e + 106 / 2 ^ 24) 20 (F32.add a (F32.mul (rnd c) (F32.sub a b))) (A + c * (A - B)) := by
  obtain ⟨ha, hA⟩ := ha
  obtain ⟨hb, hB⟩ := hb
  have he0 : 0 ≤ e := (abs_nonneg _).trans ha.2
  have hc0 : (0 : ℝ) ≤ c := by exact_mod_cast h0
  have hc1 : (c : ℝ) ≤ 3 / 8 := by
    have : (c : ℝ) ≤ ((3 / 8 : ℚ) : ℝ) := by exact_mod_cast h1
    push_cast at this
    exact this
  have ba : Bd 12 a := ha.bd (by linarith)
  have bb : Bd 12 b := hb.bd (by linarith)
  have hv : |val a - val b| ≤ 225 / 10 := by
    have e1 : val a - val b = (val a - A) + (A - B) + (B - val b) := by ring
    rw [e1]
    have i1 := abs_add_le ((val a - A) + (A - B)) (B - val b)
    have i2 := abs_add_le (val a - A) (A - B)
    have i3 := abs_sub A B
    have i4 := ha.2
    have i5 := hb.2
    rw [abs_sub_comm] at i5
    linarith
  have d := (ab_self ba.1).sub (ab_self bb.1) (M := 225 / 10) (by linarith) (by norm_num)
  have d2 : |val (F32.sub a b) - (val a - val b)| ≤ 23 / 2 ^ 24 := d.2.trans (by norm_num)
  have bd : Bd 23 (F32.sub a b) := d.bd (by
    generalize |val a - val b| = z at *
    norm_num
    linarith)
  have r := lerp_ab ba bd h0 (h1.trans (by norm_num))
  constructor
  · refine ⟨r.1, ?_⟩
    have r2 := r.2
    have e1 : val (F32.add a (F32.mul (rnd c) (F32.sub a b))) - (A + c * (A - B)) =
        (val (F32.add a (F32.mul (rnd c) (F32.sub a b))) - (val a + c * val (F32.sub a b))) +
          c * (val (F32.sub a b) - (val a - val b)) + ((1 + c) * (val a - A) + c * (B - val b)) := by ring
    rw [e1]
    have i1 := abs_add_le ((val (F32.add a (F32.mul (rnd c) (F32.sub a b))) - (val a + c * val (F32.sub a b))) +
          c * (val (F32.sub a b) - (val a - val b))) ((1 + c) * (val a - A) + c * (B - val b))
    have i2 := abs_add_le (val (F32.add a (F32.mul (rnd c) (F32.sub a b))) - (val a + c * val (F32.sub a b)))
          (c * (val (F32.sub a b) - (val a - val b)))
    have i3 := abs_add_le ((1 + (c : ℝ)) * (val a - A)) (c * (B - val b))
    rw [abs_mul, abs_mul, abs_of_nonneg hc0, abs_of_nonneg (by linarith : (0 : ℝ) ≤ 1 + c), abs_sub_comm B] at i3
    rw [abs_mul (c : ℝ), abs_of_nonneg hc0] at i2
    have j1 : (1 + (c : ℝ)) * |val a - A| ≤ (1 + 3 / 8) * e := mul_le_mul (by linarith) ha.2 (abs_nonneg _) (by norm_num)
    have j2 : (c : ℝ) * |val b - B| ≤ 3 / 8 * e := mul_le_mul hc1 hb.2 (abs_nonneg _) (by norm_num)
    have j3 : (c : ℝ) * |val (F32.sub a b) - (val a - val b)| ≤ 3 / 8 * (23 / 2 ^ 24) := mul_le_mul hc1 d2 (abs_nonneg _) (by norm_num)
    norm_num at r2 j3 ⊢
    linarith
  · rw [show A + (c : ℝ) * (A - B) = (1 + c) * A + -(c * B) by ring]
    have i3 := abs_add_le ((1 + (c : ℝ)) * A) (-(c * B))
    rw [abs_neg, abs_mul, abs_mul, abs_of_nonneg hc0, abs_of_nonneg (by linarith : (0 : ℝ) ≤ 1 + c)] at i3
    nlinarith [abs_nonneg A, abs_nonneg B]

theorem interpTail_nb {e : ℝ} (he : e ≤ 1 / 2 ^ 10) : ∀ {l : List F32} {L : List ℝ} {p : F32} {P : ℝ}, Nb e (111 / 10) p P →
    List.Forall₂ (Nb e (111 / 10)) l L →
    List.Forall₂ (Nb (7 / 4 * e + 106 / 2 ^ 24) 20) (@interpTail F32 (scalar el) p l) (interpTail P L)
  | [], _, _, _, _, h => by
    cases h
    exact .nil
  | [a], _, _, _, hp, h => by
    letI := scalar el
    cases h with
    | cons h1 h2 =>
      cases h2
      exact .cons (extrap_nb he h1 hp (by norm_num) (by norm_num)) (.cons (extrap_nb he h1 hp (by norm_num) (by norm_num)) .nil)
  | a :: b :: l, _, _, _, hp, h => by
    letI := scalar el
    cases h with
    | cons h1 h2 =>
      cases h2 with
      | cons h3 h4 =>
        have k : ∀ c : ℚ, 0 ≤ c → c ≤ 1 → _ := fun c c0 c1 => interp_nb he h1 h3 (c := c) c0 c1
        have ih := interpTail_nb he h1 (.cons h3 h4)
        exact .cons (k _ (by norm_num) (by norm_num)) (.cons (k _ (by norm_num) (by norm_num)) (.cons (k _ (by norm_num) (by norm_num))
          (.cons (k _ (by norm_num) (by norm_num)) ih)))

theorem interp_list_nb {e : ℝ} (he : e ≤ 1 / 2 ^ 10) {l : List F32} {L : List ℝ} (h : List.Forall₂ (Nb e (111 / 10)) l L) :
    List.Forall₂ (Nb (7 / 4 * e + 106 / 2 ^ 24) 20) (@snsInterp F32 (scalar el) l) (snsInterp L) := by
  cases h with
  | nil => exact .nil
  | cons h1 h2 =>
    have he0 : 0 ≤ e := (abs_nonneg _).trans h1.1.2
    have h1' := h1
    have k : Nb (7 / 4 * e + 106 / 2 ^ 24) 20 _ _ := ⟨h1.1.mono (by norm_num; linarith), h1.2.trans (by norm_num)⟩
    exact .cons k (.cons k (interpTail_nb he h1' (.cons h1 h2)))

/-- two to the power of a value near `t` -/
theorem pow_near {x t e : ℝ} (h : |x - t| ≤ e) (he : e ≤ 5 / 2 / 2 ^ 16) : |(2 : ℝ) ^ x - (2 : ℝ) ^ t| ≤ 1 / 2 ^ 15 * (2 : ℝ) ^ t := by
  have h2 : (2 : ℝ) ^ x = (2 : ℝ) ^ t * Real.exp ((x - t) * Real.log 2) := by
    rw [mul_comm (x - t), ← Real.rpow_def_of_pos (by norm_num), ← Real.rpow_add (by norm_num)]
    congr 1
    ring
  have hlog : Real.log 2 ≤ 7 / 10 := by have := Real.log_two_lt_d9; linarith
  have hlog0 : 0 ≤ Real.log 2 := Real.log_nonneg (by norm_num)
  have hz : |(x - t) * Real.log 2| ≤ 7 / 4 / 2 ^ 16 := by
    rw [abs_mul, abs_of_nonneg hlog0]
    have : |x - t| * Real.log 2 ≤ (5 / 2 / 2 ^ 16) * (7 / 10) := mul_le_mul (h.trans he) hlog hlog0 (by positivity)
    refine this.trans ?_
    norm_num
  have hp : 0 < (2 : ℝ) ^ t := Real.rpow_pos_of_pos (by norm_num) _
  rw [h2, show (2 : ℝ) ^ t * Real.exp ((x - t) * Real.log 2) - (2 : ℝ) ^ t = (Real.exp ((x - t) * Real.log 2) - 1) * (2 : ℝ) ^ t by ring,
    abs_mul, abs_of_pos hp]
  refine mul_le_mul_of_nonneg_right ?_ hp.le
  generalize (x - t) * Real.log 2 = z at *
  have h1 : |z| ≤ 1 := hz.trans (by norm_num)
  have := Real.abs_exp_sub_one_sub_id_le h1
  have k := abs_add_le (Real.exp z - 1 - z) z
  rw [sub_add_cancel] at k
  have k2 : z ^ 2 ≤ (1 / 2 ^ 15) * (1 / 2 ^ 15) := by
    rw [← sq_abs, sq]
    exact mul_le_mul (hz.trans (by norm_num)) (hz.trans (by norm_num)) (abs_nonneg _) (by norm_num)
  norm_num at *
  linarith

/-- a gain near the power of two -/
theorem exp_near {δ e t : ℝ} {q c : ℚ} (hδ : 0 ≤ δ) (hδ1 : δ ≤ 1 / 2) (hq : |(q : ℝ) - t| ≤ e) (he : e ≤ 5 / 2 / 2 ^ 16)
    (hc : |(c : ℝ) - (2 : ℝ) ^ (q : ℝ)| ≤ δ * (2 : ℝ) ^ (q : ℝ)) : |(c : ℝ) - (2 : ℝ) ^ t| ≤ (δ + 3 / 4 / 2 ^ 14) * (2 : ℝ) ^ t := by
  have h1 := pow_near hq he
  have hp : 0 < (2 : ℝ) ^ t := Real.rpow_pos_of_pos (by norm_num) _
  generalize (2 : ℝ) ^ t = G at *
  generalize (2 : ℝ) ^ (q : ℝ) = H at *
  have h2 : H ≤ G * (1 + 1 / 2 ^ 15) := by
    have := (abs_le.1 h1).2
    linarith
  have h3 : δ * H ≤ δ * (G * (1 + 1 / 2 ^ 15)) := mul_le_mul_of_nonneg_left h2 hδ
  have h4 : δ * G ≤ 1 / 2 * G := by nlinarith
  have := abs_add_le ((c : ℝ) - H) (H - G)
  rw [sub_add_sub_cancel] at this
  norm_num at *
  nlinarith

theorem mapM_rel {β γ δ : Type} {R : β → γ → Prop} {f : δ → Res β} {g : δ → Res γ} (h : ∀ i a, f i = .ok a → ∃ b, g i = .ok b ∧ R a b) :
    ∀ {l : List δ} {r : List β}, l.mapM f = .ok r → ∃ r', l.mapM g = .ok r' ∧ List.Forall₂ R r r'
  | [], r, e => by
    cases e
    exact ⟨[], rfl, .nil⟩
  | x :: l, r, e => by
    rw [mapM_cons'] at e
    obtain ⟨a, h1, e⟩ := bind_ok_inv e
    obtain ⟨r', h2, e⟩ := bind_ok_inv e
    cases e
    obtain ⟨b, h3, h4⟩ := h x a h1
    obtain ⟨r'', h5, h6⟩ := mapM_rel h h2
    refine ⟨b :: r'', ?_, .cons h4 h6⟩
    rw [mapM_cons', h3, Res.bind_ok, h5, Res.bind_ok]

theorem idx_rel {β γ : Type} {R : β → γ → Prop} {l : List β} {L : List γ} (h : List.Forall₂ R l L) {i : ℕ} {a : β} (e : idx l i = .ok a) :
    ∃ b, idx L i = .ok b ∧ R a b := by
  have h1 := idx_ok_iff.1 e
  obtain ⟨hi, h2⟩ := List.getElem?_eq_some_iff.1 h1
  have hl := h.length_eq
  refine ⟨L[i]'(by omega), idx_eq_ok (by omega), ?_⟩
  have := List.forall₂_iff_get.1 h
  have := this.2 i hi (by omega)
  simp only [List.get_eq_getElem] at this
  rw [← h2]
  exact this

theorem reduce_nb {nb : ℕ} {e : ℝ} (he : e ≤ 1 / 2 ^ 9) {f r : List F32} {F : List ℝ} (h : List.Forall₂ (Nb e 20) f F)
    (hr : @snsReduce F32 (scalar el) nb f = .ok r) :
    ∃ r', snsReduce nb F = .ok r' ∧ List.Forall₂ (Nb (e + 61 / 2 ^ 24) 20) r r' := by
  letI := scalar el
  have mono : ∀ a b, Nb e 20 a b → Nb (e + 61 / 2 ^ 24) 20 a b := fun a b k => ⟨k.1.mono (by norm_num), k.2⟩
  unfold snsReduce at hr
  obtain ⟨n2, h0, hr⟩ := bind_ok_inv hr
  split at hr
  · rename_i hn
    obtain ⟨x, h1, hr⟩ := bind_ok_inv hr
    obtain ⟨y, h2, hr⟩ := bind_ok_inv hr
    cases hr
    obtain ⟨x', k1, k2⟩ := mapM_rel (R := Nb (e + 61 / 2 ^ 24) 20)
      (g := fun i => do
        let x ← idx F (2 * i)
        let y ← idx F (2 * i + 1)
        .ok ((x + y) / ofRat 2)) (by
      intro i a ha
      obtain ⟨u, hu, ha⟩ := bind_ok_inv ha
      obtain ⟨v, hv, ha⟩ := bind_ok_inv ha
      cases ha
      obtain ⟨U, hU, bU, sU⟩ := idx_rel h hu
      obtain ⟨V, hV, bV, sV⟩ := idx_rel h hv
      have he0 : 0 ≤ e := (abs_nonneg _).trans bU.2
      refine ⟨(U + V) / ofRat 2, ?_, ?_, ?_⟩
      · rw [hU, Res.bind_ok, hV, Res.bind_ok]
      · have hs := abs_add_le U V
        have b1 := bU.add bV (M := 401 / 10) (by linarith) (by norm_num)
        have b2 := b1.divNat (n := 2) (by norm_num) (by norm_num) (M := 402 / 10) (by
          norm_num
          linarith) (by norm_num)
        have e2 : (ofRat 2 : ℝ) = ((2 : ℤ) : ℝ) := by show ((2 : ℚ) : ℝ) = _; push_cast; rfl
        have e3 : ((2 : ℤ) : ℚ) = 2 := by norm_num
        rw [e2]
        rw [e3] at b2
        refine b2.mono ?_
        norm_num
        linarith
      · have hs := abs_add_le U V
        have e2 : (ofRat 2 : ℝ) = 2 := by show ((2 : ℚ) : ℝ) = _; push_cast; rfl
        rw [e2, abs_div, abs_of_pos (by norm_num : (0 : ℝ) < 2)]
        linarith) h1
    obtain ⟨y', k3, k4⟩ := mapM_rel (R := Nb (e + 61 / 2 ^ 24) 20) (g := fun i => idx F (i + n2 + n2)) (by
      intro i a ha
      obtain ⟨b, hb, hR⟩ := idx_rel h ha
      exact ⟨b, hb, mono _ _ hR⟩) h2
    refine ⟨x' ++ y', ?_, List.rel_append k2 k4⟩
    unfold snsReduce
    rw [h0, Res.bind_ok, if_pos hn, k1, Res.bind_ok, k3, Res.bind_ok]
  · rename_i hn
    cases hr
    refine ⟨F, ?_, h.imp fun a b => mono a b⟩
    unfold snsReduce
    rw [h0, Res.bind_ok, if_neg hn]

/-- the factors of the bands in binary32 -/
theorem bandFactor_ab {nb : ℕ} (hnb : 32 ≤ nb) (h64 : nb ≤ 64) {l r : List F32} {s : ℕ → ℝ} (hl : l.length = 16) (hb : AllBd 11 l)
    (h : ∀ n < 16, Ab (s n) (1 / 2 ^ 16) (l.getD n (fin 0))) (hr : @snsReduce F32 (scalar el) nb (@snsInterp F32 (scalar el) l) = .ok r) :
    ∀ b < nb, ∃ a, r[b]? = some a ∧ Ab (bandFactor nb s b) (5 / 2 / 2 ^ 16) a ∧ |bandFactor nb s b| ≤ 20 := by
  intro b hbn
  have hF : List.Forall₂ (Nb (1 / 2 ^ 16) (111 / 10)) l ((List.range 16).map s) := by
    rw [List.forall₂_iff_get]
    refine ⟨by simp [hl], ?_⟩
    intro i h1 h2
    have hi : i < 16 := by omega
    have k := h i hi
    rw [getD_of_lt (d := fin 0) (by omega)] at k
    simp only [List.get_eq_getElem, List.getElem_map, List.getElem_range]
    refine ⟨k, ?_⟩
    have k2 := (hb _ (List.getElem_mem h1)).2
    have k3 := abs_sub_abs_le_abs_sub (s i) (val l[i])
    have k4 := k.2
    rw [abs_sub_comm] at k4
    norm_num at k2 k3 k4 ⊢
    linarith
  obtain ⟨r', e1, e2⟩ := reduce_nb (by norm_num) (interp_list_nb (el := el) (by norm_num) hF) hr
  have e3 := snsReduce_real hnb h64 (by simp) e1 b hbn
  have e4 : bandFactor nb (fun n => ((List.range 16).map s).getD n 0) b = bandFactor nb s b := by
    refine bandFactor_congr (fun n hn => ?_) b
    rw [getD_of_lt (by simpa using hn)]
    simp
  rw [e4] at e3
  obtain ⟨hb', e5⟩ := List.getElem?_eq_some_iff.1 e3
  have hlen := e2.length_eq
  have k := (List.forall₂_iff_get.1 e2).2 b (by omega) hb'
  simp only [List.get_eq_getElem] at k
  rw [e5] at k
  exact ⟨r[b]'(by omega), List.getElem?_eq_getElem _, k.1.mono (by norm_num), k.2⟩

/-- a line times a gain near `G` -/
theorem line_gain {δ G : ℝ} {x g : F32} (hδ : 0 ≤ δ) (hδ1 : δ ≤ 1 / 2) (hx : Bd (2 ^ 71) x) (hg : IsFin g) (hG : 0 < G) (hG2 : G ≤ 2 ^ 20)
    (h : |val g - G| ≤ (δ + 3 / 4 / 2 ^ 14) * G) :
    IsFin (F32.mul x g) ∧ |val (F32.mul x g) - val x * G| ≤ (δ + 1 / 2 ^ 14) * (|val x| * G) + 1 / 2 ^ 150 := by
  have h1 : |val g| ≤ 2 * G := by
    have := abs_sub_abs_le_abs_sub (val g) G
    rw [abs_of_pos hG] at this
    have : (δ + 3 / 4 / 2 ^ 14) * G ≤ 1 * G := mul_le_mul_of_nonneg_right (by norm_num; linarith) hG.le
    linarith
  have hx2 := hx.2
  have h2 : |val x * val g| ≤ |val x| * (2 * G) := by
    rw [abs_mul]
    exact mul_le_mul_of_nonneg_left h1 (abs_nonneg _)
  have h3 : |val x| * (2 * G) ≤ 2 ^ 71 * (2 * 2 ^ 20) := mul_le_mul hx2 (by linarith) (by positivity) (by norm_num)
  obtain ⟨m1, m2⟩ := mul_val hx.1 hg (h2.trans (h3.trans (by norm_num)))
  refine ⟨m1, ?_⟩
  have h4 : |val x * val g - val x * G| ≤ (δ + 3 / 4 / 2 ^ 14) * (|val x| * G) := by
    rw [← mul_sub, abs_mul]
    calc |val x| * |val g - G| ≤ |val x| * ((δ + 3 / 4 / 2 ^ 14) * G) := mul_le_mul_of_nonneg_left h (abs_nonneg _)
      _ = _ := by ring
  have h5 := abs_add_le (val (F32.mul x g) - val x * val g) (val x * val g - val x * G)
  rw [sub_add_sub_cancel] at h5
  have h6 : |val x * val g| / 2 ^ 24 ≤ |val x| * (2 * G) / 2 ^ 24 := div_le_div_of_nonneg_right h2 (by norm_num)
  have h7 : 0 ≤ |val x| * G := by positivity
  have h8 : |val x| * (2 * G) = 2 * (|val x| * G) := by ring
  rw [h8] at h6
  clear h2 h3 h1 hx2 hx h
  generalize |val x * val g| = z at *
  generalize |val x| * G = w at *
  norm_num at *
  nlinarith

/-- the gains of the decoder's bands -/
theorem decGain_ab (he : Tame el) {δ δ' : ℝ} (hp : Powers el δ δ') (hδ : 0 ≤ δ) (hδ1 : δ ≤ 1 / 2) {nb : ℕ} (hnb : 32 ≤ nb) (h64 : nb ≤ 64) {sns : SnsVq}
    {gs : List F32} (h : @snsGains F32 (scalar el) nb sns = .ok gs) :
    ∃ (lf hf : List ℚ) (y : List ℤ) (g : ℚ), LFCB[sns.indLf]? = some lf ∧ HFCB[sns.indHf]? = some hf ∧ snsPulses sns = .ok y ∧
      y.length = 16 ∧ snsGain sns = .ok g ∧ ∀ b < nb, IsFin (gs.getD b (fin 0)) ∧
        (2 : ℝ) ^ bandFactor nb (shapedFactor (fun n => ((lf ++ hf).getD n 0 : ℝ)) g (fun i => (y.getD i 0 : ℝ))
          (fun n i => ((D.getD n []).getD i 0 : ℝ))) b ≤ 2 ^ 20 ∧
        |val (gs.getD b (fin 0)) - (2 : ℝ) ^ bandFactor nb (shapedFactor (fun n => ((lf ++ hf).getD n 0 : ℝ)) g (fun i => (y.getD i 0 : ℝ))
          (fun n i => ((D.getD n []).getD i 0 : ℝ))) b| ≤ (δ + 3 / 4 / 2 ^ 14) *
          (2 : ℝ) ^ bandFactor nb (shapedFactor (fun n => ((lf ++ hf).getD n 0 : ℝ)) g (fun i => (y.getD i 0 : ℝ))
          (fun n i => ((D.getD n []).getD i 0 : ℝ))) b := by
  letI := scalar el
  unfold snsGains at h
  obtain ⟨scf, e1, h⟩ := bind_ok_inv h
  obtain ⟨fs, e2, h⟩ := bind_ok_inv h
  simp only [Res.ok.injEq] at h
  obtain ⟨lf, hf, y, g, a1, a2, a3, a4, a5, a6, a7⟩ := scaleFactors_ab he.toAccurate e1
  refine ⟨lf, hf, y, g, a1, a2, a3, a4, a5, fun b hb => ?_⟩
  obtain ⟨a, k1, k2, k3⟩ := bandFactor_ab hnb h64 a6 (bd_scaleFactors he e1) a7 e2 b hb
  have hg : gs.getD b (fin 0) = el.exp2Raw a := by
    rw [← h, List.getD_eq_getElem?_getD, List.getElem?_map, List.getElem?_take_of_lt hb, k1]
    rfl
  rw [hg]
  generalize bandFactor nb _ b = t at *
  obtain ⟨q, rfl⟩ := k2.1
  have hq : |(q : ℝ) - t| ≤ 5 / 2 / 2 ^ 16 := k2.2
  obtain ⟨c, c1, c2⟩ := hp.raw q (by
    have : |(q : ℝ)| ≤ ((32 : ℚ) : ℝ) := by
      have := abs_sub_abs_le_abs_sub (q : ℝ) t
      norm_num at *
      linarith
    exact_mod_cast this)
  rw [c1]
  refine ⟨⟨c, rfl⟩, ?_, exp_near hδ hδ1 hq le_rfl c2⟩
  calc (2 : ℝ) ^ t ≤ (2 : ℝ) ^ (20 : ℝ) := Real.rpow_le_rpow_of_exponent_le (by norm_num) ((le_abs_self _).trans k3)
    _ = 2 ^ 20 := by rw [← Real.rpow_natCast]; norm_num

end F32
end Lc3
