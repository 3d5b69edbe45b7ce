import Verif.Props.NoiseLevel
import Verif.Props.CodecError32
/-! # C119 in binary32 -/

namespace Lc3
open Scalar Spec F32

/-- the quantisation of the level in binary32 -/
theorem noiseQuant_err_f32 (el : Elem) {l : F32} (hl : IsFin l) (h0 : 0 ≤ val l) (hb : val l ≤ 4) :
    |(8 - (@noiseQuant F32 (scalar el) l : ℝ)) / 16 - max (1 / 16) (min (1 / 2) (val l))| ≤ 1 / 32 + 1 / 2 ^ 18 := by
  have h8 : rnd 8 = fin 8 := by simpa using rnd_int (n := 8) (by norm_num)
  have h16 : rnd 16 = fin 16 := by simpa using rnd_int (n := 16) (by norm_num)
  have hz : rnd 0 = .fin 0 := by unfold rnd; rw [rndQ_zero]; norm_num
  have v8 : val (fin 8) = 8 := by show ((8 : ℚ) : ℝ) = 8; norm_num
  have v16 : val (fin 16) = 16 := by show ((16 : ℚ) : ℝ) = 16; norm_num
  have hh : rnd (1 / 2) = fin (1 / 2) := by
    rw [rnd_fin (by norm_num [abs_le]), rndQ_rep ⟨1, -1, by norm_num, by norm_num, by norm_num⟩]
  have vh : val (fin (1 / 2)) = 1 / 2 := by show ((1 / 2 : ℚ) : ℝ) = 1 / 2; norm_num
  have a1 : |val (fin 16) * val l| ≤ 64 := by
    rw [v16, abs_of_nonneg (by linarith)]; linarith
  obtain ⟨m1, m2⟩ := mul_val (a := fin 16) ⟨16, rfl⟩ hl (a1.trans (by norm_num))
  have m3 : |val (F32.mul (fin 16) l) - 16 * val l| ≤ 1 / 2 ^ 17 := by
    rw [v16] at m2 a1
    norm_num at m2 a1 ⊢
    linarith
  set m := F32.mul (fin 16) l with hm
  rw [abs_le] at m3
  have a2 : |val (fin 8) - val m| ≤ 80 := by
    rw [v8, abs_le]
    norm_num at m3 ⊢
    constructor <;> linarith [m3.1, m3.2]
  obtain ⟨s1, s2⟩ := sub_val (a := fin 8) ⟨8, rfl⟩ m1 (a2.trans (by norm_num))
  set s := F32.sub (fin 8) m with hs
  have s3 : |val s - (8 - 16 * val l)| ≤ 1 / 2 ^ 16 := by
    rw [v8] at s2 a2
    rw [abs_le] at s2 ⊢
    norm_num at m3 s2 a2 ⊢
    constructor <;> linarith [m3.1, m3.2, s2.1, s2.2]
  have a3 : |val s + val (fin (1 / 2))| ≤ 80 := by
    rw [vh]
    rw [abs_le] at s3 ⊢
    norm_num at s3 ⊢
    constructor <;> linarith [s3.1, s3.2]
  obtain ⟨t1, t2⟩ := add_val s1 (b := fin (1 / 2)) ⟨_, rfl⟩ (a3.trans (by norm_num))
  have t3 : |val (F32.add s (fin (1 / 2))) - (8 - 16 * val l + 1 / 2)| ≤ 1 / 2 ^ 15 := by
    rw [vh] at t2 a3
    rw [abs_le] at s3 t2 ⊢
    norm_num at s3 t2 a3 ⊢
    constructor <;> linarith [s3.1, s3.2, t2.1, t2.2]
  have hcode : @noiseQuant F32 (scalar el) l =
      if @geS F32 (scalar el) s (fin 0) = true then i32AsUsize (min 7 (F32.toI32 (F32.add s (fin (1 / 2))))) else 0 := by
    unfold noiseQuant
    show (if @geS F32 (scalar el) (F32.sub (rnd 8) (F32.mul (rnd 16) l)) (rnd 0) = true then
      i32AsUsize (min 7 (F32.toI32 (F32.add (F32.sub (rnd 8) (F32.mul (rnd 16) l)) (rnd (1 / 2))))) else 0) = _
    rw [h8, h16, hz, hh]
  rw [hcode]
  obtain ⟨sq, hsq⟩ := s1
  have hge : @geS F32 (scalar el) s (fin 0) = true ↔ 0 ≤ val s := by
    rw [hsq]
    show (decide (0 < sq) || decide (sq = 0)) = true ↔ 0 ≤ (sq : ℝ)
    rw [Bool.or_eq_true, decide_eq_true_eq, decide_eq_true_eq, show (0 : ℝ) ≤ (sq : ℝ) ↔ 0 ≤ sq by exact_mod_cast Iff.rfl,
      le_iff_lt_or_eq]
    exact or_congr Iff.rfl eq_comm
  by_cases hc : 0 ≤ val s
  · rw [if_pos (hge.2 hc)]
    have tq : 0 ≤ sq + 1 / 2 := by
      have : (0 : ℝ) ≤ (sq : ℝ) := by rw [hsq] at hc; exact hc
      have : (0 : ℚ) ≤ sq := by exact_mod_cast this
      linarith
    have hta : F32.add s (fin (1 / 2)) = rnd (sq + 1 / 2) := by rw [hsq]; rfl
    have hi := toI32_nonneg tq
    obtain ⟨q, hq⟩ := t1
    rw [← hta, hq] at hi
    rw [hq] at t3 ⊢
    have hq0 : 0 ≤ q := by
      have : (0 : ℝ) ≤ (q : ℝ) := by
        change |(q : ℝ) - _| ≤ _ at t3
        rw [abs_le] at t3 s3
        norm_num at t3 s3
        linarith [t3.1, s3.2]
      exact_mod_cast this
    have e : i32AsUsize (min 7 (F32.toI32 (fin q))) = min 7 ⌊q⌋.toNat := by
      show i32AsUsize (min 7 (max (-2147483648) (min 2147483647 (truncQ q)))) = _
      unfold truncQ
      rw [if_pos hq0, i32AsUsize_min7 (Int.floor_nonneg.2 hq0)]
    rw [e]
    change |(q : ℝ) - _| ≤ _ at t3
    obtain ⟨f, hf⟩ : ∃ f : Nat, ⌊q⌋ = (f : ℤ) := ⟨_, (Int.toNat_of_nonneg (Int.floor_nonneg.2 hq0)).symm⟩
    have f1 : (f : ℝ) ≤ (q : ℝ) := by
      have := Int.floor_le q
      rw [hf] at this
      exact_mod_cast this
    have f2 : (q : ℝ) < f + 1 := by
      have := Int.lt_floor_add_one q
      rw [hf] at this
      exact_mod_cast this
    rw [hf, Int.toNat_natCast]
    rw [abs_le] at t3 s3
    norm_num at t3 s3
    obtain ⟨t4, t5⟩ := t3
    obtain ⟨s4, s5⟩ := s3
    have hhalf : min (1 / 2) (val l) ≤ val l ∧ val l - 1 / 2 ^ 19 ≤ min (1 / 2) (val l) := by
      refine ⟨min_le_right _ _, le_min ?_ ?_⟩ <;> norm_num <;> linarith
    generalize min (1 / 2) (val l) = w at hhalf ⊢
    obtain ⟨w1, w2⟩ := hhalf
    norm_num at w2
    rcases Nat.lt_or_ge f 8 with h8' | h8'
    · rw [min_eq_right (by omega : f ≤ 7)]
      have h7 : (f : ℝ) ≤ 7 := by exact_mod_cast (by omega : f ≤ 7)
      rcases le_total w (1 / 16) with h3 | h3
      · rw [max_eq_left h3, abs_le]
        norm_num
        constructor <;> linarith
      · rw [max_eq_right h3, abs_le]
        norm_num
        constructor <;> linarith
    · rw [min_eq_left (by omega : 7 ≤ f)]
      have h7 : (8 : ℝ) ≤ f := by exact_mod_cast h8'
      rw [max_eq_left (by linarith), abs_le]
      norm_num
  · rw [if_neg (fun h => hc (hge.1 h))]
    rw [abs_le] at s3
    norm_num at s3
    have hw : 1 / 2 - 1 / 2 ^ 19 ≤ min (1 / 2) (val l) := le_min (by norm_num) (by norm_num; linarith [s3.1])
    have hw2 : min (1 / 2) (val l) ≤ 1 / 2 := min_le_left _ _
    generalize min (1 / 2) (val l) = w at hw hw2 ⊢
    norm_num at hw
    rw [max_eq_right (by linarith), abs_le]
    norm_num at hw2 ⊢
    constructor <;> linarith

theorem foldl_abs_div_f32 (el : Elem) {g : F32} (hg : IsFin g) (hpos : 0 < val g) : ∀ (l : List F32) (k : Nat) (s : F32) (S : ℝ),
    (∀ x ∈ l, IsFin x ∧ |val x| ≤ val g) → k + l.length ≤ 400 → IsFin s → 0 ≤ S → S ≤ k → |val s - S| ≤ k / 2 ^ 14 →
    IsFin (l.foldl (fun s x => F32.add s (F32.div (absF x) g)) s) ∧
      |val (l.foldl (fun s x => F32.add s (F32.div (absF x) g)) s) - (S + (l.map fun x => |val x|).sum / val g)| ≤
        ((k : ℝ) + (l.length : ℝ)) / 2 ^ 14 := by
  intro l
  induction l with
  | nil =>
    intro k s S _ _ hs _ _ he
    refine ⟨hs, ?_⟩
    simpa using he
  | cons a l ih =>
    intro k s S hl hk hs h0 hS he
    obtain ⟨⟨q, rfl⟩, ha⟩ := hl a List.mem_cons_self
    have ea : val (absF (fin q)) = |val (fin q)| := by
      show ((|q| : ℚ) : ℝ) = |(q : ℝ)|
      push_cast
      rfl
    have hr0 : 0 ≤ |val (fin q)| / val g := div_nonneg (abs_nonneg _) hpos.le
    have hr1 : |val (fin q)| / val g ≤ 1 := by rw [div_le_one hpos]; exact ha
    obtain ⟨d1, d2⟩ := div_val (a := absF (fin q)) (b := g) ⟨|q|, rfl⟩ hg hpos.ne'
      (by rw [ea, abs_of_nonneg hr0]; exact hr1.trans (by norm_num))
    rw [ea, abs_of_nonneg hr0] at d2
    have hk' : (k : ℝ) ≤ 399 := by
      rw [List.length_cons] at hk
      exact_mod_cast (by omega : k ≤ 399)
    obtain ⟨dv, hd⟩ : ∃ dv, F32.div (absF (fin q)) g = dv := ⟨_, rfl⟩
    rw [hd] at d1 d2
    generalize hr : |val (fin q)| / val g = r at d2 hr0 hr1
    rw [abs_le] at he d2
    norm_num at he d2
    have hsum : |val s + val dv| ≤ 512 := by
      rw [abs_le]
      constructor <;> linarith [he.1, he.2, d2.1, d2.2]
    obtain ⟨p1, p2⟩ := add_val hs d1 (hsum.trans (by norm_num))
    rw [abs_le] at p2
    norm_num at p2
    have key := ih (k + 1) (F32.add s dv) (S + r) (fun x hx => hl x (List.mem_cons_of_mem _ hx))
      (by rw [List.length_cons] at hk; omega) p1 (by linarith) (by push_cast; linarith)
      (by
        rw [abs_le]
        push_cast
        norm_num
        constructor <;> linarith [he.1, he.2, d2.1, d2.2, p2.1, p2.2])
    rw [List.foldl_cons, List.map_cons, List.sum_cons, List.length_cons, add_div, hr]
    rw [hd]
    refine ⟨key.1, ?_⟩
    have := key.2
    push_cast at this ⊢
    rw [show S + (r + (l.map fun x => |val x|).sum / val g) = S + r + (l.map fun x => |val x|).sum / val g by ring,
      show (k : ℝ) + ((l.length : ℝ) + 1) = (k : ℝ) + 1 + (l.length : ℝ) by ring]
    exact this

theorem val_rnd_nonneg {q : ℚ} (h : 0 ≤ q) : 0 ≤ val (rnd q) := by
  have h1 := rndQ_nonneg h
  unfold rnd
  split
  · exact le_rfl
  split
  · exact le_rfl
  · show (0 : ℝ) ≤ ((rndQ q : ℚ) : ℝ)
    exact_mod_cast h1

theorem val_div_nonneg {a b : ℚ} (ha : 0 ≤ a) (hb : 0 < b) : 0 ≤ val (F32.div (fin a) (fin b)) := by
  show 0 ≤ val (if b = 0 then _ else rnd (a / b))
  rw [if_neg hb.ne']
  exact val_rnd_nonneg (div_nonneg ha hb.le)

theorem val_add_nonneg {a b : F32} (ha : 0 ≤ val a) (hb : 0 ≤ val b) : 0 ≤ val (F32.add a b) := by
  cases a with
  | nan => exact le_rfl
  | inf s =>
    cases b with
    | nan => exact le_rfl
    | inf t => show 0 ≤ val (if s = t then inf s else nan); split <;> exact le_rfl
    | fin q => exact le_rfl
  | fin p =>
    cases b with
    | nan => exact le_rfl
    | inf t => exact le_rfl
    | fin q =>
      have hp : (0 : ℚ) ≤ p := by
        have : (0 : ℝ) ≤ (p : ℝ) := ha
        exact_mod_cast this
      have hq : (0 : ℚ) ≤ q := by
        have : (0 : ℝ) ≤ (q : ℝ) := hb
        exact_mod_cast this
      exact val_rnd_nonneg (add_nonneg hp hq)

theorem foldl_div_nonneg {g : F32} (hg : IsFin g) (hpos : 0 < val g) : ∀ (l : List F32) (s : F32), (∀ x ∈ l, IsFin x) → 0 ≤ val s →
    0 ≤ val (l.foldl (fun s x => F32.add s (F32.div (absF x) g)) s) := by
  intro l
  induction l with
  | nil => intro s _ h; exact h
  | cons a l ih =>
    intro s hl h
    refine ih _ (fun x hx => hl x (List.mem_cons_of_mem _ hx)) (val_add_nonneg h ?_)
    obtain ⟨q, rfl⟩ := hl a List.mem_cons_self
    obtain ⟨p, rfl⟩ := hg
    have hp : (0 : ℚ) < p := by
      have : (0 : ℝ) < (p : ℝ) := hpos
      exact_mod_cast this
    exact val_div_nonneg (abs_nonneg q) hp

/-- the mean level in binary32 -/
theorem meanLevel_f32 (el : Elem) {g : F32} (hg : IsFin g) (hpos : 0 < val g) {l : List F32}
    (hl : ∀ x ∈ l, IsFin x ∧ |val x| ≤ val g) (hlen : l.length ≤ 400) :
    IsFin (@meanLevel F32 (scalar el) g l) ∧ |val (@meanLevel F32 (scalar el) g l) - meanAbs (l.map val) / val g| ≤ 1 / 2 ^ 13 ∧
      0 ≤ val (@meanLevel F32 (scalar el) g l) ∧ val (@meanLevel F32 (scalar el) g l) ≤ 4 := by
  have hz : rnd 0 = .fin 0 := by unfold rnd; rw [rndQ_zero]; norm_num
  have v0 : val (fin 0) = 0 := by show ((0 : ℚ) : ℝ) = 0; norm_num
  unfold meanLevel
  split
  · rename_i h
    rw [h]
    show IsFin (rnd 0) ∧ _ ∧ 0 ≤ val (rnd 0) ∧ val (rnd 0) ≤ 4
    rw [show val (@zero F32 (scalar el)) = val (rnd 0) from rfl, hz, v0]
    refine ⟨⟨0, rfl⟩, ?_, le_rfl, by norm_num⟩
    simp [meanAbs]
  · rename_i h
    have hpl : 0 < l.length := List.length_pos_iff.2 h
    obtain ⟨s1, s2⟩ := foldl_abs_div_f32 el hg hpos l 0 (fin 0) 0 hl (by omega) ⟨0, rfl⟩ le_rfl (by norm_num) (by rw [v0]; norm_num)
    have hc : rnd ((l.length : ℤ) : ℚ) = fin ((l.length : ℤ) : ℚ) := rnd_int (by rw [abs_le]; omega)
    show IsFin (F32.div (l.foldl (fun s x => F32.add s (F32.div (absF x) g)) (rnd 0)) (rnd ((l.length : ℤ) : ℚ))) ∧ 
      |val (F32.div (l.foldl (fun s x => F32.add s (F32.div (absF x) g)) (rnd 0)) (rnd ((l.length : ℤ) : ℚ))) - _| ≤ _ ∧
      0 ≤ val (F32.div (l.foldl (fun s x => F32.add s (F32.div (absF x) g)) (rnd 0)) (rnd ((l.length : ℤ) : ℚ))) ∧
      val (F32.div (l.foldl (fun s x => F32.add s (F32.div (absF x) g)) (rnd 0)) (rnd ((l.length : ℤ) : ℚ))) ≤ 4
    rw [hz, hc]
    obtain ⟨S, hS⟩ : ∃ S, l.foldl (fun s x => F32.add s (F32.div (absF x) g)) (fin 0) = S := ⟨_, rfl⟩
    rw [hS] at s1 s2 ⊢
    have hn0 : (0 : ℝ) < (l.length : ℝ) := by exact_mod_cast hpl
    have vn : val (fin ((l.length : ℤ) : ℚ)) = (l.length : ℝ) := by
      show (((l.length : ℤ) : ℚ) : ℝ) = _
      push_cast
      rfl
    have hmean : meanAbs (l.map val) / val g = (l.map fun x => |val x|).sum / val g / (l.length : ℝ) := by
      unfold meanAbs
      rw [List.map_map, List.length_map, div_right_comm]
      rfl
    have hm := meanAbs_le (c := val g) hpos.le (l := l.map val) (by
      intro x hx
      obtain ⟨y, hy, rfl⟩ := List.mem_map.1 hx
      exact (hl y hy).2)
    have hm0 : 0 ≤ meanAbs (l.map val) / val g := div_nonneg hm.1 hpos.le
    have hm1 : meanAbs (l.map val) / val g ≤ 1 := by rw [div_le_one hpos]; exact hm.2
    have hquo : |val S / (l.length : ℝ) - meanAbs (l.map val) / val g| ≤ 1 / 2 ^ 14 := by
      rw [hmean, ← sub_div, abs_div, abs_of_pos hn0, div_le_iff₀ hn0]
      have : |val S - (l.map fun x => |val x|).sum / val g| ≤ (l.length : ℝ) / 2 ^ 14 := by simpa using s2
      linarith
    have hS0 : 0 ≤ val S := by
      rw [← hS]
      exact foldl_div_nonneg hg hpos l (fin 0) (fun x hx => (hl x hx).1) (by rw [v0]) 
    rw [abs_le] at hquo
    norm_num at hquo
    have hb : |val S / (l.length : ℝ)| ≤ 2 := by
      rw [abs_of_nonneg (div_nonneg hS0 hn0.le)]
      linarith [hquo.2]
    obtain ⟨e1, e2⟩ := div_val s1 (b := fin ((l.length : ℤ) : ℚ)) ⟨_, rfl⟩ (by rw [vn]; exact hn0.ne') (by rw [vn]; exact hb.trans (by norm_num))
    rw [vn] at e2
    have e3 : 0 ≤ val (F32.div S (fin ((l.length : ℤ) : ℚ))) := by
      obtain ⟨q, rfl⟩ := s1
      have hq : 0 ≤ q := by
        have : (0 : ℝ) ≤ (q : ℝ) := hS0
        exact_mod_cast this
      exact val_div_nonneg hq (by exact_mod_cast hpl)
    generalize F32.div S (fin ((l.length : ℤ) : ℚ)) = dv at e1 e2 e3 ⊢
    rw [abs_le] at e2
    norm_num at e2 hb
    refine ⟨e1, ?_, e3, ?_⟩
    · rw [abs_le]
      norm_num
      constructor <;> linarith [e2.1, e2.2, hquo.1, hquo.2]
    · linarith [e2.1, e2.2, hquo.1, hquo.2]

/-- the level of the decoder is exact in binary32 -/
theorem noiseLevel_f32_eq (el : Elem) {n : Nat} (h : n ≤ 7) :
    IsFin (@noiseLevel F32 (scalar el) n) ∧ val (@noiseLevel F32 (scalar el) n) = (8 - (n : ℝ)) / 16 := by
  have h8 : rnd 8 = fin 8 := by simpa using rnd_int (n := 8) (by norm_num)
  have h16 : rnd 16 = fin 16 := by simpa using rnd_int (n := 16) (by norm_num)
  have hn : rnd (n : ℚ) = fin n := by simpa using rnd_int (n := n) (by rw [abs_le]; omega)
  have hs : rnd ((8 : ℚ) + -(n : ℚ)) = fin (((8 - n : ℤ) : ℚ)) := by
    have := rnd_int (n := 8 - n) (by rw [abs_le]; omega)
    rw [← this]
    congr 1
    push_cast
    ring
  have e : @noiseLevel F32 (scalar el) n = fin (((8 - n : ℤ) : ℚ) / 16) := by
    unfold noiseLevel
    show F32.div (F32.sub (rnd 8) (rnd (n : ℚ))) (rnd 16) = _
    rw [h8, h16, hn]
    show F32.div (rnd ((8 : ℚ) + -(n : ℚ))) (fin 16) = _
    rw [hs]
    show (if (16 : ℚ) = 0 then (if (((8 - n : ℤ) : ℚ)) = 0 then nan else inf (decide (((8 - n : ℤ) : ℚ) < 0))) else
      rnd (((8 - n : ℤ) : ℚ) / 16)) = _
    rw [if_neg (by norm_num)]
    exact rnd_sixteenth (by rw [abs_lt]; omega)
  rw [e]
  refine ⟨⟨_, rfl⟩, ?_⟩
  show ((((8 - n : ℤ) : ℚ) / 16 : ℚ) : ℝ) = _
  push_cast
  rfl

/-- the number of empty lines is at most the number of lines of the band -/
theorem emptyLines_length (d : FrameDuration) {bw : Nat} (hb : bw ≤ 4) (xq : List Int) (xf : List F32) :
    (emptyLines d bw xq xf).length ≤ 400 := by
  classical
  unfold emptyLines
  rw [List.length_map]
  have h1 : xf.zipIdx.filter (fun p => decide (Empty d bw xq p.2)) =
      (xf.take (bandLimit d bw)).zipIdx.filter (fun p => decide (Empty d bw xq p.2)) := by
    conv_lhs => rw [← List.take_append_drop (bandLimit d bw) xf, List.zipIdx_append, List.filter_append]
    refine (congrArg _ ?_).trans (List.append_nil _)
    rw [List.filter_eq_nil_iff]
    rintro ⟨x, i⟩ hp
    have h2 := List.le_snd_of_mem_zipIdx hp
    have h3 : (xf.drop (bandLimit d bw)) ≠ [] := by
      intro h
      rw [h] at hp
      simp at hp
    have h4 : bandLimit d bw < xf.length := by
      by_contra hc
      exact h3 (List.drop_eq_nil_of_le (by omega))
    simp only [decide_eq_true_eq]
    rintro ⟨-, a, -⟩
    rw [List.length_take, min_eq_left h4.le] at h2
    simp only at a h2
    omega
  rw [h1]
  refine (List.length_filter_le _ _).trans ?_
  rw [List.length_zipIdx, List.length_take]
  have : bandLimit d bw ≤ 400 := by cases d <;> simp only [bandLimit] <;> omega
  omega

/-- **C119** (binary32) The same with the arithmetic of the code: if the gain is a number of at least `2 ^ -100` and the empty lines are
numbers of at most the gain (the quantiser leaves only lines below 0.63 of the gain empty, C97), the bound of half a step grows by the
rounding errors to `gg / 32 + gg / 2 ^ 12`. -/
theorem C119_f32 (el : Elem) (d : FrameDuration) {bw ne nbits fsInd ggInd seed : Nat} (hb : bw ≤ 4) {xf lines : List F32} {xq : List Int}
    {gg : F32} (hgg : gg = @globalGainFactor F32 (scalar el) nbits fsInd ggInd) (hfin : IsFin gg) (hlo : 1 / 2 ^ 100 ≤ val gg)
    (hhi : val gg ≤ 2 ^ 100) (hs : seed < 65536) (hx : ∀ x ∈ emptyLines d bw xq xf, IsFin x ∧ |val x| ≤ val gg)
    (hl : bandLimit d bw ≤ xq.length) (hn : bandLimit d bw ≤ ne) (hf : bandLimit d bw ≤ xf.length) :
    ∃ n l, @noiseFactor F32 (scalar el) d ne xf xq bw gg = .ok n ∧ n ≤ 7 ∧
      @noiseFilling F32 (scalar el) false seed bw d n xq lines = .ok l ∧
      ∀ k, k < lines.length → Empty d bw xq k → ∃ v, (@globalGain F32 (scalar el) nbits fsInd ggInd l)[k]? = some v ∧ IsFin v ∧
        |(|val v| - max (val gg / 16) (min (val gg / 2) (meanAbs ((emptyLines d bw xq xf).map val))))| ≤
          val gg / 32 + val gg / 2 ^ 12 := by
  letI := scalar el
  have hpos : 0 < val gg := lt_of_lt_of_le (by positivity) hlo
  refine ⟨_, _, C39_lines d hb gg hl hn hf, C39_range el _, (C13 d _ lines hb hs hl).1, ?_⟩
  intro k hk he
  unfold globalGain
  rw [List.getElem?_map, List.getElem?_map, List.getElem?_zipIdx, List.getElem?_eq_getElem hk]
  obtain ⟨m1, m2, m3, m4⟩ := meanLevel_f32 el hfin hpos hx (emptyLines_length d hb xq xf)
  have hq := C39_range el (meanLevel gg (emptyLines d bw xq xf))
  have herr := noiseQuant_err_f32 el m1 m3 m4
  generalize hN : noiseQuant (meanLevel gg (emptyLines d bw xq xf)) = n at hq herr ⊢
  obtain ⟨l1, l2⟩ := noiseLevel_f32_eq el hq
  have hq' : (n : ℝ) ≤ 7 := by exact_mod_cast hq
  have hn0 : (0 : ℝ) ≤ (n : ℝ) := Nat.cast_nonneg _
  have hv : ∃ w, filledLine d bw seed n xq (0 + k) lines[k] = w ∧ IsFin w ∧ |val w| = (8 - (n : ℝ)) / 16 := by
    have h0 : 0 ≤ (8 - (n : ℝ)) / 16 := by linarith
    rw [Nat.zero_add]
    rcases C13_level (seed := seed) (nf := n) lines[k] he with h | h
    · exact ⟨_, h, l1, by rw [l2, abs_of_nonneg h0]⟩
    · obtain ⟨g1, g2⟩ := neg_val l1
      exact ⟨_, h, g1, by
        show |val (F32.neg _)| = _
        rw [g2, abs_neg, l2, abs_of_nonneg h0]⟩
  obtain ⟨w, hw, w1, w2⟩ := hv
  refine ⟨_, rfl, ?_⟩
  simp only
  rw [hw, ← hgg]
  have hprod : |val w * val gg| = (8 - (n : ℝ)) / 16 * val gg := by rw [abs_mul, w2, abs_of_pos hpos]
  have hp2 : (8 - (n : ℝ)) / 16 * val gg ≤ val gg := by
    calc (8 - (n : ℝ)) / 16 * val gg ≤ 1 * val gg := mul_le_mul_of_nonneg_right (by linarith) hpos.le
      _ = val gg := one_mul _
  obtain ⟨p1, p2⟩ := mul_val w1 hfin (by rw [hprod]; exact hp2.trans (hhi.trans (by norm_num)))
  refine ⟨p1, ?_⟩
  have q1 : |(|val (F32.mul w gg)| - (8 - (n : ℝ)) / 16 * val gg)| ≤ val gg / 2 ^ 23 := by
    rw [← hprod]
    refine (abs_abs_sub_abs_le_abs_sub _ _).trans (p2.trans ?_)
    rw [hprod]
    norm_num at hlo hp2 ⊢
    linarith
  generalize meanAbs ((emptyLines d bw xq xf).map val) = M at m2 ⊢
  have hcl : |max (1 / 16) (min (1 / 2) (val (meanLevel gg (emptyLines d bw xq xf)))) - max (1 / 16) (min (1 / 2) (M / val gg))| ≤ 1 / 2 ^ 13 := by
    refine le_trans ?_ m2
    refine (abs_max_sub_max_le_max _ _ _ _).trans ?_
    rw [sub_self, abs_zero, max_eq_right (abs_nonneg _)]
    refine (abs_min_sub_min_le_max _ _ _ _).trans ?_
    rw [sub_self, abs_zero, max_eq_right (abs_nonneg _)]
  have hm : max (val gg / 16) (min (val gg / 2) M) = max (1 / 16) (min (1 / 2) (M / val gg)) * val gg := by
    rw [max_mul_of_nonneg _ _ hpos.le, min_mul_of_nonneg _ _ hpos.le, div_mul_cancel₀ _ hpos.ne']
    congr 1
    · ring
    · congr 1; ring
  rw [hm]
  generalize max (1 / 16) (min (1 / 2) (val (meanLevel gg (emptyLines d bw xq xf)))) = A at herr hcl
  generalize max (1 / 16) (min (1 / 2) (M / val gg)) = B at hcl ⊢
  have hAB : |(8 - (n : ℝ)) / 16 - B| ≤ 1 / 32 + 1 / 2 ^ 18 + 1 / 2 ^ 13 := by
    have := abs_add_le ((8 - (n : ℝ)) / 16 - A) (A - B)
    rw [sub_add_sub_cancel] at this
    linarith
  have q2 : |(8 - (n : ℝ)) / 16 * val gg - B * val gg| ≤ (1 / 32 + 1 / 2 ^ 18 + 1 / 2 ^ 13) * val gg := by
    rw [← sub_mul, abs_mul, abs_of_pos hpos]
    exact mul_le_mul_of_nonneg_right hAB hpos.le
  have := abs_add_le (|val (F32.mul w gg)| - (8 - (n : ℝ)) / 16 * val gg) ((8 - (n : ℝ)) / 16 * val gg - B * val gg)
  rw [sub_add_sub_cancel] at this
  change |(|val (F32.mul w gg)| - B * val gg)| ≤ _
  norm_num at q1 q2 this ⊢
  linarith

/-- a gain of one and 80 lines of a quarter, all quantised to zero, meet the hypotheses -/
example : let el : Elem := ⟨id, id, fin, fin, fin 0, fun _ => fin 1, id, id, id, id, id, fun x _ => x⟩
    @globalGainFactor F32 (scalar el) 800 4 100 = fin 1 ∧ IsFin (fin 1) ∧ 1 / 2 ^ 100 ≤ val (fin 1) ∧ val (fin 1) ≤ 2 ^ 100 ∧
      (∀ x ∈ emptyLines .tenMs 0 (List.replicate 80 0) (List.replicate 80 (fin (1 / 4))), IsFin x ∧ |val x| ≤ val (fin 1)) ∧
      bandLimit .tenMs 0 ≤ (List.replicate 80 (0 : Int)).length := by
  have v1 : val (fin 1) = 1 := by show ((1 : ℚ) : ℝ) = 1; norm_num
  refine ⟨rfl, ⟨1, rfl⟩, by rw [v1]; norm_num, by rw [v1]; norm_num, ?_, by rw [List.length_replicate]; decide⟩
  intro x hx
  classical
  unfold emptyLines at hx
  rw [List.mem_map] at hx
  obtain ⟨⟨y, k⟩, hp, rfl⟩ := hx
  rw [List.mem_filter, List.mem_zipIdx_iff_getElem?, List.getElem?_replicate] at hp
  have hy : y = fin (1 / 4) := by
    have := hp.1
    split at this
    · exact (Option.some.inj this).symm
    · cases this
  rw [hy, v1]
  refine ⟨⟨_, rfl⟩, ?_⟩
  show |((1 / 4 : ℚ) : ℝ)| ≤ 1
  norm_num [abs_le]

end Lc3
