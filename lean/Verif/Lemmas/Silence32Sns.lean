import Verif.Lemmas.Silence32Enc
import Verif.Spec.Silence32
/-!
# Digital silence in binary32: noise shaping

The logarithms of all bands are the same number, the scale factors are zero up to rounding errors, and the residual of the first stage
of the quantiser has an entry that is not zero where the pulse of shape 0 is searched.
-/

namespace Lc3
open Scalar Tables Spec
namespace F32

variable {el : Elem}

/-- a finite value near `t` -/
def Ab (t e : ℝ) (a : F32) : Prop := IsFin a ∧ |val a - t| ≤ e

theorem Ab.bd {t e B : ℝ} {a : F32} (h : Ab t e a) (hB : |t| + e ≤ B) : Bd B a := by
  refine ⟨h.1, ?_⟩
  have h1 := abs_sub_abs_le_abs_sub (val a) t
  have h2 := h.2
  linarith

theorem Bd.ab {B : ℝ} {a : F32} (h : Bd B a) : Ab 0 B a := ⟨h.1, by rw [sub_zero]; exact h.2⟩

theorem Ab.mono {t e e' : ℝ} {a : F32} (h : Ab t e a) (he : e ≤ e') : Ab t e' a := ⟨h.1, h.2.trans he⟩

theorem Ab.add {t s e f M : ℝ} {a b : F32} (ha : Ab t e a) (hb : Ab s f b) (hM : |t + s| + e + f ≤ M) (hM2 : M ≤ 2 ^ 120) :
    Ab (t + s) (e + f + (M / 2 ^ 24 + 1 / 2 ^ 150)) (F32.add a b) := by
  have h1 := ha.2
  have h2 := hb.2
  have h3 : |val a + val b - (t + s)| ≤ e + f := by
    rw [show val a + val b - (t + s) = (val a - t) + (val b - s) by ring]
    exact (abs_add_le _ _).trans (add_le_add h1 h2)
  have h4 : |val a + val b| ≤ M := by
    have := abs_sub_abs_le_abs_sub (val a + val b) (t + s)
    linarith
  obtain ⟨h5, h6⟩ := add_val ha.1 hb.1 (h4.trans (hM2.trans (by norm_num)))
  refine ⟨h5, ?_⟩
  have h7 : |val a + val b| / 2 ^ 24 ≤ M / 2 ^ 24 := by gcongr
  have := abs_add_le (val (F32.add a b) - (val a + val b)) (val a + val b - (t + s))
  rw [show val (F32.add a b) - (val a + val b) + (val a + val b - (t + s)) = val (F32.add a b) - (t + s) by ring] at this
  linarith

theorem Ab.neg {t e : ℝ} {a : F32} (h : Ab t e a) : Ab (-t) e (F32.neg a) := by
  obtain ⟨h1, h2⟩ := neg_val h.1
  refine ⟨h1, ?_⟩
  rw [h2, show -val a - -t = -(val a - t) by ring, abs_neg]
  exact h.2

theorem Ab.sub {t s e f M : ℝ} {a b : F32} (ha : Ab t e a) (hb : Ab s f b) (hM : |t - s| + e + f ≤ M) (hM2 : M ≤ 2 ^ 120) :
    Ab (t - s) (e + f + (M / 2 ^ 24 + 1 / 2 ^ 150)) (F32.sub a b) := by
  have := ha.add hb.neg (M := M) (by rw [← sub_eq_add_neg]; exact hM) hM2
  rw [← sub_eq_add_neg] at this
  exact this

theorem Ab.mul {t s e f M : ℝ} {a b : F32} (ha : Ab t e a) (hb : Ab s f b) (hM : |t * s| + |t| * f + |s| * e + e * f ≤ M) (hM2 : M ≤ 2 ^ 120) :
    Ab (t * s) (|t| * f + |s| * e + e * f + (M / 2 ^ 24 + 1 / 2 ^ 150)) (F32.mul a b) := by
  have h1 := ha.2
  have h2 := hb.2
  have he : 0 ≤ e := (abs_nonneg _).trans h1
  have h3 : |val a * val b - t * s| ≤ |t| * f + |s| * e + e * f := by
    rw [show val a * val b - t * s = t * (val b - s) + s * (val a - t) + (val a - t) * (val b - s) by ring]
    refine (abs_add_le _ _).trans (add_le_add ((abs_add_le _ _).trans (add_le_add ?_ ?_)) ?_)
    · rw [abs_mul]; gcongr
    · rw [abs_mul]; gcongr
    · rw [abs_mul]; gcongr
  have h4 : |val a * val b| ≤ M := by
    have := abs_sub_abs_le_abs_sub (val a * val b) (t * s)
    linarith
  obtain ⟨h5, h6⟩ := mul_val ha.1 hb.1 (h4.trans (hM2.trans (by norm_num)))
  refine ⟨h5, ?_⟩
  have h7 : |val a * val b| / 2 ^ 24 ≤ M / 2 ^ 24 := by gcongr
  have := abs_add_le (val (F32.mul a b) - (val a * val b)) (val a * val b - t * s)
  rw [show val (F32.mul a b) - (val a * val b) + (val a * val b - t * s) = val (F32.mul a b) - t * s by ring] at this
  linarith

/-- division by a positive integer -/
theorem Ab.divNat {t e M : ℝ} {a : F32} {n : ℤ} (ha : Ab t e a) (h0 : 0 < n) (hn : n ≤ 1024) (hM : |t| + e ≤ M) (hM2 : M ≤ 2 ^ 120) :
    Ab (t / n) (e / n + (M / 2 ^ 24 + 1 / 2 ^ 150)) (F32.div a (rnd n)) := by
  have hr : rnd (n : ℚ) = fin n := rnd_int (by rw [abs_le]; omega)
  have hv : val (fin (n : ℚ)) = (n : ℝ) := by show ((n : ℚ) : ℝ) = _; push_cast; rfl
  have hn0 : (1 : ℝ) ≤ n := by exact_mod_cast h0
  have hp : (0 : ℝ) < n := by linarith
  have h3 : |val a / n - t / n| ≤ e / n := by
    rw [← sub_div, abs_div, abs_of_pos hp]
    exact div_le_div_of_nonneg_right ha.2 hp.le
  have h4 : |val a / n| ≤ M := by
    rw [abs_div, abs_of_pos hp]
    exact (div_le_self (abs_nonneg _) hn0).trans (ha.bd hM).2
  rw [hr]
  obtain ⟨h5, h6⟩ := div_val (b := fin (n : ℚ)) ha.1 ⟨_, rfl⟩ (by rw [hv]; exact hp.ne') (by rw [hv]; exact h4.trans (hM2.trans (by norm_num)))
  rw [hv] at h6
  refine ⟨h5, ?_⟩
  have h7 : |val a / n| / 2 ^ 24 ≤ M / 2 ^ 24 := by gcongr
  have := abs_add_le (val (F32.div a (fin n)) - val a / n) (val a / n - t / n)
  rw [show val (F32.div a (fin n)) - val a / n + (val a / n - t / n) = val (F32.div a (fin n)) - t / n by ring] at this
  linarith

theorem ab_rnd {q : ℚ} {B : ℝ} (h : |(q : ℝ)| ≤ B) (hB : B ≤ 2 ^ 120) : Ab (q : ℝ) (B / 2 ^ 24 + 1 / 2 ^ 150) (rnd q) := by
  have h1 : |q| ≤ 2 ^ 127 := by
    have : ((|q| : ℚ) : ℝ) ≤ ((2 ^ 127 : ℚ) : ℝ) := by push_cast; exact h.trans (hB.trans (by norm_num))
    exact_mod_cast this
  rw [rnd_fin h1]
  refine ⟨⟨_, rfl⟩, ?_⟩
  have h2 := rndQ_err q
  have h3 : ((|rndQ q - q| : ℚ) : ℝ) ≤ ((|q| / 2 ^ 24 + 1 / 2 ^ 150 : ℚ) : ℝ) := by exact_mod_cast h2
  push_cast at h3
  show |((rndQ q : ℚ) : ℝ) - (q : ℝ)| ≤ _
  have : |(q : ℝ)| / 2 ^ 24 ≤ B / 2 ^ 24 := by gcongr
  linarith

theorem ab_int {n : ℤ} (h : |n| ≤ 32768) : Ab (n : ℝ) 0 (rnd (n : ℚ)) := by
  rw [rnd_int h]
  refine ⟨⟨_, rfl⟩, ?_⟩
  show |(((n : ℚ)) : ℝ) - (n : ℝ)| ≤ 0
  simp

/-! ## The logarithms -/

theorem at0_zn {x : List F32} (h : AllZn x) (i : Nat) : Zn (@at0 F32 (scalar el) x i) := by
  unfold at0
  rw [List.getD_eq_getElem?_getD]
  cases hg : x[i]? with
  | none => exact zero_zn
  | some v => exact h v (List.mem_of_getElem? hg)

theorem snsSmooth_zn {x : List F32} (h : AllZn x) : AllZn (@snsSmooth F32 (scalar el) x) := by
  letI := scalar el
  have hat := fun i => at0_zn (el := el) h i
  unfold snsSmooth
  intro v hv
  simp only [List.cons_append, List.mem_cons, List.mem_append, List.mem_map, List.not_mem_nil, or_false] at hv
  rcases hv with rfl | ⟨i, -, rfl⟩ | rfl
  · exact ((hat _).mul' _).add ((hat _).mul' _)
  · exact (((hat _).mul' _).add ((hat _).mul' _)).add ((hat _).mul' _)
  · exact ((hat _).mul' _).add ((hat _).mul' _)

theorem maxF_zn_right {c : ℚ} (hc : 0 < c) {b : F32} (h : Zn b) : maxF (fin c) b = fin c := by
  rcases h with rfl | rfl
  · show (if F32.lt (fin c) (fin 0) then _ else _) = _
    rw [show F32.lt (fin c) (fin 0) = false from decide_eq_false (not_lt.2 hc.le)]
    rfl
  · rfl

theorem maxF_zn_left {c : ℚ} (hc : 0 < c) {b : F32} (h : Zn b) : maxF b (fin c) = fin c := by
  rcases h with rfl | rfl
  · show (if F32.lt (fin 0) (fin c) then _ else _) = _
    rw [show F32.lt (fin 0) (fin c) = true from decide_eq_true hc]
    rfl
  · rfl

/-- the logarithm of an empty band -/
theorem log_silence (hl : LogFunctions el) : ∃ v, IsFin v ∧ |val v| ≤ 16 ∧
    F32.div (el.log2 (F32.add (rnd (1 / 8388608)) (fin (1 / 2 ^ 32)))) (rnd 2) = v := by
  have hr : rnd (1 / 8388608) = fin (1 / 8388608) := by
    have : rndQ (1 / 8388608) = 1 / 8388608 := rndQ_rep ⟨1, -23, by norm_num, by norm_num, by norm_num⟩
    rw [rnd_fin (by rw [abs_of_pos (by norm_num)]; norm_num), this]
  have hs : F32.add (fin (1 / 8388608)) (fin (1 / 2 ^ 32)) = fin (513 / 2 ^ 32) := by
    show rnd (1 / 8388608 + 1 / 2 ^ 32) = _
    have : rndQ (513 / 2 ^ 32) = 513 / 2 ^ 32 := rndQ_rep ⟨513, -32, by norm_num, by norm_num, by norm_num⟩
    rw [show (1 / 8388608 + 1 / 2 ^ 32 : ℚ) = 513 / 2 ^ 32 by norm_num, rnd_fin (by rw [abs_of_pos (by norm_num)]; norm_num), this]
  obtain ⟨c, h1, h2⟩ := hl.log2 (513 / 2 ^ 32) (by norm_num)
  have hb : |Real.logb 2 ((513 / 2 ^ 32 : ℚ) : ℝ)| ≤ 24 := by
    have e1 : Real.logb 2 ((2 : ℝ) ^ (-(24 : ℝ))) = -24 := Real.logb_rpow (by norm_num) (by norm_num)
    have e2 : (2 : ℝ) ^ (-(24 : ℝ)) ≤ ((513 / 2 ^ 32 : ℚ) : ℝ) := by
      rw [Real.rpow_neg (by norm_num), show (24 : ℝ) = ((24 : ℕ) : ℝ) by norm_num, Real.rpow_natCast]
      push_cast
      norm_num
    have e3 := Real.logb_le_logb_of_le (b := 2) (by norm_num) (by positivity) e2
    have e4 : Real.logb 2 ((513 / 2 ^ 32 : ℚ) : ℝ) ≤ 0 := Real.logb_nonpos (by norm_num) (by push_cast; norm_num) (by push_cast; norm_num)
    rw [e1] at e3
    rw [abs_le]
    constructor <;> linarith
  have hc : |(c : ℝ)| ≤ 25 := by
    have := abs_sub_abs_le_abs_sub (c : ℝ) (Real.logb 2 ((513 / 2 ^ 32 : ℚ) : ℝ))
    generalize |(c : ℝ) - Real.logb 2 ((513 / 2 ^ 32 : ℚ) : ℝ)| = A at *
    generalize |Real.logb 2 ((513 / 2 ^ 32 : ℚ) : ℝ)| = B at *
    norm_num at h2
    linarith
  have ha : Ab (c : ℝ) 0 (fin c) := ⟨⟨c, rfl⟩, by show |(c : ℝ) - c| ≤ 0; simp⟩
  have hd := ha.divNat (n := 2) (by norm_num) (by norm_num) (M := 25) (by linarith) (by norm_num)
  have hq : F32.div (fin c) (rnd ((2 : ℤ) : ℚ)) = F32.div (fin c) (rnd 2) := by norm_num
  rw [hq] at hd
  rw [hr, hs, h1]
  refine ⟨_, hd.1, (hd.bd (B := 16) ?_).2, rfl⟩
  rw [abs_div]
  generalize |(c : ℝ)| = C at *
  norm_num
  linarith

/-- all logarithms of silence are the same number -/
theorem target_silence (hl : LogFunctions el) {cfg : Lc3Config} {eb scf : List F32} {att : Bool} (hz : AllZn eb) (he : eb.length = 64)
    (hnb : cfg.nb = 64) (h : @snsTarget F32 (scalar el) cfg eb att = .ok scf) : ∃ v, IsFin v ∧ |val v| ≤ 16 ∧
      scf = @snsAttack F32 (scalar el) att cfg.nMs (@snsMeanRemoval F32 (scalar el) (@snsDownsample F32 (scalar el) (List.replicate 64 v))) := by
  letI := scalar el
  unfold snsTarget at h
  obtain ⟨t, -, h⟩ := bind_ok_inv h
  obtain ⟨p, hp, h⟩ := bind_ok_inv h
  simp only [Res.ok.injEq] at h
  subst h
  have hp' : p = eb := by
    unfold snsPad at hp
    rw [hnb, show usub 64 64 = .ok 0 from rfl, Res.bind_ok, if_neg (by norm_num), if_pos he] at hp
    exact (Res.ok.inj hp).symm
  subst hp'
  obtain ⟨v, hv1, hv2, hv3⟩ := log_silence hl
  refine ⟨v, hv1, hv2, ?_⟩
  have hsl : (snsSmooth p).length = 64 := by unfold snsSmooth; simp
  have hez : ∀ g : Nat → F32, AllZn ((snsSmooth p).zipIdx.map fun q => q.1 * g q.2) := by
    intro g w hw
    obtain ⟨q, hq, rfl⟩ := List.mem_map.1 hw
    exact (snsSmooth_zn hz _ (List.fst_mem_of_mem_zipIdx hq)).mul _
  have h2 : rnd 2 = fin 2 := by simpa using rnd_int (n := 2) (by norm_num)
  have hpw : (powi (ofRat 2 : F32) (-32) : F32) = fin (1 / 2 ^ 32) := by
    show el.powi (rnd 2) (-32) = _
    rw [h2, hl.powi]
  have hmap : ∀ (l : List F32), AllZn l → l.length = 64 →
      (l.map fun x => (log2 (ofRat (1 / 8388608) + maxS x (maxS (powi (ofRat 2) (-32)) (sumS l / ofRat 64 * powi (ofRat 10) (-4)))) / ofRat 2 : F32)) =
        List.replicate 64 v := by
    intro l hlz hll
    rw [List.eq_replicate_iff]
    refine ⟨by simp [hll], fun b hb => ?_⟩
    obtain ⟨c, hc, rfl⟩ := List.mem_map.1 hb
    rw [hpw]
    have e1 : maxS (fin (1 / 2 ^ 32)) (sumS l / ofRat 64 * powi (ofRat 10) (-4) : F32) = fin (1 / 2 ^ 32) :=
      maxF_zn_right (by norm_num) (((sum_zn hlz).div _).mul _)
    rw [e1]
    have e2 : maxS c (fin (1 / 2 ^ 32)) = fin (1 / 2 ^ 32) := maxF_zn_left (by norm_num) (hlz c hc)
    rw [e2]
    exact hv3
  rw [hmap _ (hez fun i => pow10 (ofInt (i : Int) * (ofInt (t : Int) / ofRat 630))) (by simp [hsl])]

/-! ## The scale factors -/

theorem addT {s u e : ℝ} {a b : F32} (ha : Ab s e a) (hb : Ab u (1 / 2 ^ 15) b) (hs : |s + u| ≤ 32) (he : e ≤ 1) :
    Ab (s + u) (e + 1 / 2 ^ 14) (F32.add a b) := by
  refine (ha.add hb (M := 34) ?_ (by norm_num)).mono ?_
  · norm_num at hs ⊢; linarith
  · norm_num; linarith

/-- the weights of the six logarithms of a scale factor -/
theorem weight_ab {t : ℝ} {v : F32} (hv : Ab t 0 v) (ht : |t| ≤ 16) (k : ℤ) (h0 : 0 ≤ k) (hk : k ≤ 12) :
    Ab (k / 12 * t) (1 / 2 ^ 15) (F32.mul (F32.div (rnd k) (rnd 12)) v) := by
  have h1 := (ab_int (n := k) (by rw [abs_le]; omega)).divNat (n := 12) (by norm_num) (by norm_num) (M := 12) (by
    have : |(k : ℝ)| ≤ 12 := by rw [abs_of_nonneg (by exact_mod_cast h0)]; exact_mod_cast hk
    linarith) (by norm_num)
  have hq : (((12 : ℤ)) : ℚ) = 12 := by norm_num
  rw [hq] at h1
  have hw : |(k : ℝ) / 12| ≤ 1 := by
    have a : (0 : ℝ) ≤ k := by exact_mod_cast h0
    have b : (k : ℝ) ≤ 12 := by exact_mod_cast hk
    rw [abs_of_nonneg (by positivity)]
    linarith
  have h1' : Ab ((k : ℝ) / 12) (1 / 2 ^ 20) (F32.div (rnd k) (rnd 12)) := by
    have : (((12 : ℤ)) : ℝ) = 12 := by norm_num
    rw [this] at h1
    exact h1.mono (by norm_num)
  have hmul : |(k : ℝ) / 12 * t| ≤ 16 := by
    rw [abs_mul]
    calc _ ≤ 1 * 16 := mul_le_mul hw ht (abs_nonneg _) (by norm_num)
      _ = 16 := by norm_num
  have h2 := h1'.mul hv (M := 17) (by
    generalize |(k : ℝ) / 12 * t| = A at *
    generalize |t| = B at *
    norm_num
    linarith) (by norm_num)
  refine h2.mono ?_
  generalize |t| = B at *
  norm_num
  linarith

theorem downsample_near {v : F32} (hv : IsFin v) (ht : |val v| ≤ 16) :
    ∀ a ∈ @snsDownsample F32 (scalar el) (List.replicate 64 v), Ab (val v) (1 / 2 ^ 11) a := by
  letI := scalar el
  have hv' : Ab (val v) 0 v := ⟨hv, by simp⟩
  generalize ht' : val v = t at *
  have w1 := weight_ab hv' ht 1 (by norm_num) (by norm_num)
  have w2 := weight_ab hv' ht 2 (by norm_num) (by norm_num)
  have w3 := weight_ab hv' ht 3 (by norm_num) (by norm_num)
  push_cast at w1 w2 w3
  have hz : Ab 0 0 (rnd 0) := by simpa using ab_int (n := 0) (by norm_num)
  obtain ⟨t1, t2⟩ := abs_le.1 ht
  have hle : ∀ c : ℝ, 0 ≤ c → c ≤ 1 → ∀ s, s = c * t → |s| ≤ 32 := by
    intro c h0 h1 s hs
    rw [hs, abs_mul, abs_of_nonneg h0]
    calc c * |t| ≤ 1 * 16 := mul_le_mul h1 ht (abs_nonneg _) (by norm_num)
      _ ≤ 32 := by norm_num
  intro a ha
  simp only [snsDownsample, List.cons_append, List.mem_cons, List.mem_append, List.mem_map, List.mem_range, List.not_mem_nil, or_false] at ha
  rcases ha with rfl | ⟨i, hi, rfl⟩ | rfl
  · have e : (List.range 5).foldl (fun s k => s + at0 WEIGHTING (k + 1) * at0 (List.replicate 64 v) k) (at0 WEIGHTING 0 * at0 (List.replicate 64 v) 0) =
        F32.add (F32.add (F32.add (F32.add (F32.add (F32.mul (F32.div (rnd 1) (rnd 12)) v) (F32.mul (F32.div (rnd 2) (rnd 12)) v))
          (F32.mul (F32.div (rnd 3) (rnd 12)) v)) (F32.mul (F32.div (rnd 3) (rnd 12)) v)) (F32.mul (F32.div (rnd 2) (rnd 12)) v))
          (F32.mul (F32.div (rnd 1) (rnd 12)) v) := rfl
    rw [e]
    have s1 := addT w1 w2 (hle (3 / 12) (by norm_num) (by norm_num) _ (by ring)) (by norm_num)
    have s2 := addT s1 w3 (hle (6 / 12) (by norm_num) (by norm_num) _ (by ring)) (by norm_num)
    have s3 := addT s2 w3 (hle (9 / 12) (by norm_num) (by norm_num) _ (by ring)) (by norm_num)
    have s4 := addT s3 w2 (hle (11 / 12) (by norm_num) (by norm_num) _ (by ring)) (by norm_num)
    have s5 := addT s4 w1 (hle 1 (by norm_num) (by norm_num) _ (by ring)) (by norm_num)
    rw [show 1 / 12 * t + 2 / 12 * t + 3 / 12 * t + 3 / 12 * t + 2 / 12 * t + 1 / 12 * t = t by ring] at s5
    exact s5.mono (by norm_num)
  · have e0 : (List.replicate 64 v).drop (4 * (i + 1) - 1) = v :: v :: v :: v :: v :: v :: List.replicate (64 - (4 * (i + 1) - 1) - 6) v := by
      rw [List.drop_replicate]
      conv_lhs => rw [show 64 - (4 * (i + 1) - 1) = 64 - (4 * (i + 1) - 1) - 6 + 1 + 1 + 1 + 1 + 1 + 1 by omega]
      simp only [List.replicate_succ]
    rw [e0]
    have e : ∀ l : List F32, ((WEIGHTING : List F32).zip (v :: v :: v :: v :: v :: v :: l)).foldl (fun s p => s + p.1 * p.2) zero =
        F32.add (F32.add (F32.add (F32.add (F32.add (F32.add (rnd 0) (F32.mul (F32.div (rnd 1) (rnd 12)) v)) (F32.mul (F32.div (rnd 2) (rnd 12)) v))
          (F32.mul (F32.div (rnd 3) (rnd 12)) v)) (F32.mul (F32.div (rnd 3) (rnd 12)) v)) (F32.mul (F32.div (rnd 2) (rnd 12)) v))
          (F32.mul (F32.div (rnd 1) (rnd 12)) v) := fun _ => rfl
    rw [e]
    have s0 := addT hz w1 (hle (1 / 12) (by norm_num) (by norm_num) _ (by ring)) (by norm_num)
    have s1 := addT s0 w2 (hle (3 / 12) (by norm_num) (by norm_num) _ (by ring)) (by norm_num)
    have s2 := addT s1 w3 (hle (6 / 12) (by norm_num) (by norm_num) _ (by ring)) (by norm_num)
    have s3 := addT s2 w3 (hle (9 / 12) (by norm_num) (by norm_num) _ (by ring)) (by norm_num)
    have s4 := addT s3 w2 (hle (11 / 12) (by norm_num) (by norm_num) _ (by ring)) (by norm_num)
    have s5 := addT s4 w1 (hle 1 (by norm_num) (by norm_num) _ (by ring)) (by norm_num)
    rw [show 0 + 1 / 12 * t + 2 / 12 * t + 3 / 12 * t + 3 / 12 * t + 2 / 12 * t + 1 / 12 * t = t by ring] at s5
    exact s5.mono (by norm_num)
  · have e : (List.range 5).foldl (fun s k => s + at0 WEIGHTING k * at0 (List.replicate 64 v) (59 + k)) (at0 WEIGHTING 5 * at0 (List.replicate 64 v) 63) =
        F32.add (F32.add (F32.add (F32.add (F32.add (F32.mul (F32.div (rnd 1) (rnd 12)) v) (F32.mul (F32.div (rnd 1) (rnd 12)) v))
          (F32.mul (F32.div (rnd 2) (rnd 12)) v)) (F32.mul (F32.div (rnd 3) (rnd 12)) v)) (F32.mul (F32.div (rnd 3) (rnd 12)) v))
          (F32.mul (F32.div (rnd 2) (rnd 12)) v) := rfl
    rw [e]
    have s1 := addT w1 w1 (hle (2 / 12) (by norm_num) (by norm_num) _ (by ring)) (by norm_num)
    have s2 := addT s1 w2 (hle (4 / 12) (by norm_num) (by norm_num) _ (by ring)) (by norm_num)
    have s3 := addT s2 w3 (hle (7 / 12) (by norm_num) (by norm_num) _ (by ring)) (by norm_num)
    have s4 := addT s3 w3 (hle (10 / 12) (by norm_num) (by norm_num) _ (by ring)) (by norm_num)
    have s5 := addT s4 w2 (hle 1 (by norm_num) (by norm_num) _ (by ring)) (by norm_num)
    rw [show 1 / 12 * t + 1 / 12 * t + 2 / 12 * t + 3 / 12 * t + 3 / 12 * t + 2 / 12 * t = t by ring] at s5
    exact s5.mono (by norm_num)

/-- the sum of numbers near `t` -/
theorem sum_near {t e : ℝ} (ht : |t| ≤ 16) (he : 0 ≤ e) (he1 : e ≤ 1) : ∀ (l : List F32) (n : ℕ) (a : F32), n + l.length ≤ 16 → (∀ b ∈ l, Ab t e b) →
    Ab (n * t) (n * (e + 1 / 2 ^ 15)) a → Ab ((n + l.length : ℕ) * t) ((n + l.length : ℕ) * (e + 1 / 2 ^ 15)) (l.foldl F32.add a)
  | [], n, a, _, _, h => h
  | b :: l, n, a, hn, hl, h => by
    have hb := hl b (by simp)
    have hn' : n + 1 ≤ 16 := by simp at hn; omega
    have hnr : (n : ℝ) + 1 ≤ 16 := by exact_mod_cast hn'
    have hn0 : (0 : ℝ) ≤ n := Nat.cast_nonneg n
    have hne : (n : ℝ) * (e + 1 / 2 ^ 15) ≤ 16 * (1 + 1 / 2 ^ 15) := by
      have : (n : ℝ) ≤ 16 := by linarith
      gcongr
    have habs : |(n : ℝ) * t + t| ≤ 256 := by
      rw [show (n : ℝ) * t + t = (n + 1) * t by ring, abs_mul, abs_of_nonneg (by linarith)]
      calc _ ≤ (16 : ℝ) * 16 := mul_le_mul hnr ht (abs_nonneg _) (by norm_num)
        _ = 256 := by norm_num
    have hs := h.add hb (M := 280) (by generalize |(n : ℝ) * t + t| = A at *; norm_num at hne ⊢; linarith) (by norm_num)
    have := sum_near ht he he1 l (n + 1) (F32.add a b) (by simp at hn; omega) (fun c hc => hl c (by simp [hc])) (by
      have e1 : (n : ℝ) * t + t = ((n + 1 : ℕ) : ℝ) * t := by push_cast; ring
      rw [e1] at hs
      refine hs.mono ?_
      push_cast
      have : (280 : ℝ) / 2 ^ 24 + 1 / 2 ^ 150 ≤ 1 / 2 ^ 15 := by norm_num
      linarith)
    rw [show (b :: l).length = l.length + 1 from rfl, show n + (l.length + 1) = n + 1 + l.length by omega]
    exact this

theorem sumS_near {t e : ℝ} (ht : |t| ≤ 16) (he : 0 ≤ e) (he1 : e ≤ 1) {l : List F32} (hl : l.length ≤ 16) (h : ∀ b ∈ l, Ab t e b) :
    Ab (l.length * t) (l.length * (e + 1 / 2 ^ 15)) (@sumS F32 (scalar el) l) := by
  have hz : Ab ((0 : ℕ) * t) ((0 : ℕ) * (e + 1 / 2 ^ 15)) (rnd 0) := by simpa using ab_int (n := 0) (by norm_num)
  have := sum_near ht he he1 l 0 (rnd 0) (by omega) h hz
  rw [Nat.zero_add] at this
  exact this

/-- deviations from the mean -/
theorem mean_near {t e : ℝ} (ht : |t| ≤ 16) (he : 0 ≤ e) (he1 : e ≤ 1) {l : List F32} (hl : l.length = 16) (h : ∀ b ∈ l, Ab t e b) :
    ∀ b ∈ l, Bd (2 * e + 1 / 2 ^ 14) (F32.sub b (F32.div (@sumS F32 (scalar el) l) (rnd ((l.length : ℤ) : ℚ)))) := by
  intro b hb
  have hs := sumS_near (el := el) ht he he1 (by omega) h
  rw [hl] at hs ⊢
  have h1 : |((16 : ℕ) : ℝ) * t| ≤ 256 := by
    rw [abs_mul, abs_of_nonneg (by positivity)]
    push_cast
    linarith
  have hd := hs.divNat (n := ((16 : ℕ) : ℤ)) (by norm_num) (by norm_num) (M := 280) (by
    generalize |((16 : ℕ) : ℝ) * t| = A at *
    push_cast
    norm_num
    linarith) (by norm_num)
  have e1 : ((16 : ℕ) : ℝ) * t / (((16 : ℕ) : ℤ) : ℝ) = t := by push_cast; ring
  rw [e1] at hd
  have hd' : Ab t (e + 1 / 2 ^ 14 - 1 / 2 ^ 17) (F32.div (@sumS F32 (scalar el) l) (rnd (((16 : ℕ) : ℤ) : ℚ))) := by
    refine hd.mono ?_
    push_cast
    norm_num
    linarith
  have hm := (h b hb).sub hd' (M := 3) (by rw [sub_self, abs_zero]; norm_num; linarith) (by norm_num)
  rw [sub_self] at hm
  refine hm.bd ?_
  rw [abs_zero]
  norm_num
  linarith

theorem mul_small {B C : ℝ} {a : F32} {q : ℚ} (h : Bd B a) (hq : |(q : ℝ)| ≤ 9 / 10) (h0 : 1 / 2 ^ 20 ≤ B) (hB : B ≤ 1) (hC : B ≤ C) : Bd C (F32.mul (rnd q) a) := by
  have h1 := (ab_rnd (q := q) (B := 1) (hq.trans (by norm_num)) (by norm_num)).bd (B := 91 / 100) (by
    generalize |(q : ℝ)| = A at *
    norm_num at hq ⊢
    linarith)
  refine (h1.mul h ?_ ?_).mono ?_
  · norm_num at h0 ⊢; linarith
  · norm_num; linarith
  · norm_num at h0 ⊢; linarith

theorem AllBd.at0 {B : ℝ} (hB : 0 ≤ B) {l : List F32} (h : AllBd B l) (i : Nat) : Bd B (@Lc3.at0 F32 (scalar el) l i) := by
  unfold Lc3.at0
  rw [List.getD_eq_getElem?_getD]
  cases hg : l[i]? with
  | none =>
    have : (@zero F32 (scalar el)) = fin 0 := rnd_zero
    rw [Option.getD_none, this]
    exact bd_zero hB
  | some v => exact h v (List.mem_of_getElem? hg)

/-- attack handling of small scale factors -/
theorem attack_small {l : List F32} (hl : l.length = 16) (h : AllBd (1 / 2 ^ 9) l) (att : Bool) (dur : FrameDuration) :
    AllBd (1 / 200) (@snsAttack F32 (scalar el) att dur l) ∧ (@snsAttack F32 (scalar el) att dur l).length = 16 := by
  letI := scalar el
  unfold snsAttack
  split
  swap
  · exact ⟨h.mono (by norm_num), hl⟩
  have hat := fun i => (AllBd.at0 (el := el) (by norm_num) h i).ab
  have t0 : |(0 : ℝ)| ≤ 16 := by norm_num
  have ds : ∀ {k : ℤ} {e : ℝ} {a : F32}, 3 ≤ k → k ≤ 5 → Ab 0 e a → e ≤ k * (1 / 2 ^ 9 + 1 / 2 ^ 15) → Ab 0 (1 / 2 ^ 9 + 1 / 2 ^ 14) (F32.div a (rnd k)) := by
    intro k e a hk hk5 ha he
    have k0 : (0 : ℝ) < k := by exact_mod_cast (by omega : 0 < k)
    have k5 : (k : ℝ) ≤ 5 := by exact_mod_cast hk5
    have hd := ha.divNat (n := k) (by omega) (by omega) (M := 1) (by
      rw [abs_zero]
      have : (k : ℝ) * (1 / 2 ^ 9 + 1 / 2 ^ 15) ≤ 5 * (1 / 2 ^ 9 + 1 / 2 ^ 15) := by gcongr
      norm_num at this he ⊢
      linarith) (by norm_num)
    rw [zero_div] at hd
    refine hd.mono ?_
    have h2 : e / k ≤ 1 / 2 ^ 9 + 1 / 2 ^ 15 := by
      rw [div_le_iff₀ k0]
      linarith
    norm_num at h2 ⊢
    linarith
  have a2 : ∀ {e : ℝ} {a b : F32}, Ab 0 e a → Ab 0 (1 / 2 ^ 9) b → e ≤ 1 → Ab 0 (e + (1 / 2 ^ 9 + 1 / 2 ^ 15)) (F32.add a b) := by
    intro e a b ha hb he
    have := ha.add hb (M := 2) (by rw [add_zero, abs_zero]; norm_num; linarith) (by norm_num)
    rw [add_zero] at this
    refine this.mono ?_
    norm_num
    linarith
  have i3 : (((3 : ℤ)) : ℚ) = 3 := by norm_num
  have i4 : (((4 : ℤ)) : ℚ) = 4 := by norm_num
  have i5 : (((5 : ℤ)) : ℚ) = 5 := by norm_num
  have d3 : ∀ i j k, Ab 0 (1 / 2 ^ 9 + 1 / 2 ^ 14) ((at0 l i + at0 l j + at0 l k) / ofRat 3 : F32) := by
    intro i j k
    have := ds (k := 3) (by norm_num) (by norm_num) (a2 (a2 (hat i) (hat j) (by norm_num)) (hat k) (by norm_num)) (by push_cast; norm_num)
    rw [i3] at this
    exact this
  have d4 : ∀ i j k m, Ab 0 (1 / 2 ^ 9 + 1 / 2 ^ 14) ((at0 l i + at0 l j + at0 l k + at0 l m) / ofRat 4 : F32) := by
    intro i j k m
    have := ds (k := 4) (by norm_num) (by norm_num) (a2 (a2 (a2 (hat i) (hat j) (by norm_num)) (hat k) (by norm_num)) (hat m) (by norm_num))
      (by push_cast; norm_num)
    rw [i4] at this
    exact this
  have d5 : ∀ n, Ab 0 (1 / 2 ^ 9 + 1 / 2 ^ 14) (sumS ((l.drop n).take 5) / ofRat 5 : F32) := by
    intro n
    have hn : ((l.drop n).take 5).length ≤ 5 := by rw [List.length_take]; omega
    have hs := sumS_near (el := el) (t := 0) (e := 1 / 2 ^ 9) t0 (by norm_num) (by norm_num) (l := (l.drop n).take 5) (by omega)
      (fun b hb => (h b (List.mem_of_mem_drop (List.mem_of_mem_take hb))).ab)
    rw [mul_zero] at hs
    have := ds (k := 5) (by norm_num) (by norm_num) hs (by
      have : (((l.drop n).take 5).length : ℝ) ≤ 5 := by exact_mod_cast hn
      push_cast
      gcongr)
    rw [i5] at this
    exact this
  simp only
  generalize ho : ([(at0 l 0 + at0 l 1 + at0 l 2) / ofRat 3, (at0 l 0 + at0 l 1 + at0 l 2 + at0 l 3) / ofRat 4] ++
      ((List.range 12).map fun n => sumS ((l.drop n).take 5) / ofRat 5) ++
      [(at0 l 12 + at0 l 13 + at0 l 14 + at0 l 15) / ofRat 4, (at0 l 13 + at0 l 14 + at0 l 15) / ofRat 3] : List F32) = o
  have hol : o.length = 16 := by rw [← ho]; simp
  have hoa : ∀ b ∈ o, Ab 0 (1 / 2 ^ 9 + 1 / 2 ^ 14) b := by
    rw [← ho]
    intro b hb
    simp only [List.mem_append, List.mem_cons, List.mem_map, List.not_mem_nil, or_false] at hb
    rcases hb with ((rfl | rfl) | ⟨n, -, rfl⟩) | rfl | rfl
    · exact d3 _ _ _
    · exact d4 _ _ _ _
    · exact d5 _
    · exact d4 _ _ _ _
    · exact d3 _ _ _
  have hm := mean_near (el := el) t0 (by norm_num) (by norm_num) hol hoa
  refine ⟨?_, by simp [hol]⟩
  intro b hb
  obtain ⟨c, hc, rfl⟩ := List.mem_map.1 hb
  have hc' := hm c hc
  cases dur
  · exact mul_small (q := 3 / 10) hc' (by norm_num) (by norm_num) (by norm_num) (by norm_num)
  · exact mul_small (q := 1 / 2) hc' (by norm_num) (by norm_num) (by norm_num) (by norm_num)

/-- the scale factors of silence -/
theorem target_small (hl : LogFunctions el) {cfg : Lc3Config} {eb scf : List F32} {att : Bool} (hz : AllZn eb) (he : eb.length = 64)
    (hnb : cfg.nb = 64) (h : @snsTarget F32 (scalar el) cfg eb att = .ok scf) : AllBd (1 / 200) scf ∧ scf.length = 16 := by
  letI := scalar el
  obtain ⟨v, hv1, hv2, rfl⟩ := target_silence hl hz he hnb h
  have hd := downsample_near (el := el) hv1 hv2
  have hdl : (snsDownsample (List.replicate 64 v)).length = 16 := by unfold snsDownsample; simp
  have hm := mean_near (el := el) hv2 (by norm_num) (by norm_num) hdl hd
  refine attack_small ?_ ?_ _ _
  · unfold snsMeanRemoval
    rw [List.length_map, hdl]
  · intro b hb
    unfold snsMeanRemoval at hb
    obtain ⟨c, hc, rfl⟩ := List.mem_map.1 hb
    exact mul_small (hm c hc) (by norm_num) (by norm_num) (by norm_num) (by norm_num)

/-! ## The residual of the first stage -/

/-- the entry `j` of the rotation of `c` by the rows -/
def colSum (j : Nat) (c : List ℚ) (rows : List (List ℚ)) : ℚ := ((c.zip rows).map fun p => p.1 * p.2.getD j 0).sum

set_option maxRecDepth 100000 in
/-- every pair of code book entries has an entry of magnitude above `1 / 25` among the last six entries of its rotation -/
theorem silence_cols : (LFCB.all fun a => HFCB.all fun b => [10, 11, 12, 13, 14, 15].any fun j =>
    decide (1 / 25 ≤ |colSum j a (D.take 8) + colSum j b (D.drop 8)|)) = true := by
  have key : ((LFCB.map fun a => [10, 11, 12, 13, 14, 15].map fun j => colSum j a (D.take 8)).all fun u =>
      (HFCB.map fun b => [10, 11, 12, 13, 14, 15].map fun j => colSum j b (D.drop 8)).all fun w =>
        (u.zip w).any fun p => decide (1 / 25 ≤ |p.1 + p.2|)) = true := by decide +kernel
  rw [List.all_map] at key
  rw [List.all_eq_true] at key ⊢
  intro a ha
  have h1 := key a ha
  rw [Function.comp, List.all_map, List.all_eq_true] at h1
  rw [List.all_eq_true]
  intro b hb
  exact h1 b hb

set_option maxRecDepth 100000 in
theorem tables_small : (LFCB.all fun a => a.all fun c => decide (|c| ≤ 5)) = true ∧ (HFCB.all fun a => a.all fun c => decide (|c| ≤ 5)) = true ∧
    (D.all fun a => a.all fun c => decide (|c| ≤ 36 / 100)) = true := by
  refine ⟨?_, ?_, ?_⟩ <;> decide +kernel

theorem rotateFold_get32 (j : Nat) : ∀ (l : List (F32 × List Rat)) (t : List F32), j < t.length → (∀ p ∈ l, j < p.2.length) →
    (l.foldl (fun t p => (t.zip p.2).map fun q => F32.add q.1 (F32.mul p.1 (rnd q.2))) t)[j]? =
      some (l.foldl (fun s p => F32.add s (F32.mul p.1 (rnd (p.2.getD j 0)))) (t.getD j (fin 0)))
  | [], t, ht, _ => by simp [ht]
  | p :: l, t, ht, h => by
    have hp := h p (by simp)
    rw [List.foldl_cons, rotateFold_get32 j l _ (by simp; omega) (fun q hq => h q (by simp [hq])), List.foldl_cons]
    congr 1
    congr 1
    simp [ht, hp]

theorem rot_near (j : Nat) : ∀ (rs : List F32) (cs : List ℚ) (rows : List (List ℚ)) (n : ℕ) (s : ℝ) (a : F32), rs.length = cs.length → n + rs.length ≤ 16 →
    (∀ p ∈ rs.zip cs, Ab (-(p.2 : ℝ)) (1 / 190) p.1) → (∀ c ∈ cs, |c| ≤ 5) → (∀ row ∈ rows, |row.getD j 0| ≤ 36 / 100) → |s| ≤ n * (9 / 5) →
    Ab s (n * (21 / 10000)) a → ∃ m : ℕ, m ≤ n + rs.length ∧
      Ab (s - (colSum j cs rows : ℚ)) (m * (21 / 10000)) ((rs.zip rows).foldl (fun s p => F32.add s (F32.mul p.1 (rnd (p.2.getD j 0)))) a) := by
  intro rs
  induction rs with
  | nil =>
    intro cs rows n s a hl _ _ _ _ _ h
    cases cs with
    | nil => exact ⟨n, by simp, by simpa [colSum] using h⟩
    | cons c cs => simp at hl
  | cons r rs ih =>
    intro cs rows n s a hl hn hr hc hd hs h
    cases cs with
    | nil => simp at hl
    | cons c cs =>
      cases rows with
      | nil => exact ⟨n, by omega, by simpa [colSum] using h⟩
      | cons row rows =>
        have hr0 : Ab (-(c : ℝ)) (1 / 190) r := hr (r, c) (by simp)
        have hc0 : |(c : ℝ)| ≤ 5 := by
          have := hc c (by simp)
          have : ((|c| : ℚ) : ℝ) ≤ ((5 : ℚ) : ℝ) := by exact_mod_cast this
          push_cast at this
          exact this
        have hd0 : |((row.getD j 0 : ℚ) : ℝ)| ≤ 36 / 100 := by
          have := hd row (by simp)
          have : ((|row.getD j 0| : ℚ) : ℝ) ≤ ((36 / 100 : ℚ) : ℝ) := by exact_mod_cast this
          push_cast at this
          exact this
        have hrd := ab_rnd hd0 (by norm_num)
        have hprod : |-(c : ℝ) * ((row.getD j 0 : ℚ) : ℝ)| ≤ 9 / 5 := by
          rw [abs_mul, abs_neg]
          calc _ ≤ (5 : ℝ) * (36 / 100) := mul_le_mul hc0 hd0 (abs_nonneg _) (by norm_num)
            _ = 9 / 5 := by norm_num
        have hc1 : |-(c : ℝ)| ≤ 5 := by rw [abs_neg]; exact hc0
        have hm := hr0.mul hrd (M := 2) (by
          generalize |-(c : ℝ) * ((row.getD j 0 : ℚ) : ℝ)| = A at *
          generalize |-(c : ℝ)| = B at *
          generalize |((row.getD j 0 : ℚ) : ℝ)| = C at *
          norm_num
          linarith) (by norm_num)
        have hm' : Ab (-(c : ℝ) * ((row.getD j 0 : ℚ) : ℝ)) (20 / 10000) (F32.mul r (rnd (row.getD j 0))) := by
          refine hm.mono ?_
          generalize |-(c : ℝ)| = B at *
          generalize |((row.getD j 0 : ℚ) : ℝ)| = C at *
          norm_num
          linarith
        have hnr : (n : ℝ) + 1 ≤ 16 := by
          have : n + 1 ≤ 16 := by simp at hn; omega
          exact_mod_cast this
        have habs : |s + -(c : ℝ) * ((row.getD j 0 : ℚ) : ℝ)| ≤ (n + 1 : ℕ) * (9 / 5) := by
          refine (abs_add_le _ _).trans ?_
          push_cast
          linarith
        have ha := h.add hm' (M := 34) (by
          generalize |s + -(c : ℝ) * ((row.getD j 0 : ℚ) : ℝ)| = A at *
          push_cast at habs
          linarith) (by norm_num)
        obtain ⟨m, hm1, hm2⟩ := ih cs rows (n + 1) (s + -(c : ℝ) * ((row.getD j 0 : ℚ) : ℝ)) (F32.add a (F32.mul r (rnd (row.getD j 0)))) (by simpa using hl)
          (by simp at hn; omega) (fun p hp => hr p (by simp [hp])) (fun q hq => hc q (by simp [hq])) (fun q hq => hd q (by simp [hq])) habs (by
            refine ha.mono ?_
            push_cast
            norm_num
            linarith)
        refine ⟨m, by simp; omega, ?_⟩
        have e : s + -(c : ℝ) * ((row.getD j 0 : ℚ) : ℝ) - (colSum j cs rows : ℚ) = s - (colSum j (c :: cs) (row :: rows) : ℚ) := by
          simp only [colSum, List.zip_cons_cons, List.map_cons, List.sum_cons]
          push_cast
          ring
        rw [e] at hm2
        exact hm2

/-- the residual of small scale factors can be written -/
theorem small_writable {scf : List F32} (hl : scf.length = 16) (hb : AllBd (1 / 200) scf) {lf hf : Nat} {st1 r1 : List F32}
    (h : @snsStage1 F32 (scalar el) scf = .ok (lf, hf, st1, r1)) : Writable el r1 := by
  letI := scalar el
  intro c _
  right
  unfold snsStage1 at h
  rw [if_neg (by omega)] at h
  simp only at h
  obtain ⟨a, ha, h⟩ := bind_ok_inv h
  obtain ⟨b, hb', h⟩ := bind_ok_inv h
  simp only [Res.ok.injEq, Prod.mk.injEq] at h
  obtain ⟨-, -, -, rfl⟩ := h
  have ham := idx_mem ha
  have hbm := idx_mem hb'
  have hal := LFCB_shape.2 a ham
  have hbl := HFCB_shape.2 b hbm
  obtain ⟨t1, t2, t3⟩ := tables_small
  rw [List.all_eq_true] at t1 t2 t3
  have hab : ∀ q ∈ a ++ b, |q| ≤ 5 := by
    intro q hq
    rcases List.mem_append.1 hq with hq | hq
    · exact of_decide_eq_true (List.all_eq_true.1 (t1 a ham) q hq)
    · exact of_decide_eq_true (List.all_eq_true.1 (t2 b hbm) q hq)
  have hs := silence_cols
  rw [List.all_eq_true] at hs
  have hs := hs a ham
  rw [List.all_eq_true] at hs
  have hs := hs b hbm
  rw [List.any_eq_true] at hs
  obtain ⟨j, hj, hs⟩ := hs
  have hs := of_decide_eq_true hs
  have hj16 : 10 ≤ j ∧ j < 16 := by
    simp only [List.mem_cons, List.not_mem_nil, or_false] at hj
    omega
  have hcol : colSum j a (D.take 8) + colSum j b (D.drop 8) = colSum j (a ++ b) D := by
    unfold colSum
    have hD : D.length = 16 := by decide
    conv_rhs => rw [← List.take_append_drop 8 D, List.zip_append (by rw [hal, List.length_take, hD]; rfl), List.map_append, List.sum_append]
  rw [hcol] at hs
  have hdrow : ∀ row ∈ D, |row.getD j 0| ≤ 36 / 100 := by
    intro row hrow
    rw [List.getD_eq_getElem?_getD]
    cases hg : row[j]? with
    | none => norm_num
    | some v => exact of_decide_eq_true (List.all_eq_true.1 (t3 row hrow) v (List.mem_of_getElem? hg))
  obtain ⟨rs, hrs⟩ : ∃ rs, rs = (scf.zip ((a ++ b).map (ofRat : ℚ → F32))).map (fun p => p.1 - p.2) := ⟨_, rfl⟩
  rw [← hrs]
  have hrl : rs.length = (a ++ b).length := by rw [hrs]; simp; omega
  have hz : Ab (0 : ℝ) ((0 : ℕ) * (21 / 10000)) (fin 0) := ⟨⟨0, rfl⟩, by show |((0 : ℚ) : ℝ) - 0| ≤ _; simp⟩
  obtain ⟨m, hm1, hm2⟩ := rot_near j rs (a ++ b) D 0 0 (fin 0) hrl (by rw [hrl, List.length_append]; omega) (by
    intro p hp
    obtain ⟨i, hi, rfl⟩ := List.mem_iff_getElem.1 hp
    have hi' : i < rs.length ∧ i < (a ++ b).length := by rw [List.length_zip] at hi; omega
    rw [List.getElem_zip]
    simp only
    have hq := hab _ (List.getElem_mem hi'.2)
    have hsm := (hb _ (List.getElem_mem (show i < scf.length by rw [hl]; rw [List.length_append] at hi'; omega))).ab
    have hre : rs[i]'hi'.1 = F32.sub (scf[i]'(by rw [hl]; rw [List.length_append] at hi'; omega)) (rnd ((a ++ b)[i]'hi'.2)) := by
      simp only [hrs, List.getElem_map, List.getElem_zip]
      rfl
    rw [hre]
    generalize (a ++ b)[i]'hi'.2 = q at *
    have hq' : |(q : ℝ)| ≤ 5 := by
      have : ((|q| : ℚ) : ℝ) ≤ ((5 : ℚ) : ℝ) := by exact_mod_cast hq
      push_cast at this
      exact this
    have hs := hsm.sub (ab_rnd hq' (by norm_num)) (M := 6) (by
      rw [zero_sub, abs_neg]
      generalize |(q : ℝ)| = A at *
      norm_num
      linarith) (by norm_num)
    rw [zero_sub] at hs
    exact hs.mono (by norm_num)) hab hdrow (by simp) hz
  have hget := rotateFold_get32 j (rs.zip D) (List.replicate 16 (fin 0)) (by simp; omega) (by
    intro p hp
    have h1 := D_rows p.2 (List.of_mem_zip hp).2
    omega)
  have hrot : (snsRotate rs) = (rs.zip D).foldl (fun t p => (t.zip p.2).map fun q => F32.add q.1 (F32.mul p.1 (rnd q.2))) (List.replicate 16 (fin 0)) := by
    unfold snsRotate
    have : (zero : F32) = fin 0 := rnd_zero
    rw [this]
    rfl
  rw [← hrot] at hget
  have h0 : (List.replicate 16 (fin 0)).getD j (fin 0) = fin 0 := by
    rw [List.getD_eq_getElem _ _ (by simp; omega), List.getElem_replicate]
  rw [h0] at hget
  have hmem : ((rs.zip D).foldl (fun s p => F32.add s (F32.mul p.1 (rnd (p.2.getD j 0)))) (fin 0)) ∈ (snsRotate rs).drop 10 := by
    refine List.mem_iff_getElem?.2 ⟨j - 10, ?_⟩
    rw [List.getElem?_drop, show 10 + (j - 10) = j by omega]
    exact hget
  refine ⟨_, hmem, ?_⟩
  obtain ⟨⟨v, hv⟩, hm3⟩ := hm2
  rw [hv] at hm3 ⊢
  have hv0 : v ≠ 0 := by
    rintro rfl
    have e : |val (fin 0) - (0 - ((colSum j (a ++ b) D : ℚ) : ℝ))| = |((colSum j (a ++ b) D : ℚ) : ℝ)| := by
      show |((0 : ℚ) : ℝ) - (0 - ((colSum j (a ++ b) D : ℚ) : ℝ))| = _
      rw [Rat.cast_zero, zero_sub, zero_sub, neg_neg]
    rw [e] at hm3
    have h25 : (1 / 25 : ℝ) ≤ |((colSum j (a ++ b) D : ℚ) : ℝ)| := by
      have : (((1 / 25 : ℚ)) : ℝ) ≤ ((|colSum j (a ++ b) D| : ℚ) : ℝ) := by exact_mod_cast hs
      push_cast at this ⊢
      exact this
    have hm16 : (m : ℝ) ≤ 16 := by
      have : m ≤ 16 := by rw [hrl, List.length_append] at hm1; omega
      exact_mod_cast this
    linarith
  show decide ((0 : ℚ) < |v|) = true
  exact decide_eq_true (abs_pos.2 hv0)

end F32
end Lc3
