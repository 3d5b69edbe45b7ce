import Verif.Lemmas.FinEncSns
import Verif.Lemmas.Silence32Sns
import Verif.Spec.Powers
/-!
# Sizes in the encoder in binary32: band energies and target scale factors

All bounds are powers of two and far from tight; what matters is that no value is NaN or infinite.
-/

namespace Lc3
open Scalar Tables Spec
namespace F32

variable {el : Elem}

theorem bd2_add {n : ℕ} {a b : F32} (ha : Bd (2 ^ n) a) (hb : Bd (2 ^ n) b) (hn : n ≤ 120) : Bd (2 ^ (n + 2)) (F32.add a b) := by
  have h1 : (1 : ℝ) ≤ 2 ^ n := one_le_pow₀ (by norm_num)
  have h2 : (2 : ℝ) ^ n ≤ 2 ^ 120 := pow_le_pow_right₀ (by norm_num) hn
  refine (ha.add hb ?_ ?_).mono ?_
  · norm_num at h2 ⊢; linarith
  · norm_num at h2 ⊢; linarith
  · rw [pow_add]
    norm_num
    linarith

theorem bd2_sub {n : ℕ} {a b : F32} (ha : Bd (2 ^ n) a) (hb : Bd (2 ^ n) b) (hn : n ≤ 120) : Bd (2 ^ (n + 2)) (F32.sub a b) :=
  bd2_add ha hb.neg hn

theorem bd2_mul {n m : ℕ} {a b : F32} (ha : Bd (2 ^ n) a) (hb : Bd (2 ^ m) b) (hn : n + m ≤ 120) : Bd (2 ^ (n + m + 1)) (F32.mul a b) := by
  have h1 : (1 : ℝ) ≤ 2 ^ (n + m) := one_le_pow₀ (by norm_num)
  have h2 : (2 : ℝ) ^ (n + m) ≤ 2 ^ 120 := pow_le_pow_right₀ (by norm_num) hn
  have e : (2 : ℝ) ^ n * 2 ^ m = 2 ^ (n + m) := (pow_add _ _ _).symm
  refine (ha.mul hb ?_ ?_).mono ?_
  · rw [e]; norm_num at h1 ⊢; linarith
  · rw [e]; norm_num at h2 ⊢; linarith
  · rw [e, pow_succ (2 : ℝ) (n + m)]
    generalize (2 : ℝ) ^ (n + m) = z at *
    norm_num
    linarith

theorem bd2_mono {n m : ℕ} {a : F32} (h : Bd (2 ^ n) a) (hnm : n ≤ m) : Bd (2 ^ m) a := h.mono (pow_le_pow_right₀ (by norm_num) hnm)

theorem bd2_div {n : ℕ} {a : F32} {k : ℤ} (ha : Bd (2 ^ n) a) (hk : 1 ≤ k) (hk2 : k ≤ 1024) (hn : n ≤ 120) : Bd (2 ^ (n + 1)) (F32.div a (rnd k)) := by
  have h1 : (1 : ℝ) ≤ 2 ^ n := one_le_pow₀ (by norm_num)
  have h2 : (2 : ℝ) ^ n ≤ 2 ^ 120 := pow_le_pow_right₀ (by norm_num) hn
  have hr : rnd (k : ℚ) = fin k := rnd_int (by rw [abs_le]; omega)
  have hv : |val (fin (k : ℚ))| = (k : ℝ) := by
    show |((k : ℚ) : ℝ)| = _
    rw [Rat.cast_intCast, abs_of_nonneg]
    exact_mod_cast (by omega : 0 ≤ k)
  rw [hr]
  refine (ha.div (B := 1) ⟨_, rfl⟩ one_pos ?_ ?_ ?_).mono ?_
  · rw [hv]; exact_mod_cast hk
  · rw [div_one]; norm_num at h1 ⊢; linarith
  · rw [div_one]; norm_num at h2 ⊢; linarith
  · rw [div_one, pow_succ (2 : ℝ) n]
    generalize (2 : ℝ) ^ n = z at *
    norm_num
    linarith

theorem bd_fold {β : Type} {n : ℕ} (hn : n ≤ 100) {g : β → F32} : ∀ (l : List β) (acc : F32) (k : ℕ), (∀ x ∈ l, Bd (2 ^ n) (g x)) → k + l.length ≤ 2 ^ 10 →
    Bd (2 * k * 2 ^ n) acc → Bd (2 * ((k + l.length : ℕ) : ℝ) * 2 ^ n) (l.foldl (fun s x => F32.add s (g x)) acc)
  | [], acc, k, _, _, h => by simpa using h
  | x :: l, acc, k, hg, hk, h => by
    have h1 : (1 : ℝ) ≤ 2 ^ n := one_le_pow₀ (by norm_num)
    have h2 : (2 : ℝ) ^ n ≤ 2 ^ 100 := pow_le_pow_right₀ (by norm_num) hn
    rw [List.length_cons] at hk
    have hk' : (k : ℝ) ≤ 2 ^ 10 := by exact_mod_cast (by omega : k ≤ 2 ^ 10)
    have hk0 : (0 : ℝ) ≤ k := Nat.cast_nonneg _
    have h3 : (k : ℝ) * 2 ^ n ≤ 2 ^ 10 * 2 ^ n := mul_le_mul_of_nonneg_right hk' (by positivity)
    have h4 : 0 ≤ (k : ℝ) * 2 ^ n := by positivity
    have ha := (h.add (hg x (by simp)) (by rw [mul_assoc]; norm_num at h1 ⊢; linarith) (by
      rw [mul_assoc]
      generalize (k : ℝ) * 2 ^ n = w at *
      norm_num at h2 h3 ⊢
      linarith)).mono
      (show _ ≤ 2 * ((k + 1 : ℕ) : ℝ) * 2 ^ n by
        push_cast
        rw [mul_assoc 2 (k : ℝ), mul_assoc 2 ((k : ℝ) + 1), add_mul (k : ℝ)]
        generalize (k : ℝ) * 2 ^ n = w at *
        norm_num at h3 ⊢
        linarith)
    have := bd_fold hn l _ (k + 1) (fun y hy => hg y (by simp [hy])) (by omega) ha
    rw [List.foldl_cons, List.length_cons]
    refine this.mono (le_of_eq ?_)
    congr 3
    omega

theorem bd_fold0 {β : Type} {n m : ℕ} (hn : n ≤ 100) {g : β → F32} {l : List β} (hg : ∀ x ∈ l, Bd (2 ^ n) (g x)) (hl : l.length ≤ 2 ^ m) (hm : m ≤ 10) :
    Bd (2 ^ (n + 1 + m)) (l.foldl (fun s x => F32.add s (g x)) (fin 0)) := by
  have h10 : (2 : ℕ) ^ m ≤ 2 ^ 10 := Nat.pow_le_pow_right (by norm_num) hm
  have := bd_fold hn l (fin 0) 0 hg (by omega) (bd_zero (by simp))
  refine this.mono ?_
  have hl' : ((0 + l.length : ℕ) : ℝ) ≤ 2 ^ m := by
    rw [Nat.zero_add]
    exact_mod_cast hl
  rw [pow_add, pow_succ]
  have h1 : (0 : ℝ) < 2 ^ n := by positivity
  calc 2 * ((0 + l.length : ℕ) : ℝ) * 2 ^ n ≤ 2 * 2 ^ m * 2 ^ n := by gcongr
    _ = _ := by ring

theorem bd_const {q : ℚ} (h : |(q : ℝ)| ≤ 1 / 2) : Bd (2 ^ 0) (rnd q) := by
  have := ab_rnd (q := q) h (by norm_num)
  exact this.bd (by norm_num at *; linarith)

theorem bd_const1 {q : ℚ} (h : |(q : ℝ)| ≤ 1) : Bd (2 ^ 1) (rnd q) := by
  have := ab_rnd (q := q) h (by norm_num)
  exact this.bd (by norm_num at *; linarith)

/-! ## Band energies -/

theorem bd_energyBands {tab : List Nat} {out : List F32} (h0 : AllBd (2 ^ 28) out) (hl : out.length ≤ 512) : ∀ n b eb,
    @energyBands F32 (scalar el) tab out b n = .ok eb → AllBd (2 ^ 68) eb := by
  letI := scalar el
  intro n
  induction n with
  | zero => intro b eb h; cases h; exact AllBd.nil
  | succ n ih =>
    intro b eb h
    rw [energyBands] at h
    obtain ⟨i, -, h⟩ := bind_ok_inv h
    obtain ⟨j, -, h⟩ := bind_ok_inv h
    obtain ⟨w, hw, h⟩ := bind_ok_inv h
    obtain ⟨part, hp, h⟩ := bind_ok_inv h
    obtain ⟨r, hr, h⟩ := bind_ok_inv h
    cases h
    refine AllBd.cons ?_ (ih _ _ hr)
    have hz : (zero : F32) = fin 0 := zero_eq
    rw [hz]
    have hpart : part.length = w ∧ w ≤ 512 := by
      unfold usub at hw
      split at hw
      · cases hw
        unfold sliceR at hp
        split at hp
        · rename_i h2
          cases hp
          rw [List.length_drop, List.length_take]
          omega
        · cases hp
      · cases hw
    have key := bd_fold0 (n := 58) (m := 9) (by norm_num) (g := fun o => F32.div (F32.mul o o) (rnd ((w : ℤ) : ℚ))) (l := part) (by
      intro o ho
      have bo := h0 o (sliceR_mem hp o ho)
      have hne : 0 < part.length := List.length_pos_of_mem ho
      exact bd2_div (bd2_mul bo bo (by norm_num)) (by omega) (by omega) (by norm_num)) (by omega) (by norm_num)
    exact key

theorem bd_mdct_eb (hel : Accurate el) {f : SamplingFrequency} {d : FrameDuration} {freq x freq' : List ℤ} {lines eb : List F32} {nn : Bool}
    (hl : freq.length = 2 * (Lc3Config.new f d).nf) (hf : ∀ v ∈ freq, |v| ≤ 2 ^ 15) (hx : ∀ v ∈ x, |v| ≤ 2 ^ 15)
    (h : @mdctEncRun F32 (scalar el) (Lc3Config.new f d) freq x = .ok (freq', lines, eb, nn)) : AllBd (2 ^ 68) eb := by
  have hb := bd_mdctEncRun hel hl hf hx h
  letI := scalar el
  obtain ⟨freq2, eb2, nn2, out2, e1, hol⟩ := mdctEncRun_returns (α := F32) (f := f) (d := d) (x := x) hl (by
    unfold mdctEncRun at h
    split at h
    · cases h
    · rename_i hne
      simpa using hne)
  rw [h] at e1
  cases e1
  unfold mdctEncRun at h
  split at h
  · cases h
  obtain ⟨freq', e1, h⟩ := bind_ok_inv h
  obtain ⟨wn, e2, h⟩ := bind_ok_inv h
  obtain ⟨out', e3, h⟩ := bind_ok_inv h
  obtain ⟨tab, e4, h⟩ := bind_ok_inv h
  obtain ⟨eb', e5, h⟩ := bind_ok_inv h
  obtain ⟨nn', e6, h⟩ := bind_ok_inv h
  cases h
  exact bd_energyBands hb (by rw [hol]; cases f <;> cases d <;> decide) _ _ _ e5

/-! ## Smoothing, tilt and logarithm -/

theorem bd_smooth {x : List F32} (h : AllBd (2 ^ 68) x) : AllBd (2 ^ 75) (@snsSmooth F32 (scalar el) x) := by
  letI := scalar el
  have ht : ∀ (q : ℚ) (i : ℕ), |(q : ℝ)| ≤ 1 → Bd (2 ^ 70) (F32.mul (rnd q) (@at0 F32 (scalar el) x i)) := fun q i hq => by
    have := bd2_mul (bd_const1 hq) (AllBd.at0 (el := el) (by positivity) h i) (by norm_num)
    exact this
  intro a ha
  unfold snsSmooth at ha
  simp only [List.mem_append, List.mem_cons, List.mem_map, List.not_mem_nil, or_false] at ha
  rcases ha with (rfl | ⟨n, -, rfl⟩) | rfl
  · exact bd2_mono (bd2_add (ht _ _ (by norm_num)) (ht _ _ (by norm_num)) (by norm_num)) (by norm_num)
  · exact bd2_mono (bd2_add (bd2_add (ht _ _ (by norm_num)) (ht _ _ (by norm_num)) (by norm_num)) (bd2_mono (ht _ _ (by norm_num)) (by norm_num)) (by norm_num)) (by norm_num)
  · exact bd2_mono (bd2_add (ht _ _ (by norm_num)) (ht _ _ (by norm_num)) (by norm_num)) (by norm_num)

theorem bd_tilt (he : Tame el) {t i : ℕ} (ht : t ≤ 30) (hi : i ≤ 63) :
    Bd (2 ^ 15) (el.pow10 (F32.mul (rnd ((i : ℤ) : ℚ)) (F32.div (rnd ((t : ℤ) : ℚ)) (rnd 630)))) := by
  have bt := (ab_int (n := (t : ℤ)) (by rw [abs_le]; omega)).bd (B := 30) (by
    have : (t : ℝ) ≤ 30 := by exact_mod_cast ht
    have h0 : (0 : ℝ) ≤ t := Nat.cast_nonneg _
    rw [Int.cast_natCast, abs_of_nonneg h0]
    linarith)
  have bi := (ab_int (n := (i : ℤ)) (by rw [abs_le]; omega)).bd (B := 63) (by
    have : (i : ℝ) ≤ 63 := by exact_mod_cast hi
    have h0 : (0 : ℝ) ≤ i := Nat.cast_nonneg _
    rw [Int.cast_natCast, abs_of_nonneg h0]
    linarith)
  have e630 : rnd 630 = fin 630 := by simpa using rnd_int (n := 630) (by norm_num)
  have b1 := bt.div (b := rnd 630) (B := 630) (by rw [e630]; exact ⟨_, rfl⟩) (by norm_num) (by
    rw [e630]
    show (630 : ℝ) ≤ |((630 : ℚ) : ℝ)|
    norm_num) (by norm_num) (by norm_num)
  have b2 := (bi.mul b1 (by norm_num) (by norm_num)).mono (show _ ≤ (4 : ℝ) by norm_num)
  obtain ⟨⟨q, hq⟩, hb⟩ := b2
  rw [hq] at hb ⊢
  have hb' : |(q : ℝ)| ≤ 4 := hb
  obtain ⟨c, c1, c2⟩ := he.pow10 q (by
    have : |(q : ℝ)| ≤ ((10 : ℚ) : ℝ) := hb'.trans (by norm_num)
    exact_mod_cast this)
  rw [c1]
  refine ⟨⟨c, rfl⟩, ?_⟩
  show |(c : ℝ)| ≤ _
  have h0 : 0 < (10 : ℝ) ^ (q : ℝ) := by positivity
  have h1 : (10 : ℝ) ^ (q : ℝ) ≤ (10 : ℝ) ^ (4 : ℝ) := Real.rpow_le_rpow_of_exponent_le (by norm_num) ((le_abs_self _).trans hb')
  rw [show (4 : ℝ) = ((4 : ℕ) : ℝ) by norm_num, Real.rpow_natCast] at h1
  have := abs_sub_abs_le_abs_sub (c : ℝ) ((10 : ℝ) ^ (q : ℝ))
  rw [abs_of_pos h0] at this
  norm_num at *
  linarith

theorem maxF_fin (p q : ℚ) : maxF (fin p) (fin q) = fin (max p q) := by
  show (if lt (fin p) (fin q) then fin q else fin p) = _
  by_cases h : p < q
  · rw [if_pos (by show decide (p < q) = true; exact decide_eq_true h), max_eq_right h.le]
  · rw [if_neg (by show ¬ decide (p < q) = true; simpa using h), max_eq_left (not_lt.1 h)]

theorem bd_log (hl : LogFunctions el) {q : ℚ} (h0 : 1 / 2 ^ 32 ≤ q) (h1 : (q : ℝ) ≤ 2 ^ 110) :
    Bd (2 ^ 6) (F32.div (el.log2 (F32.add (rnd (1 / 8388608)) (fin q))) (rnd 2)) := by
  have hr : rnd (1 / 8388608) = fin (1 / 8388608) := by
    have : rndQ (1 / 8388608) = 1 / 8388608 := rndQ_rep ⟨1, -23, by norm_num, by norm_num, by norm_num⟩
    rw [rnd_fin (by rw [abs_of_pos (by norm_num)]; norm_num), this]
  have hq0 : (0 : ℝ) < q := by
    have : (0 : ℚ) < q := lt_of_lt_of_le (by norm_num) h0
    exact_mod_cast this
  rw [hr]
  have v1 : val (fin (1 / 8388608)) = 1 / 8388608 := by show ((1 / 8388608 : ℚ) : ℝ) = _; push_cast; rfl
  have v2 : val (fin q) = q := rfl
  obtain ⟨⟨s, hs⟩, hse⟩ := add_val (a := fin (1 / 8388608)) (b := fin q) ⟨_, rfl⟩ ⟨_, rfl⟩ (by
    rw [v1, v2, abs_of_pos (by positivity)]
    norm_num at h1 ⊢
    linarith)
  rw [hs, v1, v2, abs_of_pos (by positivity : (0 : ℝ) < 1 / 8388608 + q)] at hse
  have hse' : |(s : ℝ) - (1 / 8388608 + q)| ≤ (1 / 8388608 + q) / 2 ^ 24 + 1 / 2 ^ 150 := hse
  have hs1 : (1 : ℝ) / 2 ^ 24 ≤ s := by
    have := (abs_le.1 hse').1
    norm_num at this ⊢
    linarith
  have hs2 : (s : ℝ) ≤ 2 ^ 111 := by
    have := (abs_le.1 hse').2
    norm_num at this h1 ⊢
    linarith
  have hs0 : (0 : ℝ) < s := lt_of_lt_of_le (by norm_num) hs1
  obtain ⟨c, c1, c2⟩ := hl.log2 s (by exact_mod_cast hs0)
  have hb : |Real.logb 2 (s : ℝ)| ≤ 111 := by
    have e1 : Real.logb 2 ((1 : ℝ) / 2 ^ 24) = -24 := by
      rw [one_div, Real.logb_inv, Real.logb_pow, Real.logb_self_eq_one (by norm_num)]
      norm_num
    have e2 : Real.logb 2 ((2 : ℝ) ^ 111) = 111 := by
      rw [Real.logb_pow, Real.logb_self_eq_one (by norm_num)]
      norm_num
    have e3 := Real.logb_le_logb_of_le (b := 2) (by norm_num) (by positivity) hs1
    have e4 := Real.logb_le_logb_of_le (b := 2) (by norm_num) hs0 hs2
    rw [e1] at e3
    rw [e2] at e4
    rw [abs_le]
    constructor <;> linarith
  rw [hs, c1]
  have hc : |(c : ℝ)| ≤ 112 := by
    have := abs_sub_abs_le_abs_sub (c : ℝ) (Real.logb 2 (s : ℝ))
    generalize |(c : ℝ) - Real.logb 2 (s : ℝ)| = A at *
    generalize |Real.logb 2 (s : ℝ)| = B at *
    norm_num at c2
    linarith
  have ha : Ab (c : ℝ) 0 (fin c) := ⟨⟨c, rfl⟩, by show |(c : ℝ) - c| ≤ 0; simp⟩
  have hd := ha.divNat (n := 2) (by norm_num) (by norm_num) (M := 112) (by linarith) (by norm_num)
  have hq : F32.div (fin c) (rnd ((2 : ℤ) : ℚ)) = F32.div (fin c) (rnd 2) := by norm_num
  rw [hq] at hd
  refine hd.bd ?_
  rw [abs_div]
  generalize |(c : ℝ)| = C at *
  norm_num
  linarith

/-- the logarithms of the band energies -/
theorem bd_target (he : Tame el) (hl : LogFunctions el) {δ δ' : ℝ} (hp : Powers el δ δ') {cfg : Lc3Config} {eb scf : List F32} {att : Bool}
    (hb : AllBd (2 ^ 68) eb) (hlen : eb.length = 64)
    (hnb : cfg.nb = 64) (h : @snsTarget F32 (scalar el) cfg eb att = .ok scf) : ∃ e : List F32, AllBd (2 ^ 6) e ∧
      scf = @snsAttack F32 (scalar el) att cfg.nMs (@snsMeanRemoval F32 (scalar el) (@snsDownsample F32 (scalar el) e)) := by
  letI := scalar el
  unfold snsTarget at h
  obtain ⟨t, ht, h⟩ := bind_ok_inv h
  obtain ⟨p, hpd, h⟩ := bind_ok_inv h
  simp only [Res.ok.injEq] at h
  subst h
  refine ⟨_, ?_, rfl⟩
  have hp' : p = eb := by
    unfold snsPad at hpd
    rw [hnb, show usub 64 64 = .ok 0 from rfl, Res.bind_ok, if_neg (by norm_num), if_pos hlen] at hpd
    exact (Res.ok.inj hpd).symm
  subst hp'
  have ht30 : t ≤ 30 := by
    have : ∀ t ∈ G_TILT, t ≤ 30 := by decide
    exact this t (idx_mem ht)
  have hsl : (snsSmooth p).length = 64 := by unfold snsSmooth; simp
  have hez : AllBd (2 ^ 91) ((snsSmooth p).zipIdx.map fun q => q.1 * pow10 (ofInt (q.2 : Int) * (ofInt (t : Int) / ofRat 630))) := by
    intro w hw
    obtain ⟨q, hq, rfl⟩ := List.mem_map.1 hw
    have hi : q.2 < 64 := by
      have := List.snd_lt_of_mem_zipIdx hq
      omega
    exact bd2_mul (bd_smooth hb _ (List.fst_mem_of_mem_zipIdx hq)) (bd_tilt he ht30 (by omega)) (by norm_num)
  have hel : ((snsSmooth p).zipIdx.map fun q => q.1 * pow10 (ofInt (q.2 : Int) * (ofInt (t : Int) / ofRat 630)) : List F32).length = 64 := by simp [hsl]
  generalize ((snsSmooth p).zipIdx.map fun q => q.1 * pow10 (ofInt (q.2 : Int) * (ofInt (t : Int) / ofRat 630)) : List F32) = e at hez hel ⊢
  have h2 : rnd 2 = fin 2 := by simpa using rnd_int (n := 2) (by norm_num)
  have h10 : rnd 10 = fin 10 := by simpa using rnd_int (n := 10) (by norm_num)
  have h64 : rnd 64 = rnd ((64 : ℤ) : ℚ) := by norm_num
  obtain ⟨c, hc1, hc2⟩ := hp.tenth
  have hc : Bd (2 ^ 0) (fin c) := by
    refine ⟨⟨c, rfl⟩, ?_⟩
    show |(c : ℝ)| ≤ _
    have := (abs_le.1 hc2)
    rw [abs_le]
    norm_num at *
    constructor <;> linarith
  have hpw : (powi (ofRat 2 : F32) (-32) : F32) = fin (1 / 2 ^ 32) := by
    show el.powi (rnd 2) (-32) = _
    rw [h2, hl.powi]
  have hpt : (powi (ofRat 10 : F32) (-4) : F32) = fin c := by
    show el.powi (rnd 10) (-4) = _
    rw [h10, hc1]
  have hsum : Bd (2 ^ 100) (sumS e / ofRat 64 * powi (ofRat 10) (-4) : F32) := by
    rw [hpt]
    have hz : (zero : F32) = fin 0 := zero_eq
    have s1 : Bd (2 ^ 98) (sumS e) := by
      unfold sumS
      rw [hz]
      exact bd_fold0 (n := 91) (m := 6) (g := id) (by norm_num) hez (by omega) (by norm_num)
    have s2 : Bd (2 ^ 99) (sumS e / ofRat 64 : F32) := by
      show Bd _ (F32.div _ (rnd 64))
      rw [h64]
      exact bd2_div s1 (by norm_num) (by norm_num) (by norm_num)
    exact bd2_mul s2 hc (by norm_num)
  intro w hw
  obtain ⟨x, hx, rfl⟩ := List.mem_map.1 hw
  obtain ⟨⟨s, hs⟩, hsb⟩ := hsum
  obtain ⟨⟨xq, hxq⟩, hxb⟩ := hez x hx
  rw [hs] at hsb ⊢
  rw [hxq] at hxb ⊢
  rw [hpw]
  have e1 : maxS (fin (1 / 2 ^ 32)) (fin s) = fin (max (1 / 2 ^ 32) s) := maxF_fin _ _
  rw [e1]
  have e2 : maxS (fin xq) (fin (max (1 / 2 ^ 32) s)) = fin (max xq (max (1 / 2 ^ 32) s)) := maxF_fin _ _
  rw [e2]
  refine bd_log hl ((le_max_left _ _).trans (le_max_right _ _)) ?_
  have b1 : (s : ℝ) ≤ 2 ^ 100 := (le_abs_self _).trans hsb
  have b2 : (xq : ℝ) ≤ 2 ^ 91 := (le_abs_self _).trans hxb
  rw [Rat.cast_max, Rat.cast_max]
  refine max_le (b2.trans (by norm_num)) (max_le (by norm_num) (b1.trans (by norm_num)))

/-! ## The scale factors -/

theorem bd_weight (k : ℕ) : Bd (2 ^ 0) (@at0 F32 (scalar el) (@WEIGHTING F32 (scalar el)) k) ∧ ∀ w ∈ @WEIGHTING F32 (scalar el), Bd (2 ^ 0) w := by
  have key : AllBd (2 ^ 0) (@WEIGHTING F32 (scalar el)) := by
    have h : ∀ n : ℤ, 0 ≤ n → n ≤ 3 → Bd (2 ^ 0) (F32.div (rnd n) (rnd ((12 : ℤ) : ℚ))) := by
      intro n h0 h3
      have := (ab_int (n := n) (by rw [abs_le]; omega)).divNat (n := 12) (by norm_num) (by norm_num) (M := 3) (by
        have : (n : ℝ) ≤ 3 := by exact_mod_cast h3
        have h0' : (0 : ℝ) ≤ n := by exact_mod_cast h0
        rw [abs_of_nonneg h0']
        linarith) (by norm_num)
      refine this.bd ?_
      have h3' : (n : ℝ) ≤ 3 := by exact_mod_cast h3
      have h0' : (0 : ℝ) ≤ n := by exact_mod_cast h0
      rw [abs_of_nonneg (by positivity)]
      push_cast
      norm_num
      linarith
    intro w hw
    unfold WEIGHTING at hw
    simp only [List.mem_cons, List.not_mem_nil, or_false] at hw
    have c1 : Bd (2 ^ 0) (F32.div (rnd 1) (rnd 12)) := by have := h 1 (by norm_num) (by norm_num); norm_num at this ⊢; exact this
    have c2 : Bd (2 ^ 0) (F32.div (rnd 2) (rnd 12)) := by have := h 2 (by norm_num) (by norm_num); norm_num at this ⊢; exact this
    have c3 : Bd (2 ^ 0) (F32.div (rnd 3) (rnd 12)) := by have := h 3 (by norm_num) (by norm_num); norm_num at this ⊢; exact this
    rcases hw with rfl | rfl | rfl | rfl | rfl | rfl
    · exact c1
    · exact c2
    · exact c3
    · exact c3
    · exact c2
    · exact c1
  exact ⟨AllBd.at0 (by norm_num) key k, key⟩

theorem bd_downsample {e : List F32} (h : AllBd (2 ^ 6) e) : AllBd (2 ^ 11) (@snsDownsample F32 (scalar el) e) := by
  letI := scalar el
  have hat := fun i => AllBd.at0 (el := el) (by norm_num) h i
  have hwt := fun k i => bd2_mul (bd_weight (el := el) k).1 (hat i) (by norm_num)
  have hz : (zero : F32) = fin 0 := zero_eq
  have ends : ∀ (l : List ℕ) (g : ℕ → F32) (a : F32), l.length = 5 → (∀ k, Bd (2 ^ 7) (g k)) → Bd (2 ^ 7) a →
      Bd (2 ^ 11) (l.foldl (fun s k => F32.add s (g k)) a) := by
    intro l g a hl hg ha
    have := bd_fold (n := 7) (by norm_num) l a 1 (fun x _ => hg x) (by rw [hl]; norm_num) (ha.mono (by norm_num))
    refine this.mono ?_
    rw [hl]
    norm_num
  intro a ha
  unfold snsDownsample at ha
  simp only [List.mem_append, List.mem_cons, List.mem_map, List.not_mem_nil, or_false] at ha
  rcases ha with (rfl | ⟨n, -, rfl⟩) | rfl
  · exact ends _ (fun k => F32.mul (at0 WEIGHTING (k + 1)) (at0 e k)) _ rfl (fun k => hwt _ _) (hwt _ _)
  · rw [hz]
    exact bd_fold0 (n := 7) (m := 3) (g := fun p : F32 × F32 => F32.mul p.1 p.2) (by norm_num) (fun p hp => by
      have h1 := (bd_weight (el := el) 0).2 p.1 (List.of_mem_zip (a := p.1) (b := p.2) hp).1
      have h2 := h p.2 (List.mem_of_mem_drop (List.of_mem_zip (a := p.1) (b := p.2) hp).2)
      exact bd2_mul h1 h2 (by norm_num)) (by
        rw [List.length_zip]
        have : (WEIGHTING : List F32).length = 6 := rfl
        omega) (by norm_num)
  · exact ends _ (fun k => F32.mul (at0 WEIGHTING k) (at0 e (59 + k))) _ rfl (fun k => hwt _ _) (hwt _ _)

theorem bd_mean {n : ℕ} (hn : n ≤ 90) {l : List F32} (h : AllBd (2 ^ n) l) (hl : l.length = 16) {b : F32} (hb : b ∈ l) :
    Bd (2 ^ (n + 8)) (F32.sub b (F32.div (@sumS F32 (scalar el) l) (rnd ((l.length : ℤ) : ℚ)))) := by
  letI := scalar el
  have hz : (zero : F32) = fin 0 := zero_eq
  have s1 : Bd (2 ^ (n + 1 + 4)) (sumS l) := by
    unfold sumS
    rw [hz]
    exact bd_fold0 (m := 4) (g := id) (by omega) h (by omega) (by norm_num)
  have s2 := bd2_div (k := (l.length : ℤ)) s1 (by omega) (by omega) (by omega)
  exact bd2_mono (bd2_sub (bd2_mono (h b hb) (by omega : n ≤ n + 1 + 4 + 1)) s2 (by omega)) (by omega)

theorem bd_meanRemoval {l : List F32} (h : AllBd (2 ^ 11) l) (hl : l.length = 16) : AllBd (2 ^ 21) (@snsMeanRemoval F32 (scalar el) l) := by
  letI := scalar el
  intro a ha
  unfold snsMeanRemoval at ha
  simp only at ha
  obtain ⟨b, hb, rfl⟩ := List.mem_map.1 ha
  exact bd2_mono (bd2_mul (bd_const1 (q := 17 / 20) (by norm_num)) (bd_mean (el := el) (by norm_num) h hl hb) (by norm_num)) (by norm_num)

theorem bd_attack {l : List F32} (h : AllBd (2 ^ 21) l) (att : Bool) (dur : FrameDuration) :
    AllBd (2 ^ 38) (@snsAttack F32 (scalar el) att dur l) := by
  letI := scalar el
  unfold snsAttack
  split
  swap
  · exact fun a ha => bd2_mono (h a ha) (by norm_num)
  have hat := fun i => AllBd.at0 (el := el) (by norm_num) h i
  have hz : (zero : F32) = fin 0 := zero_eq
  have i3 : rnd 3 = rnd ((3 : ℤ) : ℚ) := by norm_num
  have i4 : rnd 4 = rnd ((4 : ℤ) : ℚ) := by norm_num
  have i5 : rnd 5 = rnd ((5 : ℤ) : ℚ) := by norm_num
  have d3 : ∀ i j k, Bd (2 ^ 28) ((at0 l i + at0 l j + at0 l k) / ofRat 3 : F32) := by
    intro i j k
    show Bd _ (F32.div _ (rnd 3))
    rw [i3]
    exact bd2_mono (bd2_div (bd2_add (bd2_add (hat i) (hat j) (by norm_num)) (bd2_mono (hat k) (by norm_num)) (by norm_num)) (by norm_num) (by norm_num)
      (by norm_num)) (by norm_num)
  have d4 : ∀ i j k m, Bd (2 ^ 28) ((at0 l i + at0 l j + at0 l k + at0 l m) / ofRat 4 : F32) := by
    intro i j k m
    show Bd _ (F32.div _ (rnd 4))
    rw [i4]
    exact bd2_mono (bd2_div (bd2_add (bd2_add (bd2_add (hat i) (hat j) (by norm_num)) (bd2_mono (hat k) (by norm_num)) (by norm_num))
      (bd2_mono (hat m) (by norm_num)) (by norm_num)) (by norm_num) (by norm_num) (by norm_num)) (by norm_num)
  have d5 : ∀ n, Bd (2 ^ 28) (sumS ((l.drop n).take 5) / ofRat 5 : F32) := by
    intro n
    show Bd _ (F32.div _ (rnd 5))
    rw [i5]
    unfold sumS
    rw [hz]
    exact bd2_mono (bd2_div (bd_fold0 (n := 21) (m := 3) (g := id) (l := (l.drop n).take 5) (by norm_num)
      (fun b hb => h b (List.mem_of_mem_drop (List.mem_of_mem_take hb)))
      (by rw [List.length_take]; omega) (by norm_num)) (by norm_num) (by norm_num) (by norm_num)) (by norm_num)
  simp only
  generalize ho : ([(at0 l 0 + at0 l 1 + at0 l 2) / ofRat 3, (at0 l 0 + at0 l 1 + at0 l 2 + at0 l 3) / ofRat 4] ++
      ((List.range 12).map fun n => sumS ((l.drop n).take 5) / ofRat 5) ++
      [(at0 l 12 + at0 l 13 + at0 l 14 + at0 l 15) / ofRat 4, (at0 l 13 + at0 l 14 + at0 l 15) / ofRat 3] : List F32) = o
  have hol : o.length = 16 := by rw [← ho]; simp
  have hoa : AllBd (2 ^ 28) o := by
    rw [← ho]
    intro b hb
    simp only [List.mem_append, List.mem_cons, List.mem_map, List.not_mem_nil, or_false] at hb
    rcases hb with ((rfl | rfl) | ⟨n, -, rfl⟩) | rfl | rfl
    · exact d3 _ _ _
    · exact d4 _ _ _ _
    · exact d5 _
    · exact d4 _ _ _ _
    · exact d3 _ _ _
  intro b hb
  obtain ⟨c, hc, rfl⟩ := List.mem_map.1 hb
  have hm := bd_mean (el := el) (by norm_num) hoa hol hc
  cases dur
  · exact bd2_mono (bd2_mul (bd_const1 (q := 3 / 10) (by norm_num)) hm (by norm_num)) (by norm_num)
  · exact bd2_mono (bd2_mul (bd_const1 (q := 1 / 2) (by norm_num)) hm (by norm_num)) (by norm_num)

/-- the target scale factors are finite -/
theorem bd_snsTarget (he : Tame el) (hl : LogFunctions el) {δ δ' : ℝ} (hp : Powers el δ δ') {cfg : Lc3Config} {eb scf : List F32} {att : Bool}
    (hb : AllBd (2 ^ 68) eb) (hlen : eb.length = 64)
    (hnb : cfg.nb = 64) (h : @snsTarget F32 (scalar el) cfg eb att = .ok scf) : AllBd (2 ^ 38) scf := by
  obtain ⟨e, h1, rfl⟩ := bd_target he hl hp hb hlen hnb h
  exact bd_attack (bd_meanRemoval (bd_downsample h1) (by unfold snsDownsample; simp)) _ _

end F32
end Lc3
