import Verif.Lemmas.F32Fin
import Verif.Spec.Finite
/-! Sizes in the decoder in binary32: the spectrum up to the global gain. -/

namespace Lc3.F32
open Scalar Tables

variable {el : Elem}

theorem bd_ofInt {v : ℤ} {B : ℝ} (h : |(v : ℝ)| ≤ B) (hB : 1 ≤ B) (hB2 : B ≤ 2 ^ 120) :
    Bd (B * (1 + 1 / 2 ^ 23)) (@Scalar.ofInt F32 (scalar el) v) := by
  refine bd_rnd (q := (v : ℚ)) (by simpa using h) ?_ ?_
  · refine le_trans ?_ hB; norm_num
  · refine hB2.trans ?_; norm_num

theorem bd_refine {b : Bool} {x : F32} {B : ℝ} (h : Bd B x) (hB : 1 ≤ B) (hB2 : B ≤ 2 ^ 120) :
    Bd ((B + 1) * (1 + 1 / 2 ^ 23)) (@refineLine F32 (scalar el) b x) := by
  have k : ∀ q : ℚ, |(q : ℝ)| ≤ 1 / 2 → Bd 1 (rnd q) := by
    intro q hq
    refine (bd_rnd hq (by norm_num) (by norm_num)).mono ?_
    norm_num
  have hlo : (1 : ℝ) / 2 ^ 120 ≤ B + 1 := by
    have : (1 : ℝ) / 2 ^ 120 ≤ 1 := by norm_num
    linarith
  have hhi : B + 1 ≤ (2 : ℝ) ^ 126 := by norm_num at hB2 ⊢; linarith
  unfold refineLine
  split
  · split
    · exact h.add (k _ (by norm_num [abs_le])) hlo hhi
    · exact h.add (k _ (by norm_num [abs_le])) hlo hhi
  · split
    · exact h.sub (k _ (by norm_num [abs_le])) hlo hhi
    · exact h.sub (k _ (by norm_num [abs_le])) hlo hhi

theorem bd_residual {B : ℝ} (hB : 1 ≤ B) (hB2 : B ≤ 2 ^ 120) : ∀ (bits : List Bool) (l : List F32), AllBd B l →
    AllBd ((B + 1) * (1 + 1 / 2 ^ 23)) (@residualLoop F32 (scalar el) bits l)
  | _, [], _ => AllBd.nil
  | bits, x :: xs, h => by
    have hx : Bd B x := h x (by simp)
    have hxs : AllBd B xs := fun a ha => h a (by simp [ha])
    have hm : B ≤ (B + 1) * (1 + 1 / 2 ^ 23) := by norm_num; linarith
    letI := scalar el
    unfold residualLoop
    split
    · split
      · exact h.mono hm
      · exact AllBd.cons (bd_refine hx hB hB2) (bd_residual hB hB2 _ xs hxs)
    · exact AllBd.cons (hx.mono hm) (bd_residual hB hB2 _ xs hxs)

theorem bd_noise {B : ℝ} {stop start width : ℕ} {level : F32} (hl : Bd B level) {ints : List ℤ} : ∀ (l : List F32) (k seed : ℕ) (r : List F32),
    AllBd B l → @noiseFillLoop F32 (scalar el) stop start width level ints k seed l = .ok r → AllBd B r
  | [], k, seed, r, _, e => by
    simp only [noiseFillLoop, Res.ok.injEq] at e
    subst e
    exact AllBd.nil
  | x :: xs, k, seed, r, h, e => by
    have hx : Bd B x := h x (by simp)
    have hxs : AllBd B xs := fun a ha => h a (by simp [ha])
    letI := scalar el
    unfold noiseFillLoop at e
    split at e
    · obtain ⟨l, h1, e⟩ := bind_ok_inv e
      cases e
      exact AllBd.cons hx (bd_noise hl xs _ _ _ hxs h1)
    · obtain ⟨lo, -, e⟩ := bind_ok_inv e
      obtain ⟨s1, -, e⟩ := bind_ok_inv e
      simp only at e
      split at e
      · cases e
      split at e
      · obtain ⟨sd, -, e⟩ := bind_ok_inv e
        obtain ⟨l, h1, e⟩ := bind_ok_inv e
        cases e
        refine AllBd.cons ?_ (bd_noise hl xs _ _ _ hxs h1)
        split
        · exact hl
        · exact hl.neg
      · obtain ⟨l, h1, e⟩ := bind_ok_inv e
        cases e
        exact AllBd.cons hx (bd_noise hl xs _ _ _ hxs h1)

theorem rnd_pow2 {k : ℕ} (h : k ≤ 20) : rnd (2 ^ k) = fin (2 ^ k) := by
  have h1 : Rep ((2 : ℚ) ^ k) := ⟨1, k, by push_cast; rw [one_mul, zpow_natCast], by norm_num, by omega⟩
  have h2 : |(2 : ℚ) ^ k| ≤ 2 ^ 127 := by
    rw [abs_of_pos (by positivity)]
    exact pow_le_pow_right₀ (by norm_num) (by omega)
  rw [rnd_fin h2, rndQ_rep h1]

theorem bd_noiseFilling {zf : Bool} {seed bw : ℕ} {d : FrameDuration} {nf : ℕ} (hnf : nf < 8) {ints : List ℤ} {l r : List F32} {B : ℝ}
    (h : AllBd B l) (hB : 2 ≤ B) (e : @noiseFilling F32 (scalar el) zf seed bw d nf ints l = .ok r) : AllBd B r := by
  letI := scalar el
  unfold noiseFilling at e
  split at e
  · obtain ⟨stop, -, e⟩ := bind_ok_inv e
    refine bd_noise ?_ l _ _ _ h e
    have h8 : Bd 8 (rnd 8) := by
      have := rnd_pow2 (k := 3) (by norm_num)
      norm_num at this
      rw [this]
      exact ⟨⟨_, rfl⟩, by show |((8 : ℚ) : ℝ)| ≤ 8; norm_num⟩
    have hn : Bd 8 (rnd (nf : ℚ)) := by
      have h7 : (nf : ℝ) ≤ 7 := by exact_mod_cast (by omega : nf ≤ 7)
      refine (bd_rnd (q := (nf : ℚ)) (B := 7) ?_ (by norm_num) (by norm_num)).mono (by norm_num)
      rw [Rat.cast_natCast, abs_of_nonneg (by positivity)]
      exact h7
    have h16 : rnd 16 = fin 16 := by
      have := rnd_pow2 (k := 4) (by norm_num)
      norm_num at this
      exact this
    have hs := h8.sub hn (by norm_num) (by norm_num)
    show Bd B (F32.div (F32.sub (rnd 8) (rnd (nf : ℚ))) (rnd 16))
    rw [h16]
    refine (hs.div (B := 16) ⟨_, rfl⟩ (by norm_num) (by show 16 ≤ |((16 : ℚ) : ℝ)|; norm_num) (by norm_num) (by norm_num)).mono ?_
    refine le_trans ?_ hB
    norm_num
  · cases e
    exact h

theorem rpow_le_gain {q : ℝ} (h : q ≤ 26 / 5) : (10 : ℝ) ^ q ≤ 2 ^ 18 := by
  have h1 : (10 : ℝ) ^ q ≤ (10 : ℝ) ^ (26 / 5 : ℝ) := Real.rpow_le_rpow_of_exponent_le (by norm_num) h
  refine h1.trans ?_
  have h2 : ((10 : ℝ) ^ (26 / 5 : ℝ)) ^ 5 = 10 ^ 26 := by
    rw [← Real.rpow_natCast, ← Real.rpow_mul (by norm_num)]
    norm_num
  by_contra hc
  have h3 := pow_lt_pow_left₀ (not_le.1 hc) (by norm_num) (by norm_num : (5 : ℕ) ≠ 0)
  rw [h2] at h3
  norm_num at h3

theorem bd_gain (hel : Tame el) {nbits fsInd gg : ℕ} (hn : nbits < 2 ^ 31) (hfs : fsInd ≤ 4) (hg : gg < 256) :
    Bd (101 / 100 * 2 ^ 18) (@globalGainFactor F32 (scalar el) nbits fsInd gg) := by
  obtain ⟨o, ho⟩ : ∃ o, o = ggOffDec nbits fsInd := ⟨_, rfl⟩
  have ho1 : o ≤ -110 ∧ -245 ≤ o := by
    have hw : toI32Wrap nbits = nbits := by
      unfold toI32Wrap
      simp only
      rw [Nat.mod_eq_of_lt (by omega), if_pos hn]
    rw [ho]
    unfold ggOffDec
    simp only
    rw [hw]
    have : 0 ≤ Int.tdiv (nbits : ℤ) (10 * ((fsInd : ℤ) + 1)) := Int.tdiv_nonneg (by omega) (by omega)
    omega
  -- the exponent
  have r1 : rnd (gg : ℚ) = fin gg := by
    have : Rep (gg : ℚ) := ⟨gg, 0, by push_cast; simp, by rw [abs_of_nonneg (by omega)]; omega, by omega⟩
    rw [rnd_fin, rndQ_rep this]
    rw [abs_of_nonneg (by positivity)]
    have : (gg : ℚ) ≤ 256 := by exact_mod_cast hg.le
    refine this.trans (by norm_num)
  have r2 : rnd (o : ℚ) = fin o := by
    have : Rep (o : ℚ) := ⟨o, 0, by simp, by rw [abs_lt]; omega, by omega⟩
    rw [rnd_fin, rndQ_rep this]
    have a1 : (o : ℚ) ≤ -110 := by exact_mod_cast ho1.1
    have a2 : (-245 : ℚ) ≤ o := by exact_mod_cast ho1.2
    rw [abs_le]
    constructor <;> norm_num <;> linarith
  have r3 : F32.add (fin (gg : ℚ)) (fin (o : ℚ)) = fin ((gg : ℚ) + o) := by
    show rnd ((gg : ℚ) + o) = _
    have : Rep ((gg : ℚ) + o) := ⟨gg + o, 0, by push_cast; simp, by rw [abs_lt]; omega, by omega⟩
    rw [rnd_fin, rndQ_rep this]
    have a1 : (gg : ℚ) + o ≤ 146 := by exact_mod_cast (by omega : (gg : ℤ) + o ≤ 146)
    have a2 : (-245 : ℚ) ≤ (gg : ℚ) + o := by exact_mod_cast (by omega : -245 ≤ (gg : ℤ) + o)
    rw [abs_le]
    constructor <;> norm_num <;> linarith
  have a1 : ((gg : ℝ) + o) ≤ 145 := by exact_mod_cast (by omega : (gg : ℤ) + o ≤ 145)
  have a2 : (-245 : ℝ) ≤ (gg : ℝ) + o := by exact_mod_cast (by omega : -245 ≤ (gg : ℤ) + o)
  have r4 : rnd 28 = fin 28 := by
    have : Rep (28 : ℚ) := ⟨28, 0, by norm_num, by norm_num, by omega⟩
    rw [rnd_fin, rndQ_rep this]
    norm_num [abs_le]
  have hv : val (fin ((gg : ℚ) + o)) = (gg : ℝ) + o := by show (((gg : ℚ) + o : ℚ) : ℝ) = _; push_cast; rfl
  have hv2 : val (fin 28) = 28 := by show ((28 : ℚ) : ℝ) = _; norm_num
  obtain ⟨⟨t, ht⟩, d2⟩ := div_val (a := fin ((gg : ℚ) + o)) (b := fin 28) ⟨_, rfl⟩ ⟨_, rfl⟩ (by rw [hv2]; norm_num) (by
    rw [hv, hv2, abs_le]
    constructor <;> norm_num <;> linarith)
  rw [hv, hv2] at d2
  have hab : |((gg : ℝ) + o) / 28| ≤ 245 / 28 := by
    rw [abs_le]
    constructor <;> linarith
  have hd : |val (F32.div (fin ((gg : ℚ) + o)) (fin 28)) - ((gg : ℝ) + o) / 28| ≤ 1 / 2 ^ 20 := by
    norm_num at d2 hab ⊢
    linarith
  rw [ht] at hd
  have hd' : |(t : ℝ) - ((gg : ℝ) + o) / 28| ≤ 1 / 2 ^ 20 := hd
  rw [abs_le] at hd'
  have ht1 : (t : ℝ) ≤ 26 / 5 := by norm_num at hd'; linarith [hd'.2]
  have ht2 : (-10 : ℝ) ≤ t := by norm_num at hd'; linarith [hd'.1]
  obtain ⟨c, c1, c2⟩ := hel.pow10 t (by
    rw [abs_le]
    constructor
    · exact_mod_cast ht2
    · have : (t : ℝ) ≤ 10 := by linarith
      exact_mod_cast this)
  have e : @globalGainFactor F32 (scalar el) nbits fsInd gg = fin c := by
    show el.pow10 (F32.div (F32.add (rnd (gg : ℚ)) (rnd ((ggOffDec nbits fsInd : ℤ) : ℚ))) (rnd 28)) = _
    rw [← ho, r1, r2, r3, r4, ht, c1]
  rw [e]
  refine ⟨⟨_, rfl⟩, ?_⟩
  show |(c : ℝ)| ≤ _
  have h1 := rpow_le_gain ht1
  have h0 : (0 : ℝ) < (10 : ℝ) ^ (t : ℝ) := Real.rpow_pos_of_pos (by norm_num) _
  have h2 := abs_sub_abs_le_abs_sub (c : ℝ) ((10 : ℝ) ^ (t : ℝ))
  rw [abs_of_pos h0] at h2
  linarith

/-- the bound on the lines before the temporal noise shaping -/
theorem bd_dequantise (hel : Tame el) {cfg : Lc3Config} (hfs : cfg.fsInd ≤ 4) {spec : List F32} (hsp : spec.length = cfg.ne)
    {si : SideInfo} {ad : ArithmeticData} {x : List ℤ} (hn : ad.frameNumBits < 2 ^ 31) (hg : si.globalGainIndex < 256)
    (hnf : si.noiseFactor < 8) (hx : ∀ v ∈ x, v.natAbs ≤ 131072) {r : List F32}
    (e : @dequantise F32 (scalar el) cfg spec si ad x = .ok r) : AllBd (2 ^ 36) r := by
  letI := scalar el
  unfold dequantise at e
  split at e
  · cases e
  rename_i hlen
  simp only at e
  obtain ⟨l2, h2, e⟩ := bind_ok_inv e
  cases e
  have b1 : AllBd (2 ^ 17 * (1 + 1 / 2 ^ 23)) (zipInto spec ((x.take cfg.ne).map ofInt)) := by
    have hl : ((x.take cfg.ne).map (ofInt : ℤ → F32)).length = spec.length := by
      rw [List.length_map, List.length_take, hsp]
      omega
    unfold zipInto
    rw [hl, List.drop_length, List.append_nil]
    refine AllBd.take ?_ _
    intro a ha
    obtain ⟨v, hv, rfl⟩ := List.mem_map.1 ha
    have := hx v (List.mem_of_mem_take hv)
    refine bd_ofInt ?_ (by norm_num) (by norm_num)
    have h3 : |v| ≤ 131072 := by rw [abs_le]; omega
    have h4 : ((|v| : ℤ) : ℝ) ≤ ((131072 : ℤ) : ℝ) := by exact_mod_cast h3
    push_cast at h4
    norm_num
    exact h4
  have b2 : AllBd (2 ^ 17 + 3) (residualDecode si.lsbMode ad.residualBits (zipInto spec ((x.take cfg.ne).map ofInt))) := by
    unfold residualDecode
    split
    · refine (bd_residual (by norm_num) (by norm_num) _ _ b1).mono ?_
      norm_num
    · refine b1.mono ?_
      norm_num
  have b3 := bd_noiseFilling hnf b2 (by norm_num) h2
  intro a ha
  unfold globalGain at ha
  obtain ⟨v, hv, rfl⟩ := List.mem_map.1 ha
  refine ((b3 v hv).mul (bd_gain hel hn hfs hg) (by norm_num) (by norm_num)).mono ?_
  norm_num

end Lc3.F32
