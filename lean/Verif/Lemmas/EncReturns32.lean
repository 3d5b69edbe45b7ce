import Verif.Spec.Encodable
import Verif.Lemmas.EncF32
import Verif.Lemmas.EncReturns
import Verif.Lemmas.MdctErr3
/-! # The analysis of the encoder returns: any arithmetic where possible, binary32 elsewhere -/

namespace Lc3
open Scalar Tables Spec

section
variable {α : Type} [Scalar α]

/-- the encoder's transform returns, in any arithmetic -/
theorem mdctEncRun_returns {f : SamplingFrequency} {d : FrameDuration} {freq x : List Int}
    (hl : freq.length = 2 * (Lc3Config.new f d).nf) (hx : x.length = (Lc3Config.new f d).nf) :
    ∃ freq' eb nn, ∃ lines : List α, mdctEncRun (Lc3Config.new f d) freq x = .ok (freq', lines, eb, nn) ∧
      lines.length = (Lc3Config.new f d).nf := by
  obtain ⟨wn, H, -⟩ := mdctOk_config f d
  obtain ⟨hnf, -, hz, hne, hwin, hwl, -⟩ := H
  have hu : ∃ freq', mdctUpdate (Lc3Config.new f d) freq x = .ok freq' := by
    unfold mdctUpdate usub
    rw [if_pos (by omega), Res.bind_ok, if_neg (by omega)]
    exact ⟨_, rfl⟩
  obtain ⟨freq', hu⟩ := hu
  obtain ⟨-, hl', -, -⟩ := mdctUpdate_ok hz hl hu
  have he : (Lc3Config.new f d).nf % 2 = 0 := by cases f <;> cases d <;> decide
  have hfold := mdctFold_gen (α := α) (h := (Lc3Config.new f d).nf / 2) (freq := freq') (wn := wn) (by omega) (by omega)
  obtain ⟨y, hy, hyl⟩ := (safe_dctIv (α := α) (nf := (Lc3Config.new f d).nf) (fftSizes_config f d).1 he
    (buf := (List.range (2 * ((Lc3Config.new f d).nf / 2))).map (foldG ((Lc3Config.new f d).nf / 2) (winAt freq' wn)))
    (by rw [List.length_map, List.length_range]; omega)).exists_ok (noErr_dctIv _ _)
  have ha : ∃ lines : List α, mdctApply (Lc3Config.new f d).nf freq' wn = .ok lines ∧ lines.length = (Lc3Config.new f d).nf := by
    have e2 : 2 * ((Lc3Config.new f d).nf / 2) = (Lc3Config.new f d).nf := by omega
    rw [e2] at hfold hy
    unfold mdctApply
    rw [hfold, Res.bind_ok, hy, Res.bind_ok]
    exact ⟨_, rfl, by rw [List.length_map]; exact hyl⟩
  obtain ⟨lines, ha, hal⟩ := ha
  obtain ⟨eb, nn, e⟩ := mdctEncRun_gen hx hwin hu ha hal
  exact ⟨freq', eb, nn, lines, e, hal⟩

/-- the index of a reflection coefficient is in the tables exactly when the rounded angle is within eight steps -/
theorem tnsIndex_iff (q : α) : (∃ i, tnsIndex q = .ok i ∧ i < 17) ↔ -8 ≤ tnsToInt (asin q / piOver17) ∧ tnsToInt (asin q / piOver17) ≤ 8 := by
  unfold tnsIndex i8Chk i32AsUsize
  generalize tnsToInt (asin q / piOver17) = v
  constructor
  · rintro ⟨i, h, hi⟩
    split at h
    · rw [Res.bind_ok, Res.ok.injEq] at h
      omega
    · cases h
  · intro h
    rw [if_pos (by omega), Res.bind_ok]
    exact ⟨_, rfl, by omega⟩

end

theorem mapM_mem_ok {β γ : Type} {f : β → Res γ} : ∀ {l : List β} {r : List γ}, l.mapM f = .ok r → ∀ {a}, a ∈ l → ∃ b ∈ r, f a = .ok b
  | [], _, _, a, ha => by cases ha
  | x :: l, r, h, a, ha => by
    rw [List.mapM_cons] at h
    obtain ⟨b, hb, h⟩ := bind_ok_inv h
    obtain ⟨bs, hbs, h⟩ := bind_ok_inv h
    have h' : b :: bs = r := by injection h
    subst h'
    rcases List.mem_cons.1 ha with rfl | ha
    · exact ⟨b, by simp, hb⟩
    · obtain ⟨c, hc, e⟩ := mapM_mem_ok hbs ha
      exact ⟨c, by simp [hc], e⟩

namespace F32

/-- the bits of one filter are counted exactly: all numbers are below 2^24 -/
theorem tnsFilterBits_f32 (el : Elem) {w : Nat} (hw : w < 2) {l : List Nat} (hl : l.length = 8) (h : ∀ c ∈ l, c < 17) :
    ∃ b, @tnsFilterBits F32 (scalar el) w l = .ok b ∧ b ≤ 90 := by
  have ho := tnsOrder_le l
  have hob : ∃ ob, (if tnsOrder l ≠ 0 then do
      let row ← idx AC_TNS_ORDER_BITS w
      idx row (tnsOrder l - 1)
    else .ok 0) = .ok ob ∧ ob ≤ 17234 := by
    split
    · have key : ∀ w < 2, ∀ o < 8, (match AC_TNS_ORDER_BITS[w]? with
          | some row => (match row[o]? with | some v => decide (v ≤ 17234) | none => false)
          | none => false) = true := by decide
      have := key w hw (tnsOrder l - 1) (by omega)
      split at this
      · rename_i row hr
        split at this
        · rename_i v hv
          rw [(idx_ok_iff).2 hr, Res.bind_ok, (idx_ok_iff).2 hv]
          exact ⟨v, rfl, by simpa using this⟩
        · cases this
      · cases this
    · exact ⟨0, rfl, by omega⟩
  obtain ⟨ob, ho1, ho2⟩ := hob
  obtain ⟨cb, hc1, hc2⟩ := tnsCoefBits_returns (l.take (tnsOrder l)) 0 (by rw [List.length_take]; omega)
    fun c hc => h c (List.mem_of_mem_take hc)
  have hc3 : cb ≤ 163840 := by
    rw [List.length_take] at hc2
    have : min (tnsOrder l) l.length ≤ 8 := by omega
    omega
  unfold tnsFilterBits
  simp only
  rw [ho1, Res.bind_ok, hc1, Res.bind_ok]
  refine ⟨_, rfl, ?_⟩
  have i1 : ∀ n : ℕ, n < 2 ^ 20 → rnd (((n : ℤ) : ℚ)) = fin n := fun n hn => by
    rw [show ((n : ℤ) : ℚ) = (n : ℚ) by push_cast; rfl]; exact rnd_nat hn
  have e1 : rnd (2048 : ℚ) = fin 2048 := by have := i1 2048 (by norm_num); simpa using this
  show F32.toUsize (ceilF (F32.div (F32.add (F32.add (rnd 2048) (rnd (((ob : ℕ) : ℤ) : ℚ))) (rnd (((cb : ℕ) : ℤ) : ℚ))) (rnd 2048))) ≤ 90
  rw [e1, i1 ob (by omega), i1 cb (by omega)]
  have e2 : F32.add (fin 2048) (fin ob) = fin ((2048 + ob : ℕ) : ℚ) := by
    show rnd (2048 + (ob : ℚ)) = _
    rw [show (2048 + (ob : ℚ)) = ((2048 + ob : ℕ) : ℚ) by push_cast; ring]
    exact rnd_nat (by omega)
  have e3 : F32.add (fin ((2048 + ob : ℕ) : ℚ)) (fin cb) = fin ((2048 + ob + cb : ℕ) : ℚ) := by
    show rnd (((2048 + ob : ℕ) : ℚ) + (cb : ℚ)) = _
    rw [show (((2048 + ob : ℕ) : ℚ) + (cb : ℚ)) = ((2048 + ob + cb : ℕ) : ℚ) by push_cast; ring]
    exact rnd_nat (by omega)
  rw [e2, e3]
  have hm : (2048 + ob + cb) ≤ 184320 := by omega
  generalize 2048 + ob + cb = m at hm
  have hR : Rep ((m : ℚ) / 2048) := ⟨m, -11, by norm_num; ring, by rw [Nat.abs_cast]; exact_mod_cast (show m < 2 ^ 24 by omega), by norm_num⟩
  have hm' : (m : ℚ) ≤ 184320 := by exact_mod_cast hm
  have e4 : F32.div (fin (m : ℚ)) (fin 2048) = fin ((m : ℚ) / 2048) := by
    simp only [F32.div]
    rw [if_neg (by norm_num), rnd_fin, rndQ_rep hR]
    rw [abs_of_nonneg (by positivity), div_le_iff₀ (by norm_num)]
    exact hm'.trans (by norm_num)
  rw [e4]
  show min 18446744073709551615 ⌊((⌈(m : ℚ) / 2048⌉ : ℤ) : ℚ)⌋.toNat ≤ 90
  rw [Int.floor_intCast]
  have : ⌈(m : ℚ) / 2048⌉ ≤ 90 := by
    rw [Int.ceil_le, div_le_iff₀ (by norm_num)]
    push_cast
    linarith
  omega

/-- the angle of every reflection coefficient of the filters of this spectrum rounds to a step of the tables -/
def StableTns32 (el : Elem) (cfg : Lc3Config) (x : List F32) (bw nbits : Nat) (nn : Bool) : Prop :=
  ∀ p, tnsParams cfg.nMs bw = .ok p → ∀ s ∈ p.subs, ∀ r, @tnsCorr F32 (scalar el) x s = .ok r →
    ∀ c ∈ @tnsAnalysis F32 (scalar el) r nn (lpcWeightingOf cfg.nMs nbits),
      -8 ≤ @tnsToInt F32 (scalar el) (F32.div (el.asin c) el.piOver17) ∧ @tnsToInt F32 (scalar el) (F32.div (el.asin c) el.piOver17) ≤ 8

theorem tnsEncRun_returns32 (el : Elem) {f : SamplingFrequency} {d : FrameDuration} {bw nbits : Nat} {nn : Bool} (hb : bw ≤ (Lc3Config.new f d).fsInd)
    {x : List F32} (hx : x.length = (Lc3Config.new f d).ne) (hs : StableTns32 el (Lc3Config.new f d) x bw nbits nn) :
    ∃ res, @tnsEncRun F32 (scalar el) (Lc3Config.new f d) x bw nbits nn = .ok res ∧ res.nbitsTns ≤ 180 ∧ res.lines.length = x.length := by
  letI := scalar el
  obtain ⟨p, hp, hbands, hsubs⟩ := tnsParams_returns hb
  have hw : lpcWeightingOf (Lc3Config.new f d).nMs nbits < 2 := by
    unfold lpcWeightingOf
    split <;> split <;> omega
  have hs' := hs p hp
  obtain ⟨-, hnum, hnum2, -⟩ := tnsParams_shape hp
  generalize Lc3Config.new f d = cfg at *
  unfold tnsEncRun
  rw [if_neg (by simpa using hx), hp, Res.bind_ok]
  simp only
  obtain ⟨ints, hi, hil, hip⟩ := mapM_exists (f := tnsFilterInts x nn (lpcWeightingOf cfg.nMs nbits)) (l := p.subs)
    (P := fun l => l.length = 8 ∧ ∀ c ∈ l, c < 17) (by
      intro s hsm
      obtain ⟨r, hr⟩ := tnsCorr_returns x (sub := s) (by rw [hx]; exact hsubs s hsm)
      obtain ⟨l, hl, hll, hlp⟩ := mapM_exists (f := tnsIndex) (l := tnsAnalysis r nn (lpcWeightingOf cfg.nMs nbits)) (P := fun c => c < 17)
        fun q hq => (tnsIndex_iff q).2 (hs' s hsm r hr q hq)
      refine ⟨l, ?_, by rw [hll, tnsAnalysis_length], hlp⟩
      unfold tnsFilterInts
      rw [hr, Res.bind_ok, hl])
  rw [hi, Res.bind_ok]
  obtain ⟨bits, hbits, hbl, hbp⟩ := mapM_exists (f := tnsFilterBits F32 (lpcWeightingOf cfg.nMs nbits)) (l := ints) (P := fun b => b ≤ 90)
    fun l hl => tnsFilterBits_f32 el hw (hip l hl).1 (hip l hl).2
  rw [hbits, Res.bind_ok]
  obtain ⟨lines, hlines, hll⟩ := tnsFilterLoop_returns p.bands (ints.map fun l => (l.take (tnsOrder l)).map (tnsQuant (α := F32))) x
    (List.replicate 8 zero) (by rw [hx]; exact hbands)
  rw [hlines, Res.bind_ok]
  refine ⟨_, rfl, ?_, hll⟩
  have hsum : ∀ l : List Nat, (∀ b ∈ l, b ≤ 90) → l.sum ≤ 90 * l.length := by
    intro l
    induction l with
    | nil => simp
    | cons b l ih =>
      intro h
      have := ih fun b hb => h b (by simp [hb])
      have := h b (by simp)
      simp only [List.sum_cons, List.length_cons]
      omega
  have := hsum bits hbp
  simp only
  rw [hbl, hil, ← hnum] at this
  omega

/-- coefficients with an entry in the tables have an index below 17 -/
theorem tnsCoefBits_lt : ∀ {l : List Nat} {k b : Nat}, tnsCoefBits k l = .ok b → ∀ c ∈ l, c < 17
  | [], _, _, _ => by simp
  | i :: is, k, b, h => by
    unfold tnsCoefBits at h
    obtain ⟨row, h1, h⟩ := bind_ok_inv h
    obtain ⟨v, h2, h⟩ := bind_ok_inv h
    obtain ⟨r, h3, -⟩ := bind_ok_inv h
    intro c hc
    rcases List.mem_cons.1 hc with rfl | hc
    · have hlen : ∀ r ∈ AC_TNS_COEF_BITS, r.length = 17 := by decide
      rw [← hlen row (idx_mem h1)]
      exact (List.getElem?_eq_some_iff.1 (idx_ok_iff.1 h2)).1
    · exact tnsCoefBits_lt h3 c hc

/-- beyond the order every index is 8 -/
theorem tnsOrder_drop : ∀ l : List Nat, ∀ c ∈ l.drop (tnsOrder l), c = 8
  | [] => by simp
  | i :: is => by
    have ih := tnsOrder_drop is
    unfold tnsOrder
    simp only
    split
    · rename_i h0
      rw [h0, List.drop_zero] at ih
      split
      · rename_i hi
        rw [List.drop_zero]
        intro c hc
        rcases List.mem_cons.1 hc with rfl | hc
        · exact hi
        · exact ih c hc
      · simpa using ih
    · simpa using ih

/-- the condition is exact -/
theorem tnsEncRun_stable32 (el : Elem) {cfg : Lc3Config} {bw nbits : Nat} {nn : Bool} {x : List F32} {res : TnsResult F32}
    (h : @tnsEncRun F32 (scalar el) cfg x bw nbits nn = .ok res) : StableTns32 el cfg x bw nbits nn := by
  letI := scalar el
  unfold tnsEncRun at h
  split at h
  · cases h
  obtain ⟨p, hp, h⟩ := bind_ok_inv h
  simp only at h
  obtain ⟨ints, hi, h⟩ := bind_ok_inv h
  obtain ⟨bits, hb, h⟩ := bind_ok_inv h
  intro p' hp' s hs r hr c hc
  rw [hp] at hp'
  injection hp' with hp'
  subst hp'
  obtain ⟨l, hl, hf⟩ := mapM_mem_ok hi hs
  unfold tnsFilterInts at hf
  rw [hr, Res.bind_ok] at hf
  obtain ⟨i, him, hix⟩ := mapM_mem_ok hf hc
  obtain ⟨b, -, hbl⟩ := mapM_mem_ok hb hl
  unfold tnsFilterBits at hbl
  simp only at hbl
  obtain ⟨ob, -, hbl⟩ := bind_ok_inv hbl
  obtain ⟨cb, hcb, -⟩ := bind_ok_inv hbl
  have hlt : i < 17 := by
    rw [← List.take_append_drop (tnsOrder l) l] at him
    rcases List.mem_append.1 him with h | h
    · exact tnsCoefBits_lt hcb i h
    · rw [tnsOrder_drop l i h]; omega
  exact (tnsIndex_iff c).1 ⟨i, hix, hlt⟩

/-- the noise shaping keeps the number of lines, in any arithmetic -/
theorem _root_.Lc3.snsEncRun_length {α : Type} [Scalar α] {f : SamplingFrequency} {d : FrameDuration} {x eb : List α} {det : Bool} {r : SnsEncResult α}
    (h : snsEncRun (Lc3Config.new f d) x eb det = .ok r) : x.length = (Lc3Config.new f d).ne ∧ r.x.length = (Lc3Config.new f d).ne := by
  unfold snsEncRun at h
  split at h
  · cases h
  rename_i hx
  simp only [ne_eq, not_not] at hx
  refine ⟨hx, ?_⟩
  obtain ⟨scf, e1, h⟩ := bind_ok_inv h
  obtain ⟨⟨lf, hf, st1, r1⟩, e2, h⟩ := bind_ok_inv h
  obtain ⟨s2, e3, h⟩ := bind_ok_inv h
  obtain ⟨fac, hfac, h⟩ := bind_ok_inv h
  obtain ⟨tab, htab, h⟩ := bind_ok_inv h
  obtain ⟨y, hy, h⟩ := bind_ok_inv h
  simp only [Res.ok.injEq] at h
  subst h
  simp only
  obtain ⟨tab', e, ht⟩ := bandTable_ok f d
  rw [e] at htab
  injection htab with htab
  subst htab
  have := safe_shapeLoop ht (fac.take (tab'.length - 1)) 0 x (by have := ht.len; rw [List.length_take]; omega) hx
  rw [hy] at this
  exact this

/-- the rotated residual has 16 binary32 numbers -/
theorem rotate_rep (el : Elem) {r1 : List F32} (hl : r1.length = 16) : ∀ v ∈ @snsRotate F32 (scalar el) r1, IsF32 v := by
  letI := scalar el
  intro v hv
  unfold snsRotate at hv
  have hne : ∃ l x, r1.zip D = l ++ [x] := by
    have : r1.zip D ≠ [] := by
      intro h0
      have := congrArg List.length h0
      simp [hl, D_length] at this
    exact ⟨_, _, (List.dropLast_append_getLast this).symm⟩
  obtain ⟨l, x, e⟩ := hne
  rw [e, List.foldl_append, List.foldl_cons, List.foldl_nil] at hv
  obtain ⟨p, -, rfl⟩ := List.mem_map.1 hv
  exact isF32_add _ _

/-- the second stage returns exactly for writable shapes -/
theorem snsStage2_iff (el : Elem) {r1 st1 : List F32} (hl : r1.length = 16)
    (hr : ∀ v ∈ r1, ∀ q, v = fin q → q = 0 ∨ 1 / 2 ^ 40 ≤ |q|) :
    (∃ s2, @snsStage2 F32 (scalar el) r1 st1 = .ok s2) ↔ Writable el r1 := by
  letI := scalar el
  have hlen : (@snsRotate F32 (scalar el) r1).length = 16 := @snsRotate_length F32 (scalar el) r1
  have hz : rnd 0 = .fin 0 := by unfold rnd; rw [rndQ_zero]; norm_num
  obtain ⟨h0, h5⟩ := snsProject_f32 el ((@snsRotate F32 (scalar el) r1).map absF) (by simpa using hlen) (fun v hv => by
    obtain ⟨w, hw, rfl⟩ := List.mem_map.1 hv
    exact absVal_of_rep (rotate_rep el hl w hw)) (rotate_notTiny el hl hr)
  obtain ⟨c, ec, c1, c2, c3, c4, c5, c6⟩ := @snsCands_of_search F32 (F32.scalar el) _ hlen h0 (le_trans h5 (by norm_num))
  have hch := snsChoose_range (@snsRotate F32 (scalar el) r1) (snsNormalize c.y0) (snsNormalize c.y1) (snsNormalize c.y2) (snsNormalize c.y3)
  unfold Writable snsStage2
  simp only
  rw [ec, Res.bind_ok]
  have e0 : (∃ a ∈ (@snsRotate F32 (scalar el) r1).drop 10, F32.lt (fin 0) (absF a) = true) ↔
      ∃ a ∈ (@snsRotate F32 (scalar el) r1).drop 10, Scalar.lt (zero : F32) (absS a) = true := by
    rw [← hz]
    exact Iff.rfl
  rw [e0]
  constructor
  · rintro ⟨s2, h⟩ c' hc'
    have : c = c' := by injection hc'
    subst this
    by_contra hn
    push Not at hn
    obtain ⟨n1, n2⟩ := hn
    obtain ⟨⟨J, lsa, lsb⟩, h3, -⟩ := bind_ok_inv h
    have hu := c6 fun a ha => by simpa using n2 a ha
    have e : ∀ n, n = 0 → ∀ g, snsEnumerate n g c.y0 c.y1 c.y2 c.y3 ≠ .ok (J, lsa, lsb) := by
      rintro n rfl g hh
      exact absurd hh (snsEnumerate_zero_panics hu)
    exact e _ n1 _ h3
  · intro hw
    have hw := hw c rfl
    generalize snsChoose (@snsRotate F32 (scalar el) r1) (snsNormalize c.y0) (snsNormalize c.y1) (snsNormalize c.y2) (snsNormalize c.y3) = s at hw hch ⊢
    obtain ⟨g1, g2⟩ := hch
    have hv : ShapeVector s.shapeJ (candidateOf s.shapeJ c) := by
      have hsh : s.shapeJ = 0 ∨ s.shapeJ = 1 ∨ s.shapeJ = 2 ∨ s.shapeJ = 3 := by omega
      rcases hsh with e | e | e | e <;> rw [e]
      · rcases hw with hw | hw
        · exact absurd e hw
        · exact c5.2 hw
      · exact c2
      · exact c3
      · exact c4
    obtain ⟨J', lsa', lsb', q, f1, -⟩ := snsEnumerate_vq (gind := s.gind) g1 c1 hv
    rw [f1, Res.bind_ok]
    exact ⟨_, rfl⟩

/-- the noise shaping returns exactly when the chosen shape can be written -/
theorem snsEncRun_iff (el : Elem) {f : SamplingFrequency} {d : FrameDuration} (hnb : (Lc3Config.new f d).nb = 64) {x eb : List F32}
    (hx : x.length = (Lc3Config.new f d).ne) (he : eb.length = 64) {attack : Bool} :
    (∃ r, @snsEncRun F32 (scalar el) (Lc3Config.new f d) x eb attack = .ok r) ↔
      ∀ scf lf hf st1 r1, @snsTarget F32 (scalar el) (Lc3Config.new f d) eb attack = .ok scf →
        @snsStage1 F32 (scalar el) scf = .ok (lf, hf, st1, r1) → Writable el r1 := by
  letI := scalar el
  constructor
  · rintro ⟨r, h⟩ scf lf hf st1 r1 h1 h2
    unfold snsEncRun at h
    split at h
    · cases h
    rw [h1, Res.bind_ok, h2, Res.bind_ok] at h
    obtain ⟨s2, e3, -⟩ := bind_ok_inv h
    obtain ⟨a1, a2, a3, a4⟩ := snsStage1_f32 el (snsTarget_f32 el h1) h2
    exact (snsStage2_iff el a3 a4).1 ⟨s2, e3⟩
  · intro ht
    unfold snsEncRun
    rw [if_neg (by simpa using hx)]
    obtain ⟨scf, e1, l1⟩ := snsTarget_ok hnb (by cases f <;> cases d <;> decide) he attack
    rw [e1, Res.bind_ok]
    obtain ⟨lf, hf, a, b, ha, hb, e2⟩ := snsStage1_ok l1
    have ht' := ht _ _ _ _ _ e1 e2
    obtain ⟨a1, a2, a3, a4⟩ := snsStage1_f32 el (snsTarget_f32 el e1) e2
    rw [e2, Res.bind_ok]
    simp only
    obtain ⟨s2, e3⟩ := (snsStage2_iff el a3 a4).2 ht'
    rw [e3, Res.bind_ok]
    unfold snsEncFactors snsReduceEnc
    rw [hnb, show usub 64 64 = .ok 0 from rfl, Res.bind_ok, if_neg (by norm_num), Res.bind_ok, Res.bind_ok]
    obtain ⟨tab, e, htab⟩ := bandTable_ok f d
    rw [e, Res.bind_ok]
    obtain ⟨r, e6, -⟩ := (safe_shapeLoop htab ((((snsInterp s2.scfq).map fun x => exp2 (-x)).take (tab.length - 1) : List F32)) 0 x
      (by have := htab.len; rw [List.length_take]; omega) hx).exists_ok (noErr_shapeLoop _ _ _ _)
    exact ⟨_, by rw [e6]; rfl⟩

end F32
end Lc3
