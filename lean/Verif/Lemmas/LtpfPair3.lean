import Verif.Lemmas.LtpfPair2
/-! The post filter in binary32 and in exact arithmetic: loops and frames. -/

namespace Lc3.F32
open Scalar Tables Spec

variable {el : Elem}

/-- sizes: input at most `X` with error at most `ε` -/
structure Dims (X ε : ℝ) : Prop where
  one : 1 ≤ X
  big : X ≤ 2 ^ 104
  e0 : 0 ≤ ε
  e1 : ε ≤ X / 2 ^ 10

/-- error of the input plus rounding errors -/
noncomputable def inErr (X ε : ℝ) : ℝ := ε + X / 2 ^ 16

theorem Dims.inErr_le {X ε : ℝ} (h : Dims X ε) : 0 ≤ inErr X ε ∧ inErr X ε ≤ X / 500 ∧ ε ≤ inErr X ε ∧ 256 * (X / 2 ^ 24) ≤ inErr X ε - ε := by
  have h1 := h.one
  have h2 := h.e1
  have h3 := h.e0
  unfold inErr
  refine ⟨by positivity, ?_, ?_, ?_⟩ <;> norm_num at h2 ⊢ <;> linarith

/-- the filter with a fade factor `φ n` -/
theorem filt_pair {X ε : ℝ} (hD : Dims X ε) {ring : ℕ} {cn cd x1 y1 y1' : List F32} {cn' cd' x2 y2 y2' : List ℝ} (hc : CoefPair cn cd cn' cd')
    {blk pitch a count : ℕ} {sc : ℕ → F32 → F32} {sc' : ℕ → ℝ → ℝ} (hx : Rl ε X x1 x2) {φ : ℕ → ℝ}
    (hs : ∀ n, a ≤ n → n < a + count → ScaleOk X (sc n) (φ n)) (hs' : ∀ n g, a ≤ n → n < a + count → sc' n g = g * φ n)
    (hφ0 : ∀ n, a ≤ n → n < a + count → 0 ≤ φ n ∧ φ n ≤ 1) (hy : Rl (5 * inErr X ε) (5 * X) y1 y2)
    (e1 : forRange (@ltpfSample F32 (scalar el) ring cn cd x1 blk pitch sc) a count y1 = .ok y1')
    (e2 : forRange (ltpfSample ring cn' cd' x2 blk pitch sc') a count y2 = .ok y2') :
    Rl (5 * inErr X ε) (5 * X) y1' y2' ∧ ∀ n, a ≤ n → n < a + count → ∀ v w, y1'[blk + n]? = some v → y2'[blk + n]? = some w →
      Cl (inErr X ε + φ n * (237 / 100 * inErr X ε)) (X + φ n * (237 / 100 * X)) v w := by
  letI := scalar el
  obtain ⟨i0, i1, i2, i3⟩ := hD.inErr_le
  have h1 := hD.one
  have e0 := hD.e0
  generalize hI : inErr X ε = I at *
  have key := forRange_two (fun m l r => Rl (5 * I) (5 * X) l r ∧ ∀ n, a ≤ n → n < m → ∀ v w, l[blk + n]? = some v →
      r[blk + n]? = some w → Cl (I + φ n * (237 / 100 * I)) (X + φ n * (237 / 100 * X)) v w) count a y1 y2 y1' y2'
    ⟨hy, fun n h1 h2 => by omega⟩ ?_ e1 e2
  · exact key
  · rintro n l r l' r' hn1 hn2 ⟨hl, hw⟩ k1 k2
    obtain ⟨v, g, hv, hlt, hg, rfl⟩ := ltpfSample_gen k1
    obtain ⟨w, g', hw', hlt', hg', rfl⟩ := ltpfSample_gen k2
    have hvw := hx _ _ _ hv hw'
    have hset := hl.set (i := blk + n) (hvw.mono (show ε ≤ 5 * I by linarith) (show X ≤ 5 * X by linarith))
    unfold computeFilter at hg hg'
    obtain ⟨p, hp, hg⟩ := bind_ok_inv hg
    obtain ⟨p', hp', hg'⟩ := bind_ok_inv hg'
    have hlen : cd.length = cd'.length := hc.d.length_eq
    rw [← hlen] at hg'
    have hF := filter_pair h1 hD.big (Ex := ε) (Sx := X) (Ey := 5 * I) (Sy := 5 * X) e0 (by linarith) (by linarith) (by linarith) (by linarith)
      (by linarith) (by linarith) le_rfl hc (fun k _ => hx.read ring _) (fun k _ => hset.read ring _) hp hg hp' hg'
    obtain ⟨f0, f1⟩ := hφ0 n hn1 hn2
    obtain ⟨u, hu⟩ : ∃ u, u = X / 2 ^ 24 := ⟨_, rfl⟩
    have hu0 : 0 ≤ u := by rw [hu]; positivity
    rw [← hu] at hF i3
    have hb := sample_pair h1 hD.big (hs n hn1 hn2) f0 f1 hvw hF (by linarith) e0 (by linarith) (by linarith) (by nlinarith)
    rw [← hs' n g' hn1 hn2, ← hu] at hb
    have hb' : Cl (I + φ n * (237 / 100 * I)) (X + φ n * (237 / 100 * X)) (F32.sub v (sc n g)) (w - sc' n g') := by
      refine hb.mono ?_ ?_
      · nlinarith
      · nlinarith
    refine ⟨hl.set (hb'.mono (by nlinarith) (by nlinarith)), ?_⟩
    intro m q1 q2 p q hp hq
    by_cases hm : m = n
    · subst hm
      rw [List.getElem?_set_self (by assumption)] at hp hq
      cases hp; cases hq
      exact hb'
    · rw [List.getElem?_set_ne (by omega)] at hp hq
      exact hw m q1 (by omega) p q hp hq

/-- copying -/
theorem copy_pair {E S E' S' : ℝ} {x1 y1 y1' : List F32} {x2 y2 y2' : List ℝ} {blk : ℕ} (hx : Rl E S x1 x2) (hE : E ≤ E') (hS : S ≤ S') {a count : ℕ}
    (hy : Rl E' S' y1 y2)
    (e1 : forRange (fun n y => do
      let x ← idx x1 (blk + n)
      setIdx y (blk + n) x) a count y1 = .ok y1')
    (e2 : forRange (fun n y => do
      let x ← idx x2 (blk + n)
      setIdx y (blk + n) x) a count y2 = .ok y2') : Rl E' S' y1' y2' := by
  refine forRange_two (fun _ l r => Rl E' S' l r) count a y1 y2 y1' y2' hy ?_ e1 e2
  intro n l r l' r' _ _ hl k1 k2
  obtain ⟨v, hv, k1⟩ := bind_ok_inv k1
  obtain ⟨w, hw, k2⟩ := bind_ok_inv k2
  unfold setIdx at k1 k2
  split at k1
  · split at k2
    · simp only [Res.ok.injEq] at k1 k2
      subst k1 k2
      exact hl.set ((hx _ _ _ (idx_ok_iff.1 hv) (idx_ok_iff.1 hw)).mono hE hS)
    · cases k2
  · cases k1

/-- the second pass of a lag change -/
theorem fromMem_pair {X ε : ℝ} (hD : Dims X ε) {ring norm lNum blk pitch : ℕ} {cn cd : List F32} {cn' cd' : List ℝ} (hc : CoefPair cn cd cn' cd')
    (hlen : cn.length = lNum + 1) (hnorm : 3 * lNum ≤ norm) (hn0 : 0 < norm) (hn1 : norm ≤ 480) (hblk : blk = 0 ∨ lNum ≤ blk)
    {y1 scr1 y1' : List F32} {y2 scr2 y2' : List ℝ} (hy : Rl (5 * inErr X ε) (5 * X) y1 y2)
    (hfirst : ∀ n, n < norm → ∀ v w, y1[blk + n]? = some v → y2[blk + n]? = some w →
      Cl (inErr X ε + (1 - (n : ℝ) / norm) * (237 / 100 * inErr X ε)) (X + (1 - (n : ℝ) / norm) * (237 / 100 * X)) v w)
    (hs1 : @ltpfScratch F32 ring norm lNum blk y1 = .ok scr1) (hs2 : ltpfScratch ring norm lNum blk y2 = .ok scr2)
    (e1 : forRange (@ltpfSampleFromMem F32 (scalar el) ring norm cn cd scr1 blk pitch lNum) 0 norm y1 = .ok y1')
    (e2 : forRange (ltpfSampleFromMem ring norm cn' cd' scr2 blk pitch lNum) 0 norm y2 = .ok y2') : Rl (5 * inErr X ε) (5 * X) y1' y2' := by
  letI := scalar el
  obtain ⟨i0, i1, i2, i3⟩ := hD.inErr_le
  have h1 := hD.one
  have e0 := hD.e0
  generalize hI : inErr X ε = I at *
  have hscr : Rl (5 * I) (5 * X) scr1 scr2 := fun i v w h1 h2 => hy _ _ _ (ltpfScratch_gen hs1 h1) (ltpfScratch_gen hs2 h2)
  have hpos : ∀ i, scratchPos ring lNum blk (lNum + i) = blk + i := by
    intro i
    unfold scratchPos
    split
    · rw [if_neg (by omega)]; omega
    · omega
  have hin : ∀ i v w, scr1[lNum + i]? = some v → scr2[lNum + i]? = some w →
      Cl (I + (1 - (i : ℝ) / norm) * (237 / 100 * I)) (X + (1 - (i : ℝ) / norm) * (237 / 100 * X)) v w := by
    intro i v w h1 h2
    have hi := ltpfScratch_len hs1 h1
    have g1 := ltpfScratch_gen hs1 h1
    have g2 := ltpfScratch_gen hs2 h2
    rw [hpos] at g1 g2
    exact hfirst i hi v w g1 g2
  refine forRange_two (fun _ l r => Rl (5 * I) (5 * X) l r) norm 0 y1 y2 y1' y2' hy ?_ e1 e2
  intro n l r l' r' _ hn hl k1 k2
  rw [Nat.zero_add] at hn
  obtain ⟨v, a, g, hv, hlt, ha, hg, rfl⟩ := ltpfSampleFromMem_gen k1
  obtain ⟨w, b, g', hw, hlt', hb, hg', rfl⟩ := ltpfSampleFromMem_gen k2
  obtain ⟨r0, r1⟩ := ramp_mem hn
  have hvw := hin n v w (by rw [Nat.add_comm]; exact hv) (by rw [Nat.add_comm]; exact hw)
  have hset := hl.set (i := blk + n) (hscr _ _ _ hv hw)
  have hlen' : cd.length = cd'.length := hc.d.length_eq
  rw [← hlen'] at hg'
  have hsc := scaleOk_in (el := el) h1 hD.big (n := n) hn0 hn1 hn.le
  refine hl.set ?_
  rw [fadeIn_real]
  obtain ⟨u, hu⟩ : ∃ u, u = X / 2 ^ 24 := ⟨_, rfl⟩
  have hu0 : 0 ≤ u := by rw [hu]; positivity
  rw [← hu] at i3
  by_cases hcn : lNum ≤ n
  · have hF := filter_pair h1 hD.big (Ex := 337 / 100 * I) (Sx := 337 / 100 * X) (Ey := 5 * I) (Sy := 5 * X) (by linarith) (by linarith) (by linarith) (by linarith)
      (by linarith) (by linarith) (by linarith) le_rfl hc (fun j hj => by
        intro p q hp hq
        unfold ringRead at hp hq
        have hpos' : ¬ (((lNum + n : Nat) : Int) - j < 0) := by omega
        rw [if_neg hpos'] at hp hq
        have e3 : (((lNum + n : Nat) : Int) - j).toNat = lNum + (n - j) := by omega
        rw [e3] at hp hq
        have h4 := hin (n - j) p q (idx_ok_iff.1 hp) (idx_ok_iff.1 hq)
        have h5 := ltpfScratch_len hs1 (idx_ok_iff.1 hp)
        obtain ⟨q0, q1⟩ := ramp_mem h5
        exact h4.mono (by nlinarith) (by nlinarith)) (fun k _ => hset.read ring _) ha hg hb hg'
    rw [← hu] at hF
    generalize (n : ℝ) / norm = φ at *
    have hb := sample_pair h1 hD.big hsc r0 r1 hvw hF (by nlinarith) (by nlinarith) (by linarith) (by linarith) (by nlinarith)
    rw [← hu] at hb
    exact hb.mono (by nlinarith) (by nlinarith)
  · have hF := filter_pair h1 hD.big (Ex := 5 * I) (Sx := 5 * X) (Ey := 5 * I) (Sy := 5 * X) (by linarith) (by linarith) (by linarith) le_rfl
      (by linarith) (by linarith) (by linarith) le_rfl hc (fun k _ => hscr.read 0 _) (fun k _ => hset.read ring _) ha hg hb hg'
    rw [← hu] at hF
    have r3 : (n : ℝ) / norm ≤ 1 / 3 := by
      have hN : (0 : ℝ) < norm := by exact_mod_cast hn0
      rw [div_le_iff₀ hN]
      have : ((3 * n : Nat) : ℝ) ≤ (norm : Nat) := by exact_mod_cast (by omega : 3 * n ≤ norm)
      push_cast at this
      linarith
    generalize (n : ℝ) / norm = φ at *
    have hb := sample_pair h1 hD.big hsc r0 r1 hvw hF (by nlinarith) (by nlinarith) (by linarith) (by linarith) (by nlinarith)
    rw [← hu] at hb
    exact hb.mono (by nlinarith) (by nlinarith)

/-- the two states: binary32 and exact -/
structure PairState (f : SamplingFrequency) (d : FrameDuration) (X ε : ℝ) (s1 : Ltpf F32) (s2 : Ltpf ℝ) : Prop where
  i1 : @LtpfInv F32 f d s1
  i2 : LtpfInv f d s2
  act : s1.activePrev = s2.activePrev
  lag : s1.activePrev = true → s1.pIntMem = s2.pIntMem ∧ s1.pFrMem = s2.pFrMem
  blk : s1.blockStart = s2.blockStart
  co : s1.activePrev = true → CoefPair s1.cNum s1.cDen s2.cNum s2.cDen
  x : Rl ε X s1.xMem s2.xMem
  y : Rl (5 * inErr X ε) (5 * X) s1.yMem s2.yMem

theorem transition_pair {f : SamplingFrequency} {d : FrameDuration} {X ε : ℝ} (hD : Dims X ε) {s1 : Ltpf F32} {s2 : Ltpf ℝ}
    (h : PairState f d X ε s1 s2) {active : Bool} {pitch pitchFr : ℕ} {cn cd : List F32} {cn' cd' : List ℝ} (hc : CoefPair cn cd cn' cd')
    (hlen : cn.length = lDenOf (Lc3Config.new f d).fs - 1) {x1 y1 : List F32} {x2 y2 : List ℝ} (hx : Rl ε X x1 x2)
    (e1 : @ltpfTransition F32 (scalar el) (Lc3Config.new f d) s1 active pitch pitchFr cn cd x1 = .ok y1)
    (e2 : ltpfTransition (Lc3Config.new f d) s2 active pitch pitchFr cn' cd' x2 = .ok y2) : Rl (5 * inErr X ε) (5 * X) y1 y2 := by
  letI := scalar el
  obtain ⟨j0, j1, j2, j3⟩ := hD.inErr_le
  have h1 := hD.one
  have hXM : X ≤ 5 * X := by linarith
  have hEM : ε ≤ 5 * inErr X ε := by linarith
  obtain ⟨hn1, hn2, hn3⟩ := ltpf_taps_norm f d
  have hs25 : (if (Lc3Config.new f d).fs = 44100 then 48000 / 400 else (Lc3Config.new f d).fs / 400) = ltpfNorm (Lc3Config.new f d) :=
    ltpf_samples f d
  have hb0 : s1.blockStart = 0 ∨ (Lc3Config.new f d).nf ≤ s1.blockStart := by
    obtain ⟨q, hq⟩ := h.i1.blkDvd
    rcases Nat.eq_zero_or_pos q with rfl | hq0
    · left; simpa using hq
    · right; rw [hq]; exact Nat.le_mul_of_pos_right _ hq0
  have hN0 : 0 < ltpfNorm (Lc3Config.new f d) := by cases f <;> cases d <;> decide
  have hN1 : ltpfNorm (Lc3Config.new f d) ≤ 480 := by cases f <;> cases d <;> decide
  have hfull : ∀ {a count : ℕ} {l l' : List F32} {r r' : List ℝ}, Rl (5 * inErr X ε) (5 * X) l r →
      forRange (ltpfSample (ringSize (Lc3Config.new f d)) cn cd x1 s1.blockStart pitch fun _ f => f) a count l = .ok l' →
      forRange (ltpfSample (ringSize (Lc3Config.new f d)) cn' cd' x2 s1.blockStart pitch fun _ f => f) a count r = .ok r' →
      Rl (5 * inErr X ε) (5 * X) l' r' := by
    intro a count l l' r r' hl k1 k2
    exact (filt_pair hD hc hx (φ := fun _ => 1) (fun n _ _ => scaleOk_id h1) (fun n g _ _ => (mul_one g).symm) (fun _ _ _ => ⟨zero_le_one, le_rfl⟩) hl k1 k2).1
  have hdeact : s1.activePrev = true → ∀ {l' : List F32} {r' : List ℝ},
      ltpfDeactivate (ringSize (Lc3Config.new f d)) (ltpfNorm (Lc3Config.new f d)) s1 x1 s1.blockStart (ltpfNorm (Lc3Config.new f d)) s1.yMem = .ok l' →
      ltpfDeactivate (ringSize (Lc3Config.new f d)) (ltpfNorm (Lc3Config.new f d)) s2 x2 s1.blockStart (ltpfNorm (Lc3Config.new f d)) s2.yMem = .ok r' →
      Rl (5 * inErr X ε) (5 * X) l' r' ∧ ∀ n, n < ltpfNorm (Lc3Config.new f d) → ∀ v w, l'[s1.blockStart + n]? = some v → r'[s1.blockStart + n]? = some w →
        Cl (inErr X ε + (1 - (n : ℝ) / ltpfNorm (Lc3Config.new f d)) * (237 / 100 * inErr X ε))
          (X + (1 - (n : ℝ) / ltpfNorm (Lc3Config.new f d)) * (237 / 100 * X)) v w := by
    intro ha l' r' k1 k2
    unfold ltpfDeactivate at k1 k2
    rw [← (h.lag ha).1] at k2
    have key := filt_pair hD (h.co ha) hx (φ := fun n => 1 - (n : ℝ) / ltpfNorm (Lc3Config.new f d))
      (fun n _ hn => scaleOk_out h1 hD.big hN0 hN1 (by omega)) (fun n g _ _ => fadeOut_real _ n g)
      (fun n _ hn => by have := ramp_mem (N := ltpfNorm (Lc3Config.new f d)) (n := n) (by omega); constructor <;> linarith) h.y k1 k2
    exact ⟨key.1, fun n hn => key.2 n (by omega) (by omega)⟩
  unfold ltpfTransition at e1 e2
  simp only [hs25, ← h.blk, ← h.act] at e1 e2
  cases hact : active <;> cases hprev : s1.activePrev
  · rw [hact, hprev] at e1 e2
    simp only [Bool.not_false, Bool.and_self, if_true] at e1 e2
    exact copy_pair hx hEM hXM h.y e1 e2
  · rw [hact, hprev] at e1 e2
    simp only [Bool.not_false, Bool.not_true, Bool.and_false, Bool.and_true, Bool.false_eq_true, if_false, if_true] at e1 e2
    obtain ⟨l, k1, e1⟩ := bind_ok_inv e1
    obtain ⟨r, k2, e2⟩ := bind_ok_inv e2
    exact copy_pair hx hEM hXM (hdeact hprev k1 k2).1 e1 e2
  · rw [hact, hprev] at e1 e2
    simp only [Bool.not_false, Bool.not_true, Bool.and_true, Bool.false_eq_true, if_false, if_true] at e1 e2
    obtain ⟨l, k1, e1⟩ := bind_ok_inv e1
    obtain ⟨r, k2, e2⟩ := bind_ok_inv e2
    have key := filt_pair hD hc hx (φ := fun n => (n : ℝ) / ltpfNorm (Lc3Config.new f d))
      (fun n _ hn => scaleOk_in h1 hD.big hN0 hN1 (by omega)) (fun n g _ _ => fadeIn_real _ n g)
      (fun n _ hn => ramp_mem (by omega)) h.y k1 k2
    exact hfull key.1 e1 e2
  · obtain ⟨p2, p3⟩ := h.lag hprev
    rw [hact, hprev] at e1 e2
    simp only [Bool.not_true, Bool.and_false, Bool.false_and, Bool.false_eq_true, if_false, ← p2, ← p3] at e1 e2
    split at e1
    · rename_i hp
      rw [if_pos hp] at e2
      exact hfull h.y e1 e2
    · rename_i hp
      rw [if_neg hp] at e2
      obtain ⟨l, k1, e1⟩ := bind_ok_inv e1
      obtain ⟨r, k2, e2⟩ := bind_ok_inv e2
      obtain ⟨ln, k3, e1⟩ := bind_ok_inv e1
      rw [← hc.n.length_eq, k3, Res.bind_ok] at e2
      obtain ⟨scr1, k4, e1⟩ := bind_ok_inv e1
      obtain ⟨scr2, k5, e2⟩ := bind_ok_inv e2
      obtain ⟨l2, k6, e1⟩ := bind_ok_inv e1
      obtain ⟨r2, k7, e2⟩ := bind_ok_inv e2
      have hln := usub_ok_inv k3
      obtain ⟨n1, n2⟩ := hdeact hprev k1 k2
      exact hfull (fromMem_pair hD hc (by omega) (by omega) hN0 hN1 (by omega) n1 n2 k4 k5 k6 k7) e1 e2

theorem rl_splice {E S : ℝ} {blk nf : ℕ} {m1 f1 : List F32} {m2 f2 : List ℝ} (h : Rl E S m1 m2) (hf : Rl E S f1 f2)
    (l1 : blk ≤ m1.length) (l2 : blk ≤ m2.length) (e1 : f1.length = nf) (e2 : f2.length = nf) :
    Rl E S (m1.take blk ++ f1 ++ m1.drop (blk + nf)) (m2.take blk ++ f2 ++ m2.drop (blk + nf)) := by
  have t1 : (m1.take blk).length = blk := by simp; omega
  have t2 : (m2.take blk).length = blk := by simp; omega
  intro i v w h1 h2
  by_cases hc : i < blk
  · rw [List.append_assoc, List.getElem?_append_left (by omega), List.getElem?_take_of_lt hc] at h1 h2
    exact h i v w h1 h2
  · by_cases hc2 : i < blk + nf
    · rw [List.append_assoc, List.getElem?_append_right (by omega), List.getElem?_append_left (by omega)] at h1 h2
      rw [t1] at h1
      rw [t2] at h2
      exact hf _ v w h1 h2
    · rw [List.getElem?_append_right (by simp; omega), List.getElem?_drop] at h1 h2
      have a1 : blk + nf + (i - (m1.take blk ++ f1).length) = i := by simp; omega
      have a2 : blk + nf + (i - (m2.take blk ++ f2).length) = i := by simp; omega
      rw [a1] at h1
      rw [a2] at h2
      exact h _ v w h1 h2

/-- one frame -/
theorem run_pair {f : SamplingFrequency} {d : FrameDuration} {X ε : ℝ} (hD : Dims X ε) {s1 : Ltpf F32} {s2 : Ltpf ℝ}
    (h : PairState f d X ε s1 s2) {info : LtpfInfo} (hp : info.pitchIndex < 512) (nbits : ℕ) {x1 : List F32} {x2 : List ℝ}
    (l1 : x1.length = (Lc3Config.new f d).nf) (l2 : x2.length = (Lc3Config.new f d).nf) (hx : Rl ε X x1 x2) :
    ∃ s1' s2' o1 o2, @ltpfRun F32 (scalar el) (Lc3Config.new f d) s1 info nbits x1 = .ok (s1', o1) ∧
      ltpfRun (Lc3Config.new f d) s2 info nbits x2 = .ok (s2', o2) ∧ PairState f d X ε s1' s2' ∧ Rl (5 * inErr X ε) (5 * X) o1 o2 ∧
      o1.length = (Lc3Config.new f d).nf ∧ o2.length = (Lc3Config.new f d).nf := by
  letI := scalar el
  obtain ⟨s1', o1, e1, i1', ol1⟩ := ltpfRun_inv h.i1 hp nbits l1
  obtain ⟨s2', o2, e2, i2', ol2⟩ := ltpfRun_inv h.i2 hp nbits l2
  refine ⟨s1', s2', o1, o2, e1, e2, ?_⟩
  have c := coefPair_setting (el := el) f d info nbits
  obtain ⟨q1, -⟩ := @settingOf_lengths F32 (scalar el) f d info nbits
  have hpar1 := @ltpfParams_ok F32 (scalar el) f d info hp nbits
  have hpar2 := @ltpfParams_ok ℝ _ f d info hp nbits
  have hco1 := @ltpfCoeffs_ok F32 (scalar el) f d s1 info nbits h.i1.cn h.i1.cd
  have hco2 := @ltpfCoeffs_ok ℝ _ f d s2 info nbits h.i2.cn h.i2.cd
  have hpe := hpar1.symm.trans hpar2
  simp only [Res.ok.injEq, Prod.mk.injEq] at hpe
  have x1l := h.i1.xl
  have x2l := h.i2.xl
  have b1 := h.i1.blk
  have b2 := h.i2.blk
  have m1 := e1
  have m2 := e2
  unfold ltpfRun at m1 m2
  rw [hpar1] at m1
  rw [hpar2] at m2
  simp only [Res.bind_ok] at m1 m2
  rw [hco1] at m1
  rw [hco2] at m2
  simp only [Res.bind_ok] at m1 m2
  rw [if_neg (by rw [not_or]; exact ⟨by simp [l1], by omega⟩)] at m1
  rw [if_neg (by rw [not_or]; exact ⟨by simp [l2], by omega⟩)] at m2
  obtain ⟨y1, t1, m1⟩ := bind_ok_inv m1
  obtain ⟨y2, t2, m2⟩ := bind_ok_inv m2
  rw [← hpe.1, ← hpe.2, ← h.blk] at t2
  rw [← h.blk] at m2
  have hxm := rl_splice (blk := s1.blockStart) h.x hx (by omega) (by omega) l1 l2
  have hy := transition_pair hD h c q1 hxm t1 t2
  split at m1
  · cases m1
  split at m2
  · cases m2
  simp only [Res.ok.injEq, Prod.mk.injEq] at m1 m2
  obtain ⟨rfl, rfl⟩ := m1
  obtain ⟨rfl, rfl⟩ := m2
  refine ⟨⟨i1', i2', rfl, fun _ => hpe, rfl, fun _ => c, hxm, hy⟩, ?_, ol1, ol2⟩
  intro i v w k1 k2
  rw [List.getElem?_drop, List.getElem?_take] at k1 k2
  split at k1
  · rename_i hi
    rw [if_pos hi] at k2
    exact hy _ v w k1 k2
  · cases k1

end Lc3.F32
