import Verif.Props.Attack
import Verif.Props.Bandwidth
/-! C128: the attack detector does not depend on loudness and polarity, in exact arithmetic -/

namespace Lc3
open Scalar Spec

/-- the state for a signal multiplied by `k`: energies by `k²`, samples by `k` -/
noncomputable def scaledAttack (k : ℤ) (s : AttackSt ℝ) : AttackSt ℝ :=
  ⟨(k : ℝ) ^ 2 * s.energyLast, (k : ℝ) ^ 2 * s.maxEnergyLast, s.attackPosLast, k * s.tminus1, k * s.tminus2⟩

theorem sum_foldl_scaled (k : ℤ) (l : List ℤ) : ∀ a, (l.map (k * ·)).foldl (· + ·) (k * a) = k * l.foldl (· + ·) a := by
  induction l with
  | nil => intro a; rfl
  | cons x l ih => intro a; rw [List.map_cons, List.foldl_cons, List.foldl_cons, ← mul_add, ih]

theorem attackDownsample_scaled (k : ℤ) (L : ℕ) (x : List ℤ) (n : ℕ) : ∀ i,
    attackDownsample L (x.map (k * ·)) i n = (attackDownsample L x i n).bind fun r => .ok (r.map (k * ·)) := by
  induction n with
  | zero => intro i; rfl
  | succ n ih =>
    intro i
    rw [attackDownsample, attackDownsample, List.length_map]
    split
    · rw [ih]
      cases attackDownsample L x (i + 1) n with
      | ok r =>
        show Res.ok _ = Res.ok _
        rw [← List.map_drop, ← List.map_take]
        have := sum_foldl_scaled k ((x.drop (L * i)).take L) 0
        rw [mul_zero] at this
        rw [this]
        rfl
      | err => rfl
      | panic => rfl
    · rfl

theorem attackFilter_scaled (k : ℤ) (l : List ℤ) : ∀ t1 t2,
    (attackFilter (k * t1) (k * t2) (l.map (k * ·)) : List ℝ) = (attackFilter t1 t2 l).map ((k : ℝ) * ·) := by
  induction l with
  | nil => intro t1 t2; rfl
  | cons x l ih =>
    intro t1 t2
    rw [List.map_cons, attackFilter, attackFilter, List.map_cons, ih]
    congr 1
    simp only [real_ofInt]
    push_cast
    ring

theorem energy_scaled (k : ℝ) (l : List ℝ) : ∀ a, (l.map (k * ·)).foldl (fun e h => e + h * h) (k ^ 2 * a) = k ^ 2 * l.foldl (fun e h => e + h * h) a := by
  induction l with
  | nil => intro a; rfl
  | cons x l ih => intro a; rw [List.map_cons, List.foldl_cons, List.foldl_cons, ← ih]; congr 1; ring

theorem attackBlocks_scaled {k : ℝ} (hk : k ≠ 0) (hp : List ℝ) (c : ℕ) : ∀ (n : ℕ) (e m : ℝ) (pos : ℤ),
    attackBlocks (hp.map (k * ·)) n c (k ^ 2 * e, k ^ 2 * m, pos) =
      (k ^ 2 * (attackBlocks hp n c (e, m, pos)).1, k ^ 2 * (attackBlocks hp n c (e, m, pos)).2.1, (attackBlocks hp n c (e, m, pos)).2.2) := by
  have hp2 : 0 < k ^ 2 := by positivity
  induction c with
  | zero => intro n e m pos; rfl
  | succ c ih =>
    intro n e m pos
    rw [attackBlocks, attackBlocks]
    have h1 : ((hp.map (k * ·)).drop (40 * n)).take 40 = ((hp.drop (40 * n)).take 40).map (k * ·) := by
      rw [List.map_take, List.map_drop]
    have h2 := energy_scaled k ((hp.drop (40 * n)).take 40) zero
    rw [show k ^ 2 * (zero : ℝ) = zero by show k ^ 2 * ((0 : ℚ) : ℝ) = ((0 : ℚ) : ℝ); simp] at h2
    rw [h1, h2]
    generalize ((hp.drop (40 * n)).take 40).foldl (fun e h => e + h * h) zero = E
    have h3 : maxS (ofRat (1 / 4) * (k ^ 2 * m)) (k ^ 2 * e) = k ^ 2 * maxS (ofRat (1 / 4) * m) e := by
      show max (((1 / 4 : ℚ) : ℝ) * (k ^ 2 * m)) (k ^ 2 * e) = k ^ 2 * max (((1 / 4 : ℚ) : ℝ) * m) e
      rw [mul_max_of_nonneg _ _ hp2.le]
      congr 1
      ring
    rw [h3]
    generalize maxS (ofRat (1 / 4) * m) e = M
    have h4 : lt (ofRat (17 / 2) * (k ^ 2 * M)) (k ^ 2 * E) = lt (ofRat (17 / 2) * M) E := by
      show decide _ = decide _
      rw [decide_eq_decide, mul_left_comm, mul_lt_mul_iff_right₀ hp2]
    rw [h4, ih]

theorem idx_map_scaled (k : ℤ) (l : List ℤ) (i : ℕ) : idx (l.map (k * ·)) i = (idx l i).bind fun v => .ok (k * v) := by
  unfold idx
  rw [List.getElem?_map]
  cases l[i]? <;> rfl

theorem attackRun_scaled {k : ℤ} (hk : k ≠ 0) (cfg : Lc3Config) (s : AttackSt ℝ) (x : List ℤ) (nbytes : ℕ) :
    attackRun cfg (scaledAttack k s) (x.map (k * ·)) nbytes = (attackRun cfg s x nbytes).bind fun r => .ok (scaledAttack k r.1, r.2) := by
  have hz : (k : ℝ) ^ 2 * (zero : ℝ) = zero := by show (k : ℝ) ^ 2 * ((0 : ℚ) : ℝ) = ((0 : ℚ) : ℝ); simp
  unfold attackRun
  rw [List.length_map]
  split
  · rfl
  split
  · show Res.ok _ = Res.ok _
    unfold scaledAttack
    simp only [hz]
  obtain ⟨nd, nblk, limit⟩ := attackDims cfg.nMs
  simp only
  rw [attackDownsample_scaled]
  cases attackDownsample (cfg.nf / nd) x 0 nd with
  | err => rfl
  | panic => rfl
  | ok ds =>
    show (usub (ds.map (k * ·)).length 1 >>= _) = Res.bind (usub ds.length 1 >>= _) _
    rw [List.length_map]
    cases usub ds.length 1 with
    | err => rfl
    | panic => rfl
    | ok i1 =>
    show (usub ds.length 2 >>= _) = Res.bind (usub ds.length 2 >>= _) _
    cases usub ds.length 2 with
    | err => rfl
    | panic => rfl
    | ok i2 =>
    show (idx (ds.map (k * ·)) i1 >>= _) = Res.bind (idx ds i1 >>= _) _
    rw [idx_map_scaled]
    cases idx ds i1 with
    | err => rfl
    | panic => rfl
    | ok t1 =>
    show (idx (ds.map (k * ·)) i2 >>= _) = Res.bind (idx ds i2 >>= _) _
    rw [idx_map_scaled]
    cases idx ds i2 with
    | err => rfl
    | panic => rfl
    | ok t2 =>
    have hb := attackBlocks_scaled (k := (k : ℝ)) (by exact_mod_cast hk) (attackFilter s.tminus1 s.tminus2 ds) nblk 0 s.energyLast s.maxEnergyLast (-1)
    rw [← attackFilter_scaled] at hb
    simp only [Res.bind_ok]
    unfold scaledAttack
    simp only
    rw [hb]
    rfl

theorem attackRunAll_scaled {k : ℤ} (hk : k ≠ 0) (cfg : Lc3Config) (frames : List (List ℤ × ℕ)) : ∀ s : AttackSt ℝ,
    attackRunAll cfg (scaledAttack k s) (frames.map fun c => (c.1.map (k * ·), c.2)) =
      (attackRunAll cfg s frames).bind fun r => .ok (scaledAttack k r.1, r.2) := by
  induction frames with
  | nil => intro s; rfl
  | cons c frames ih =>
    intro s
    obtain ⟨x, n⟩ := c
    rw [List.map_cons, attackRunAll, attackRunAll, attackRun_scaled hk]
    cases attackRun cfg s x n with
    | err => rfl
    | panic => rfl
    | ok r =>
      show (attackRunAll cfg (scaledAttack k r.1) _ >>= _) = Res.bind (attackRunAll cfg r.1 frames >>= _) _
      rw [ih]
      cases attackRunAll cfg r.1 frames <;> rfl

/-- **C128** In exact arithmetic, for every sequence of frames and every integer factor other than zero: the attack detector, from construction, reports the
same frames for the multiplied samples, and it panics for the one exactly if it panics for the other. In particular it does not depend on the
polarity of the signal. -/
theorem C128 {k : ℤ} (hk : k ≠ 0) (cfg : Lc3Config) (frames : List (List ℤ × ℕ)) :
    ((attackRunAll cfg (AttackSt.new : AttackSt ℝ) (frames.map fun c => (c.1.map (k * ·), c.2))) >>= fun r => Res.ok r.2) =
      (attackRunAll cfg (AttackSt.new : AttackSt ℝ) frames >>= fun r => Res.ok r.2) := by
  have hn : scaledAttack k AttackSt.new = AttackSt.new := by
    unfold scaledAttack AttackSt.new
    simp only [mul_zero]
    rw [show (k : ℝ) ^ 2 * (zero : ℝ) = zero by show (k : ℝ) ^ 2 * ((0 : ℚ) : ℝ) = ((0 : ℚ) : ℝ); simp]
  have h := attackRunAll_scaled hk cfg frames AttackSt.new
  rw [hn] at h
  rw [h]
  cases attackRunAll cfg (AttackSt.new : AttackSt ℝ) frames <;> rfl

/-- C128 with an attack: 48 kHz, 10 ms, frames of 100 bytes, a single sample of 8, multiplied by -3 -/
example : ((attackRunAll (Lc3Config.new .hz48000 .tenMs) (AttackSt.new : AttackSt ℝ)
      ([(8 :: List.replicate 479 0, 100)].map fun c : List ℤ × ℕ => (c.1.map ((-3) * ·), c.2))) >>= fun r => Res.ok r.2) = Res.ok [true] := by
  rw [C128 (by norm_num)]
  obtain ⟨s, s', bs, bs', e1, e2, e3, h⟩ := C62 .hz48000 .tenMs [] [(8 :: List.replicate 479 0, 100)] (by
    intro c hc
    simp only [List.nil_append, List.mem_cons, List.not_mem_nil, or_false] at hc
    rw [hc, List.length_cons, List.length_replicate]; rfl) (by simp) (by
    intro c hc
    simp only [List.mem_singleton] at hc
    rw [hc]; exact (by decide : 100 ≤ 100))
  have hr := (h 0 Nat.zero_lt_one).2 (Or.inl ⟨0, by decide, by
    rw [show lowMemory .hz48000 .tenMs [] (0, 0) = (0, 0) from rfl]
    unfold blockEnergy
    refine Finset.sum_pos' (fun _ _ => sq_nonneg _) ⟨0, by simp, ?_⟩
    have hL : (Lc3Config.new .hz48000 .tenMs).nf / (40 * (blocksOf .tenMs).1) = 3 := by decide
    rw [hL]
    unfold highPass lowRate
    norm_num, fun j hj => absurd hj (by simp)⟩)
  simp only [attackRunAll, Res.ok.injEq, Prod.mk.injEq] at e1
  rw [← e1.1] at e2
  rw [e2, Res.bind_ok]
  match bs', e3, hr with
  | [b], _, hr => exact congrArg (fun b => Res.ok [b]) hr

end Lc3
