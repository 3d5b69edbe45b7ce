import Verif.Spec.Attack
import Verif.Props.EncDetect
import Verif.Lemmas.EncReturns
/-!
# C62: the attack detector finds the attacks of the signal

In exact arithmetic.
-/

namespace Lc3
open Scalar Spec Finset

/-- the fading maximum of the earlier energies -/
noncomputable def envelope (E : Nat → ℝ) : Nat → ℝ
  | 0 => 0
  | k + 1 => max (1 / 4 * envelope E k) (E k)

theorem envelope_lt (E : Nat → ℝ) : ∀ (k : Nat) (v : ℝ), 17 / 2 * envelope E k < v ↔ 0 < v ∧ ∀ j < k, 17 / 2 * (E j / 4 ^ (k - 1 - j)) < v
  | 0, v => by simp [envelope]
  | k + 1, v => by
    rw [envelope]
    have ih := envelope_lt E k (4 * v)
    have h1 : 17 / 2 * max (1 / 4 * envelope E k) (E k) < v ↔ 17 / 2 * envelope E k < 4 * v ∧ 17 / 2 * E k < v := by
      rcases le_total (1 / 4 * envelope E k) (E k) with h | h
      · rw [max_eq_right h]
        constructor
        · intro h2; exact ⟨by linarith, h2⟩
        · exact fun h2 => h2.2
      · rw [max_eq_left h]
        constructor
        · intro h2; exact ⟨by linarith, by linarith⟩
        · intro h2; linarith [h2.1]
    rw [h1, ih]
    constructor
    · rintro ⟨⟨a, b⟩, c⟩
      refine ⟨by linarith, fun j hj => ?_⟩
      rcases Nat.lt_succ_iff_lt_or_eq.1 hj with h | rfl
      · have := b j h
        have e : k + 1 - 1 - j = (k - 1 - j) + 1 := by omega
        rw [e, pow_succ, ← div_div]
        linarith
      · simpa using c
    · rintro ⟨a, b⟩
      refine ⟨⟨by linarith, fun j hj => ?_⟩, ?_⟩
      · have := b j (by omega)
        have e : k + 1 - 1 - j = (k - 1 - j) + 1 := by omega
        rw [e, pow_succ, ← div_div] at this
        linarith
      · simpa using b k (by omega)

theorem isAttack_iff (E : Nat → ℝ) (k : Nat) : IsAttack E k ↔ 17 / 2 * envelope E k < E k := (envelope_lt E k (E k)).symm

theorem foldl_squares (l : List ℝ) : ∀ a : ℝ, l.foldl (fun e h => e + h * h) a = a + ∑ i ∈ range l.length, l.getD i 0 ^ 2 := by
  induction l with
  | nil => intro a; simp
  | cons v l ih =>
    intro a
    rw [List.foldl_cons, ih, List.length_cons, Finset.sum_range_succ']
    simp only [List.getD_cons_succ, List.getD_cons_zero]
    ring

/-- the loop over the blocks -/
theorem attackBlocks_spec {hp : List ℝ} {E : Nat → ℝ} {base : Nat} : ∀ (k n : Nat) (e m : ℝ) (pos : Int),
    40 * (n + k) ≤ hp.length → (∀ i, i < n + k → ∑ j ∈ range 40, hp.getD (40 * i + j) 0 ^ 2 = E (base + i)) →
    max (1 / 4 * m) e = envelope E (base + n) →
    (∀ L : Nat, (L : Int) ≤ pos ↔ ∃ i < n, L ≤ i ∧ IsAttack E (base + i)) →
    max (1 / 4 * (attackBlocks hp n k (e, m, pos)).2.1) (attackBlocks hp n k (e, m, pos)).1 = envelope E (base + (n + k)) ∧
    ∀ L : Nat, (L : Int) ≤ (attackBlocks hp n k (e, m, pos)).2.2 ↔ ∃ i < n + k, L ≤ i ∧ IsAttack E (base + i)
  | 0, n, e, m, pos, _, _, hm, hp => ⟨hm, hp⟩
  | k + 1, n, e, m, pos, hl, hE, hm, hpos => by
    have hq : (ofRat (1 / 4) : ℝ) = 1 / 4 := by show ((1 / 4 : ℚ) : ℝ) = 1 / 4; norm_num
    have hh : (ofRat (17 / 2) : ℝ) = 17 / 2 := by show ((17 / 2 : ℚ) : ℝ) = 17 / 2; norm_num
    have henergy : ((hp.drop (40 * n)).take 40).foldl (fun e h => e + h * h) (zero : ℝ) = E (base + n) := by
      have hlen : ((hp.drop (40 * n)).take 40).length = 40 := by simp; omega
      rw [foldl_squares, hlen, show (zero : ℝ) = 0 from Rat.cast_zero, zero_add, ← hE n (by omega)]
      refine Finset.sum_congr rfl fun j hj => ?_
      rw [List.getD_eq_getElem?_getD, List.getElem?_take_of_lt (Finset.mem_range.1 hj), List.getElem?_drop,
        ← List.getD_eq_getElem?_getD]
    rw [attackBlocks, henergy, hq, hh]
    have hmax : maxS (1 / 4 * m) e = envelope E (base + n) := hm
    rw [hmax]
    have key := attackBlocks_spec (hp := hp) (E := E) (base := base) k (n + 1) (E (base + n)) (envelope E (base + n))
      (if lt (17 / 2 * envelope E (base + n)) (E (base + n)) = true then (n : Int) else pos) (by omega)
      (fun i hi => hE i (by omega)) rfl (by
        intro L
        have ha : lt (17 / 2 * envelope E (base + n)) (E (base + n)) = true ↔ IsAttack E (base + n) := by
          rw [isAttack_iff]
          show decide (17 / 2 * envelope E (base + n) < E (base + n)) = true ↔ _
          rw [decide_eq_true_iff]
        by_cases hc : IsAttack E (base + n)
        · rw [if_pos (ha.2 hc)]
          constructor
          · intro h; exact ⟨n, by omega, by omega, hc⟩
          · rintro ⟨i, h1, h2, -⟩; omega
        · rw [if_neg (fun h => hc (ha.1 h)), hpos L]
          constructor
          · rintro ⟨i, h1, h2, h3⟩; exact ⟨i, by omega, h2, h3⟩
          · rintro ⟨i, h1, h2, h3⟩
            rcases Nat.lt_succ_iff_lt_or_eq.1 h1 with h | rfl
            · exact ⟨i, h, h2, h3⟩
            · exact absurd h3 hc)
    rw [show n + (k + 1) = n + 1 + k by omega]
    exact key

/-- the filter -/
theorem attackFilter_spec (D : Int → Int) : ∀ (ds : List Int) (T : Int), (∀ i, i < ds.length → ds.getD i 0 = D (T + i)) →
    (attackFilter (D (T - 1)) (D (T - 2)) ds : List ℝ).length = ds.length ∧
    ∀ i, i < ds.length → (attackFilter (D (T - 1)) (D (T - 2)) ds : List ℝ).getD i 0 = highPass D (T + i)
  | [], _, _ => ⟨rfl, fun i hi => absurd hi (by simp)⟩
  | x :: ds, T, h => by
    have h0 : x = D T := by simpa using h 0 (by simp)
    have ih := attackFilter_spec D ds (T + 1) (by
      intro i hi
      have := h (i + 1) (by simpa using hi)
      rw [List.getD_cons_succ] at this
      rw [this]; congr 1; push_cast; ring)
    rw [show T + 1 - 1 = T by ring, show T + 1 - 2 = T - 1 by ring, ← h0] at ih
    rw [attackFilter]
    refine ⟨by simp [ih.1], ?_⟩
    intro i hi
    cases i with
    | zero =>
      rw [List.getD_cons_zero]
      unfold highPass
      have e1 : (ofRat (3 / 8) : ℝ) = 3 / 8 := by show ((3 / 8 : ℚ) : ℝ) = _; norm_num
      have e2 : (ofRat (1 / 2) : ℝ) = 1 / 2 := by show ((1 / 2 : ℚ) : ℝ) = _; norm_num
      have e3 : (ofRat (1 / 8) : ℝ) = 1 / 8 := by show ((1 / 8 : ℚ) : ℝ) = _; norm_num
      have e4 : ∀ z : Int, (ofInt z : ℝ) = (z : ℝ) := by intro z; show ((z : ℚ) : ℝ) = _; norm_num
      rw [e1, e2, e3, e4, e4, e4, h0]
      simp
    | succ i =>
      rw [List.getD_cons_succ, ih.2 i (by simpa using hi)]
      congr 1; push_cast; ring

/-- the state after `m` frames -/
structure AttackRel (d : FrameDuration) (D : Int → Int) (m : Nat) (s : AttackSt ℝ) : Prop where
  env : max (1 / 4 * s.maxEnergyLast) s.energyLast = envelope (blockEnergy D) ((blocksOf d).1 * m)
  pos : ∀ L : Nat, (L : Int) ≤ s.attackPosLast ↔ 0 < m ∧ ∃ i < (blocksOf d).1, L ≤ i ∧ IsAttack (blockEnergy D) ((blocksOf d).1 * (m - 1) + i)
  t1 : s.tminus1 = D (((40 * (blocksOf d).1 * m : Nat) : Int) - 1)
  t2 : s.tminus2 = D (((40 * (blocksOf d).1 * m : Nat) : Int) - 2)

/-- one frame in the operating range -/
theorem attackRun_spec {f : SamplingFrequency} {d : FrameDuration} {D : Int → Int} {m : Nat} {s : AttackSt ℝ} (h : AttackRel d D m s)
    {x : List Int} {nbytes : Nat} (hx : x.length = (Lc3Config.new f d).nf) (hr : AttackRange f d nbytes)
    (hD : ∀ i, i < 40 * (blocksOf d).1 → D (((40 * (blocksOf d).1 * m : Nat) : Int) + i) =
      ((x.drop ((Lc3Config.new f d).nf / (40 * (blocksOf d).1) * i)).take ((Lc3Config.new f d).nf / (40 * (blocksOf d).1))).sum) :
    ∃ s' b, attackRun (Lc3Config.new f d) s x nbytes = .ok (s', b) ∧ AttackRel d D (m + 1) s' ∧
      (b = true ↔ Reported (blockEnergy D) d m) := by
  have hact : attackIsActive (Lc3Config.new f d) nbytes = true := (attackIsActive_iff f d nbytes).2 hr
  have hd : (Lc3Config.new f d).nMs = d := by cases f <;> cases d <;> rfl
  have hdim : attackDims d = (40 * (blocksOf d).1, (blocksOf d).1, ((blocksOf d).2 : Int)) := by cases d <;> rfl
  have hb3 : 3 ≤ (blocksOf d).1 := by cases d <;> decide
  have hbx : (Lc3Config.new f d).nf = (Lc3Config.new f d).nf / (40 * (blocksOf d).1) * (40 * (blocksOf d).1) := by
    cases f <;> cases d <;> first | decide | (exact absurd hr (by simp [AttackRange]))
  obtain ⟨env, pos, t1, t2⟩ := h
  unfold Reported
  unfold attackRun
  rw [if_neg (by simpa using hx), if_neg (by simp [hact]), hd, hdim]
  dsimp only
  generalize hnb : (blocksOf d).1 = nb at *
  generalize (blocksOf d).2 = lim at *
  generalize (Lc3Config.new f d).nf / (40 * nb) = L at *
  obtain ⟨ds, hds, hlen, hv⟩ := attackDownsample_ok (b := L) (x := x) (40 * nb) 0 (by rw [hx, hbx]; simp)
  simp only [hds, Res.bind_ok]
  have u1 : usub ds.length 1 = .ok (40 * nb - 1) := by rw [usub_of_le (by omega), hlen]
  have u2 : usub ds.length 2 = .ok (40 * nb - 2) := by rw [usub_of_le (by omega), hlen]
  rw [u1, u2]
  simp only [Res.bind_ok]
  rw [idx_eq_ok (by omega), idx_eq_ok (by omega)]
  simp only [Res.bind_ok]
  have hdD : ∀ i, i < ds.length → ds.getD i 0 = D (((40 * nb * m : Nat) : Int) + i) := by
    intro i hi
    rw [hlen] at hi
    rw [hv i hi, hD i hi, Nat.zero_add]
  obtain ⟨fl, fv⟩ := attackFilter_spec D ds ((40 * nb * m : Nat) : Int) hdD
  rw [← t1, ← t2] at fl fv
  have key := attackBlocks_spec (hp := attackFilter s.tminus1 s.tminus2 ds) (E := blockEnergy D) (base := nb * m) nb 0
    s.energyLast s.maxEnergyLast (-1) (by rw [fl, hlen]; omega) (by
      intro i hi
      unfold blockEnergy
      refine Finset.sum_congr rfl fun j hj => ?_
      have hj' := Finset.mem_range.1 hj
      rw [fv (40 * i + j) (by omega)]
      congr 2
      push_cast
      ring) (by rw [env, Nat.add_zero]) (by
      intro L
      constructor
      · intro h; omega
      · rintro ⟨i, h1, -⟩; omega)
  rw [Nat.zero_add] at key
  refine ⟨_, _, rfl, ⟨?_, ?_, ?_, ?_⟩, ?_⟩ <;> try rw [hnb]
  · rw [key.1]; congr 1
  · intro L
    simp only
    rw [key.2 L]
    simp
  · simp only
    have := hdD (40 * nb - 1) (by omega)
    rw [List.getD_eq_getElem _ _ (by omega)] at this
    rw [this]
    congr 1
    rw [Nat.mul_add]
    omega
  · simp only
    have := hdD (40 * nb - 2) (by omega)
    rw [List.getD_eq_getElem _ _ (by omega)] at this
    rw [this]
    congr 1
    rw [Nat.mul_add]
    omega
  · rw [Bool.or_eq_true, decide_eq_true_iff, decide_eq_true_iff]
    refine or_congr ?_ ?_
    · have := key.2 0
      simp only [Nat.cast_zero, Nat.zero_le, true_and] at this
      exact this
    · exact pos lim

theorem flatten_length {nf : Nat} : ∀ {l : List (List Int)}, (∀ x ∈ l, x.length = nf) → l.flatten.length = nf * l.length
  | [], _ => by simp
  | x :: l, h => by
    rw [List.flatten_cons, List.length_append, h x (by simp), flatten_length (fun y hy => h y (by simp [hy])), List.length_cons]
    ring

/-- all frames of a stretch in the operating range -/
theorem attackRunAll_spec {f : SamplingFrequency} {d : FrameDuration} {p1 p2 : Int} : ∀ (todo fin : List (List Int × Nat)) {s : AttackSt ℝ},
    (∀ c ∈ fin ++ todo, c.1.length = (Lc3Config.new f d).nf ∧ AttackRange f d c.2) →
    AttackRel d (lowRate ((Lc3Config.new f d).nf / (40 * (blocksOf d).1)) ((fin ++ todo).map Prod.fst).flatten p1 p2) fin.length s →
    ∃ s' bs, attackRunAll (Lc3Config.new f d) s todo = .ok (s', bs) ∧ bs.length = todo.length ∧
      ∀ i, i < todo.length → (bs.getD i false = true ↔ Reported (blockEnergy
        (lowRate ((Lc3Config.new f d).nf / (40 * (blocksOf d).1)) ((fin ++ todo).map Prod.fst).flatten p1 p2)) d (fin.length + i))
  | [], fin, s, _, _ => ⟨s, [], rfl, rfl, fun i hi => absurd hi (by simp)⟩
  | (x, n) :: todo, fin, s, hc, h => by
    obtain ⟨hx, hr⟩ := hc (x, n) (by simp)
    have hb3 : 3 ≤ (blocksOf d).1 := by cases d <;> decide
    have hbx : (Lc3Config.new f d).nf = (Lc3Config.new f d).nf / (40 * (blocksOf d).1) * (40 * (blocksOf d).1) := by
      cases f <;> cases d <;> first | decide | (exact absurd hr (by simp [AttackRange]))
    obtain ⟨s1, b, e1, h1, hb⟩ := attackRun_spec h hx hr (by
      intro i hi
      have hfin := flatten_length (nf := (Lc3Config.new f d).nf) (l := fin.map Prod.fst) (by
        intro y hy
        obtain ⟨c, hcm, rfl⟩ := List.mem_map.1 hy
        exact (hc c (by simp [hcm])).1)
      rw [List.length_map] at hfin
      simp only at hx
      generalize (Lc3Config.new f d).nf = nf at *
      generalize (blocksOf d).1 = nb at *
      generalize nf / (40 * nb) = L at *
      unfold lowRate
      rw [if_neg (by omega), if_neg (by omega), show ((((40 * nb * fin.length : Nat) : Int) + (i : Nat))).toNat = 40 * nb * fin.length + i by omega]
      rw [List.map_append, List.map_cons, List.flatten_append, List.flatten_cons]
      have e : L * (40 * nb * fin.length + i) = (fin.map Prod.fst).flatten.length + L * i := by rw [hfin, hbx]; ring
      have h2 : L * (i + 1) ≤ L * (40 * nb) := Nat.mul_le_mul_left L (by omega)
      rw [Nat.mul_add] at h2
      rw [e, ← List.drop_drop, List.drop_left, List.drop_append_of_le_length (by rw [hx]; omega),
        List.take_append_of_le_length (by rw [List.length_drop, hx, hbx]; omega)])
    have eap : fin ++ (x, n) :: todo = (fin ++ [(x, n)]) ++ todo := by simp
    rw [eap] at hc h1 hb ⊢
    obtain ⟨s', bs, e2, hl, hbs⟩ := attackRunAll_spec todo (fin ++ [(x, n)]) (p1 := p1) (p2 := p2) hc (by
      rw [List.length_append]; exact h1)
    refine ⟨s', b :: bs, ?_, by simp [hl], ?_⟩
    · simp only [attackRunAll, e1, e2, Res.bind_ok]
    · intro i hi
      cases i with
      | zero => simpa using hb
      | succ i =>
        rw [List.getD_cons_succ, hbs i (by simpa using hi), List.length_append, List.length_singleton,
          show fin.length + 1 + i = fin.length + (i + 1) by omega]

/-- what is left of the past after a frame outside the operating range -/
theorem attack_past {f : SamplingFrequency} {d : FrameDuration} : ∀ (pre : List (List Int × Nat)) {s s' : AttackSt ℝ} {bs : List Bool},
    (∀ c ∈ pre, c.1.length = (Lc3Config.new f d).nf) → attackRunAll (Lc3Config.new f d) s pre = .ok (s', bs) →
    (s'.tminus1, s'.tminus2) = lowMemory f d pre (s.tminus1, s.tminus2) ∧
    ((pre = [] → s = AttackSt.new) → (∀ c ∈ pre.getLast?, ¬ AttackRange f d c.2) → s' = ⟨0, 0, -1, s'.tminus1, s'.tminus2⟩)
  | [], s, s', bs, _, e => by
    simp only [attackRunAll, Res.ok.injEq, Prod.mk.injEq] at e
    obtain ⟨rfl, -⟩ := e
    refine ⟨rfl, fun h _ => ?_⟩
    rw [h rfl]
    unfold AttackSt.new
    rw [show (zero : ℝ) = 0 from Rat.cast_zero]
  | (x, n) :: pre, s, s', bs, hl, e => by
    have hx : x.length = (Lc3Config.new f d).nf := hl (x, n) (by simp)
    rw [attackRunAll] at e
    obtain ⟨⟨s1, b⟩, e1, e⟩ := bind_ok_inv e
    obtain ⟨⟨s2, bs'⟩, e2, e⟩ := bind_ok_inv e
    simp only [Res.ok.injEq, Prod.mk.injEq] at e
    obtain ⟨rfl, -⟩ := e
    have ih := attack_past pre (fun c hc => hl c (by simp [hc])) e2
    have hdim : (attackDims d).1 = 40 * (blocksOf d).1 := by cases d <;> rfl
    rw [lowMemory]
    by_cases hr : AttackRange f d n
    · obtain ⟨s1', b', e1', h1, h2⟩ := C38_active (α := ℝ) f d s x n hx hr
      rw [e1] at e1'
      simp only [Res.ok.injEq, Prod.mk.injEq] at e1'
      obtain ⟨rfl, rfl⟩ := e1'
      rw [hdim] at h1 h2
      rw [if_pos hr, ← h1, ← h2]
      refine ⟨ih.1, fun _ hlast => ?_⟩
      cases pre with
      | nil => exact absurd hr (hlast (x, n) (by simp))
      | cons a l => exact ih.2 (by simp) (by simpa using hlast)
    · have h1 := C38 (α := ℝ) f d s x n hx hr
      rw [e1] at h1
      simp only [Res.ok.injEq, Prod.mk.injEq] at h1
      obtain ⟨rfl, rfl⟩ := h1
      rw [if_neg hr]
      refine ⟨ih.1, fun _ hlast => ?_⟩
      cases pre with
      | nil =>
        simp only [attackRunAll, Res.ok.injEq, Prod.mk.injEq] at e2
        obtain ⟨rfl, -⟩ := e2
        rw [show (zero : ℝ) = 0 from Rat.cast_zero]
      | cons a l => exact ih.2 (by simp) (by simpa using hlast)

/-- **C62** The attack detector, from construction: after any frames `pre` the last of which was outside the operating range (or at the
start), all frames of a stretch `act` inside the operating range are processed, and frame `m` of the stretch is reported exactly if the
signal of the stretch has an attack in this frame, or late in the frame before. -/
theorem C62 (f : SamplingFrequency) (d : FrameDuration) (pre act : List (List Int × Nat))
    (hl : ∀ c ∈ pre ++ act, c.1.length = (Lc3Config.new f d).nf) (hpre : ∀ c ∈ pre.getLast?, ¬ AttackRange f d c.2)
    (hact : ∀ c ∈ act, AttackRange f d c.2) :
    ∃ s s' bs bs', attackRunAll (Lc3Config.new f d) (AttackSt.new : AttackSt ℝ) pre = .ok (s, bs) ∧
      attackRunAll (Lc3Config.new f d) s act = .ok (s', bs') ∧ bs'.length = act.length ∧
      ∀ m, m < act.length → (bs'.getD m false = true ↔
        Reported (blockEnergy (lowRate ((Lc3Config.new f d).nf / (40 * (blocksOf d).1)) (act.map Prod.fst).flatten
          (lowMemory f d pre (0, 0)).1 (lowMemory f d pre (0, 0)).2)) d m) := by
  have hrun : ∀ (l : List (List Int × Nat)) (s : AttackSt ℝ), (∀ c ∈ l, c.1.length = (Lc3Config.new f d).nf) →
      ∃ s' bs, attackRunAll (Lc3Config.new f d) s l = .ok (s', bs) := by
    intro l
    induction l with
    | nil => intro s _; exact ⟨s, [], rfl⟩
    | cons c l ih =>
      intro s h
      obtain ⟨s1, b, e1⟩ := attackRun_returns (f := f) (d := d) s c.2 (h c (by simp))
      obtain ⟨s2, bs, e2⟩ := ih s1 (fun c hc => h c (by simp [hc]))
      exact ⟨s2, b :: bs, by obtain ⟨x, n⟩ := c; simp only [attackRunAll, e1, e2, Res.bind_ok]⟩
  obtain ⟨s, bs, e⟩ := hrun pre AttackSt.new (fun c hc => hl c (by simp [hc]))
  obtain ⟨hm, hs⟩ := attack_past pre (fun c hc => hl c (by simp [hc])) e
  have hs' := hs (fun _ => rfl) hpre
  have hm' : (s.tminus1, s.tminus2) = lowMemory f d pre (0, 0) := hm
  rw [← hm']
  obtain ⟨s', bs', e', h1, h2⟩ := attackRunAll_spec (f := f) (d := d) (p1 := s.tminus1) (p2 := s.tminus2) act [] (s := s)
    (fun c hc => ⟨hl c (by simp at hc; simp [hc]), hact c (by simpa using hc)⟩) (by
      rw [hs']
      refine ⟨by simp [envelope], ?_, by simp [lowRate], by simp [lowRate]⟩
      intro L
      constructor
      · intro h; simp only at h; omega
      · rintro ⟨h, -⟩; simp at h)
  refine ⟨s, s', bs, bs', e, e', h1, fun m hm => ?_⟩
  have := h2 m hm
  simpa using this

/-- 48 kHz, 10 ms: after a frame of 20 bytes, a frame of 100 bytes with a click at its start. The frame is reported. -/
example : ∃ s s' bs bs', attackRunAll (Lc3Config.new .hz48000 .tenMs) (AttackSt.new : AttackSt ℝ) [(List.replicate 480 1, 20)] = .ok (s, bs) ∧
    attackRunAll (Lc3Config.new .hz48000 .tenMs) s [(8 :: List.replicate 479 0, 100)] = .ok (s', bs') ∧ bs'.getD 0 false = true := by
  obtain ⟨s, s', bs, bs', e1, e2, -, h⟩ := C62 .hz48000 .tenMs [(List.replicate 480 1, 20)] [(8 :: List.replicate 479 0, 100)] (by
    intro c hc
    simp only [List.cons_append, List.nil_append, List.mem_cons, List.not_mem_nil, or_false] at hc
    rcases hc with rfl | rfl
    · exact List.length_replicate
    · rw [List.length_cons, List.length_replicate]; rfl) (by
    intro c hc
    simp only [List.getLast?_singleton, Option.mem_def, Option.some.injEq] at hc
    rw [← hc]; exact (by decide : ¬ 100 ≤ 20)) (by
    intro c hc
    simp only [List.mem_singleton] at hc
    rw [hc]; exact (by decide : 100 ≤ 100))
  refine ⟨s, s', bs, bs', e1, e2, (h 0 Nat.zero_lt_one).2 (Or.inl ⟨0, by decide, ?_, fun j hj => absurd hj (by simp)⟩)⟩
  rw [show lowMemory .hz48000 .tenMs [(List.replicate 480 1, 20)] (0, 0) = (0, 0) by simp [lowMemory, AttackRange]]
  unfold blockEnergy
  refine Finset.sum_pos' (fun _ _ => sq_nonneg _) ⟨0, by simp, ?_⟩
  have hL : (Lc3Config.new .hz48000 .tenMs).nf / (40 * (blocksOf .tenMs).1) = 3 := by decide
  rw [hL]
  unfold highPass lowRate
  norm_num

end Lc3
