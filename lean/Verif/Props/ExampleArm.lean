import Verif.Model.ExampleArm
import Verif.Props.FrameRoundTrip
import Verif.Lemmas.SafeFrame
/-! C116 and C117: the clock of the ARM example and the program that lists side information -/

namespace Lc3

/-! ### C116 -/

theorem systick_period : SYSTICK_EVERY_NUM_TICKS + 1 = 16777216 := rfl

theorem low_eq (t : Nat) : SYSTICK_EVERY_NUM_TICKS - cvrAt t = t % 16777216 := by
  have h : t % 16777216 < 16777216 := Nat.mod_lt _ (by norm_num)
  unfold cvrAt
  rw [systick_period]
  simp only [SYSTICK_EVERY_NUM_TICKS]
  omega

/-- C116: an undisturbed round of the reading loop gives the numbers of periods and of ticks of the time at which the counter was read. The reads must not be
half of the period of the overflow counter apart (95 years at 12 MHz). -/
theorem C116_read {t1 t2 t3 h l : Nat} (h12 : t1 ≤ t2) (h23 : t2 ≤ t3) (h13 : t3 < t1 + 2 ^ 55) (h0 : uptimeRound t1 t2 t3 = some (h, l)) :
    h = t2 / 2 ^ 24 % 2 ^ 32 ∧ l = t2 % 2 ^ 24 := by
  unfold uptimeRound at h0
  simp only [low_eq] at h0
  split at h0
  · rename_i e
    simp only [Option.some.injEq, Prod.mk.injEq] at h0
    obtain ⟨rfl, rfl⟩ := h0
    refine ⟨?_, by norm_num⟩
    unfold overflowsAt at e ⊢
    rw [systick_period] at e ⊢
    omega
  · simp at h0

/-- the loop ends: a round during which the counter is not reloaded is accepted -/
theorem C116_read_ends {t1 t2 t3 : Nat} (h : t1 / 2 ^ 24 = t3 / 2 ^ 24) : (uptimeRound t1 t2 t3).isSome := by
  have e : overflowsAt t1 = overflowsAt t3 := by
    unfold overflowsAt
    rw [systick_period]
    norm_num at h
    rw [h]
  simp [uptimeRound, e]

/-- a round during which an interrupt occurs is repeated, the next one gives the time -/
example : uptimeRound (2 ^ 24 - 1) (2 ^ 24 - 1) (2 ^ 24) = none ∧ uptimeRound (2 ^ 24 + 1) (2 ^ 24 + 2) (2 ^ 24 + 3) = some (1, 2) := by
  constructor <;> rfl

/-- the bitwise or is at most the sum -/
theorem or_le_sum (a b : Nat) : a ||| b ≤ a + b := by
  induction a using Nat.strong_induction_on generalizing b with
  | _ a ih =>
    rcases Nat.eq_zero_or_pos a with rfl | ha
    · simp
    · have h := ih (a / 2) (by omega) (b / 2)
      rw [← Nat.or_div_two] at h
      have m : (a ||| b) % 2 = 1 ↔ a % 2 = 1 ∨ b % 2 = 1 := Nat.or_mod_two_eq_one
      generalize a ||| b = c at h m
      omega

theorem duration_new {s n : Nat} (h : s + n / 1000000000 < 2 ^ 64) :
    ∃ d, Duration.new s n = .ok d ∧ d.total = s * 1000000000 + n ∧ d.nanos < 1000000000 := by
  refine ⟨⟨s + n / 1000000000, n % 1000000000⟩, by unfold Duration.new; rw [if_neg (by omega)], ?_, Nat.mod_lt n (by norm_num)⟩
  simp only [Duration.total]
  omega

/-- C116: in the first period of the timer (1.4 s at 12 MHz) the clock gives the elapsed time, rounded down to nanoseconds, provided that the timer runs at 3.9063 MHz or more -/
theorem C116_first {tp t : Nat} (ht : t < 2 ^ 24) (htp : 39063 ≤ tp) :
    ∃ d, uptimeOf tp (overflowsAt t) (SYSTICK_EVERY_NUM_TICKS - cvrAt t) = .ok d ∧ d.total = t * 10000000 / tp ∧ d.nanos < 1000000000 := by
  have e : overflowsAt t = 0 := by unfold overflowsAt; rw [systick_period, Nat.div_eq_of_lt (by omega)]
  have e2 : t % 16777216 = t := Nat.mod_eq_of_lt (by omega)
  have hb : t * 10000000 / tp < 2 ^ 32 := by
    rw [Nat.div_lt_iff_lt_mul (by omega)]
    calc t * 10000000 ≤ 16777215 * 10000000 := by omega
      _ < 2 ^ 32 * 39063 := by norm_num
      _ ≤ 2 ^ 32 * tp := by omega
  rw [low_eq, e, e2]
  unfold uptimeOf
  rw [if_neg (by omega), if_neg (by omega), Nat.mod_eq_of_lt hb]
  obtain ⟨d, h1, h2, h3⟩ := duration_new (s := 0) (n := t * 10000000 / tp) (by omega)
  exact ⟨d, h1, by rw [h2]; omega, h3⟩

/-- 12 MHz, one second -/
example : (uptimeOf 120000 (overflowsAt 12000000) (SYSTICK_EVERY_NUM_TICKS - cvrAt 12000000)) = .ok ⟨1, 0⟩ := by rfl

/-- below that frequency the nanoseconds do not fit: at 1 MHz the clock shows 705 ms after 5 s -/
theorem C116_slow_timer_fails : uptimeOf 10000 (overflowsAt 5000000) (SYSTICK_EVERY_NUM_TICKS - cvrAt 5000000) = .ok ⟨0, 705032704⟩ := by rfl

attribute [local irreducible] uptimeTicks overflowsAt cvrAt uptimeOf SYSTICK_EVERY_NUM_TICKS

/-- the arithmetic of the slow path does not overflow 64 bits: 32 bit counter, 24 bit calibration register -/
theorem C116_no_overflow {tp high low : Nat} (h : high < 2 ^ 32) (hl : low < 2 ^ 24) (htp : tp < 2 ^ 24) (h0 : 0 < tp) :
    high * SYSTICK_EVERY_NUM_TICKS < 2 ^ 64 ∧ uptimeTicks high low < 2 ^ 64 ∧ uptimeTicks high low % (tp * 100) * 10000000 < 2 ^ 64 ∧
      uptimeTicks high low % (tp * 100) * 10000000 / tp < 2 ^ 32 ∧ low * 10000000 < 2 ^ 64 := by
  have h1 : high * SYSTICK_EVERY_NUM_TICKS < 2 ^ 64 := by simp only [SYSTICK_EVERY_NUM_TICKS]; omega
  have h2 : uptimeTicks high low % (tp * 100) < tp * 100 := Nat.mod_lt _ (by omega)
  refine ⟨h1, by unfold uptimeTicks; exact Nat.or_lt_two_pow h1 (by omega), by omega, ?_, by omega⟩
  rw [Nat.div_lt_iff_lt_mul h0]
  nlinarith

/-- the time of the slow path is the one of `uptimeTicks`, rounded down to nanoseconds -/
theorem uptimeOf_slow {tp high low : Nat} (hh : 0 < high) (h : high < 2 ^ 32) (hl : low < 2 ^ 24) (htp : tp < 2 ^ 24) (h0 : 0 < tp) :
    ∃ d, uptimeOf tp high low = .ok d ∧ d.total = uptimeTicks high low * 10000000 / tp ∧ d.nanos < 1000000000 := by
  obtain ⟨-, a2, a3, a4, -⟩ := C116_no_overflow h hl htp h0
  generalize hT : uptimeTicks high low = T at *
  unfold uptimeOf
  rw [if_pos hh, hT]
  simp only
  rw [if_neg (by omega), Nat.mod_eq_of_lt a4]
  have hq : T / (tp * 100) + T % (tp * 100) * 10000000 / tp / 1000000000 < 2 ^ 64 := by
    have q1 : T % (tp * 100) * 10000000 / tp < 2 ^ 32 := a4
    have q2 : T / (tp * 100) ≤ T / 100 := Nat.div_le_div_left (by omega) (by norm_num)
    omega
  obtain ⟨d, d1, d2, d3⟩ := duration_new hq
  refine ⟨d, d1, ?_, d3⟩
  rw [d2]
  have e : T = tp * 100 * (T / (tp * 100)) + T % (tp * 100) := (Nat.div_add_mod _ _).symm
  generalize T / (tp * 100) = Q at *
  generalize T % (tp * 100) = R at *
  rw [e, show (tp * 100 * Q + R) * 10000000 = R * 10000000 + tp * (Q * 1000000000) by ring, Nat.add_mul_div_left _ _ h0]
  omega

theorem uptimeTicks_left (high low : Nat) : high * 16777215 ≤ uptimeTicks high low := by
  unfold uptimeTicks SYSTICK_EVERY_NUM_TICKS
  exact Nat.left_le_or

theorem uptimeTicks_lt {high low n : Nat} (h : high * 16777215 < 2 ^ n) (hl : low < 2 ^ n) : uptimeTicks high low < 2 ^ n := by
  unfold uptimeTicks SYSTICK_EVERY_NUM_TICKS
  exact Nat.or_lt_two_pow h hl

theorem uptimeTicks_mod (high low : Nat) : uptimeTicks high low % 2 = 1 ↔ high * 16777215 % 2 = 1 ∨ low % 2 = 1 := by
  unfold uptimeTicks SYSTICK_EVERY_NUM_TICKS
  exact Nat.or_mod_two_eq_one

/-- the ticks that the slow path works with: never more than have passed, and at most a period and `high` ticks fewer -/
theorem uptimeTicks_bounds (high low : Nat) :
    high * 16777215 ≤ uptimeTicks high low ∧ low ≤ uptimeTicks high low ∧ uptimeTicks high low ≤ high * 16777216 + low := by
  refine ⟨uptimeTicks_left high low, by unfold uptimeTicks; exact Nat.right_le_or, ?_⟩
  have h : uptimeTicks high low ≤ high * 16777215 + low := by
    unfold uptimeTicks SYSTICK_EVERY_NUM_TICKS
    exact or_le_sum _ _
  linarith

/-- C116, as it should be: the clock gives the elapsed time, rounded down to nanoseconds -/
def C116_statement : Prop := ∀ tp t : Nat, 39063 ≤ tp → tp < 2 ^ 24 → t < 2 ^ 56 →
  ∃ d, uptimeOf tp (overflowsAt t) (SYSTICK_EVERY_NUM_TICKS - cvrAt t) = .ok d ∧ d.total = t * 10000000 / tp

theorem add_div_le_succ (a b c : Nat) : (a + b) / c ≤ a / c + b / c + 1 := by
  rcases Nat.eq_zero_or_pos c with rfl | h
  · simp
  · rw [Nat.add_div h]
    split <;> omega

/-- C116, what holds later on: the clock is never fast, and slow by at most one period (16777216 ticks) plus one tick per period -/
theorem C116_partial {tp t : Nat} (h0 : 39063 ≤ tp) (htp : tp < 2 ^ 24) (ht : t < 2 ^ 56) :
    ∃ d, uptimeOf tp (overflowsAt t) (SYSTICK_EVERY_NUM_TICKS - cvrAt t) = .ok d ∧ d.total ≤ t * 10000000 / tp ∧
      t * 10000000 / tp ≤ d.total + (16777216 + t / 16777216) * 10000000 / tp + 1 := by
  by_cases hf : t < 2 ^ 24
  · obtain ⟨d, h1, h2, -⟩ := C116_first hf h0
    refine ⟨d, h1, h2.le, ?_⟩
    rw [h2, Nat.add_assoc]
    exact Nat.le_add_right _ _
  · rw [low_eq]
    have e : overflowsAt t = t / 16777216 := by
      unfold overflowsAt
      rw [systick_period, Nat.mod_eq_of_lt]
      omega
    rw [e]
    obtain ⟨d, h1, h2, -⟩ := uptimeOf_slow (tp := tp) (high := t / 16777216) (low := t % 16777216) (by omega) (by omega) (by omega) htp (by omega)
    obtain ⟨b1, -, b3⟩ := uptimeTicks_bounds (t / 16777216) (t % 16777216)
    generalize hT : uptimeTicks (t / 16777216) (t % 16777216) = T at h1 h2 b1 b3
    refine ⟨d, h1, ?_, ?_⟩
    · rw [h2]
      refine Nat.div_le_div_right (Nat.mul_le_mul_right _ ?_)
      omega
    · rw [h2]
      have hle : t ≤ T + (16777216 + t / 16777216) := by omega
      refine le_trans (Nat.div_le_div_right (Nat.mul_le_mul_right _ hle)) ?_
      rw [Nat.add_mul]
      exact add_div_le_succ _ _ _

/-- the hypotheses can be met: 12 MHz, an hour -/
example : 39063 ≤ 120000 ∧ 120000 < 2 ^ 24 ∧ 12000000 * 3600 < 2 ^ 56 := by norm_num

theorem uptimeTicks_one {low : Nat} (hl : low < 16777216) : uptimeTicks 1 low = 16777215 := by
  have a : uptimeTicks 1 low < 2 ^ 24 := uptimeTicks_lt (by norm_num) (by norm_num; exact hl)
  have b := uptimeTicks_left 1 low
  norm_num at a b
  omega

theorem uptimeTicks_two {low : Nat} (hl : low < 16777216) : uptimeTicks 2 low = 33554430 + low % 2 := by
  have a : uptimeTicks 2 low < 2 ^ 25 := uptimeTicks_lt (by norm_num) (by norm_num; omega)
  have b := uptimeTicks_left 2 low
  have c := uptimeTicks_mod 2 low
  norm_num at a b c
  omega

theorem overflowsAt_eq {t k : Nat} (h1 : 16777216 * k ≤ t) (h2 : t < 16777216 * (k + 1)) (h3 : k < 4294967296) : overflowsAt t = k := by
  unfold overflowsAt
  rw [systick_period]
  norm_num
  omega

theorem measured_eq {tp t1 t2 h1 h2 : Nat} (o1 : overflowsAt t1 = h1) (o2 : overflowsAt t2 = h2) :
    measured tp t1 t2 = (do
      let a ← uptimeOf tp h1 (t1 % 16777216)
      let b ← uptimeOf tp h2 (t2 % 16777216)
      b.sub a) := by
  unfold measured
  simp only [low_eq, o1, o2]

theorem duration_sub_self (d : Duration) : d.sub d = .ok ⟨0, 0⟩ := by
  unfold Duration.sub
  generalize d.total = n
  have e : n - n = 0 := Nat.sub_self n
  simp only [e, Nat.zero_div, Nat.zero_mod, lt_irrefl, if_false]

theorem uptimeOf_congr {tp h a b : Nat} (hh : 0 < h) (e : uptimeTicks h a = uptimeTicks h b) : uptimeOf tp h a = uptimeOf tp h b := by
  unfold uptimeOf
  rw [if_pos hh, if_pos hh, e]

theorem still {tp : Nat} (h0 : 0 < tp) (htp : tp < 2 ^ 24) {a b : Nat} (la : a < 16777216) (lb : b < 16777216) :
    (do
      let x ← uptimeOf tp 1 a
      let y ← uptimeOf tp 1 b
      y.sub x) = .ok ⟨0, 0⟩ := by
  obtain ⟨d, d1, -, -⟩ := uptimeOf_slow (tp := tp) (high := 1) (low := b) (by norm_num) (by norm_num) (by norm_num; exact lb) htp h0
  have e1 : uptimeOf tp 1 a = .ok d := (uptimeOf_congr (by norm_num) ((uptimeTicks_one la).trans (uptimeTicks_one lb).symm)).trans d1
  rw [e1, d1]
  rw [Res.bind_ok, Res.bind_ok]
  exact duration_sub_self d

theorem back {tp : Nat} (h0 : 0 < tp) (htp : tp ≤ 10000000) {a b : Nat} (la : a < 16777216) (lb : b < 16777216) (ha : a % 2 = 1) (hb : b % 2 = 0) :
    (do
      let x ← uptimeOf tp 2 a
      let y ← uptimeOf tp 2 b
      y.sub x) = .panic := by
  obtain ⟨d, d1, d2, -⟩ := uptimeOf_slow (tp := tp) (high := 2) (low := a) (by norm_num) (by norm_num) (by norm_num; exact la) (by norm_num; omega) h0
  obtain ⟨e, e1, e2, -⟩ := uptimeOf_slow (tp := tp) (high := 2) (low := b) (by norm_num) (by norm_num) (by norm_num; exact lb) (by norm_num; omega) h0
  rw [uptimeTicks_two la, ha] at d2
  rw [uptimeTicks_two lb, hb] at e2
  rw [d1, e1]
  rw [Res.bind_ok, Res.bind_ok]
  have hs : e.total < d.total := by
    have h := Nat.div_mul_le_self ((33554430 + 0) * 10000000) tp
    rw [← e2] at h
    have g : e.total + 1 ≤ d.total := by
      rw [d2, Nat.le_div_iff_mul_le h0, Nat.add_mul]
      linarith
    exact g
  unfold Duration.sub
  rw [if_pos hs]

/-- in the second period the clock stands still -/
theorem C116_stands_still {tp t1 t2 : Nat} (h0 : 0 < tp) (htp : tp < 2 ^ 24) (h1 : 16777216 ≤ t1) (h12 : t1 ≤ t2) (h2 : t2 < 33554432) :
    measured tp t1 t2 = .ok ⟨0, 0⟩ := by
  have o1 : overflowsAt t1 = 1 := overflowsAt_eq (by omega) (by omega) (by omega)
  have o2 : overflowsAt t2 = 1 := overflowsAt_eq (by omega) (by omega) (by omega)
  have l1 : t1 % 16777216 < 16777216 := Nat.mod_lt _ (by norm_num)
  have l2 : t2 % 16777216 < 16777216 := Nat.mod_lt _ (by norm_num)
  exact (measured_eq o1 o2).trans (still h0 htp l1 l2)

/-- in the third period the clock goes back at every other tick; the difference of two readings then panics -/
theorem C116_goes_back {tp t : Nat} (h0 : 0 < tp) (htp : tp ≤ 10000000) (h1 : 33554432 ≤ t) (h2 : t + 1 < 50331648) (ho : t % 2 = 1) :
    measured tp t (t + 1) = .panic := by
  have o1 : overflowsAt t = 2 := overflowsAt_eq (by omega) (by omega) (by omega)
  have o2 : overflowsAt (t + 1) = 2 := overflowsAt_eq (by omega) (by omega) (by omega)
  have l1 : t % 16777216 < 16777216 := Nat.mod_lt _ (by norm_num)
  have l2 : (t + 1) % 16777216 < 16777216 := Nat.mod_lt _ (by norm_num)
  have p1 : t % 16777216 % 2 = 1 := by omega
  have p2 : (t + 1) % 16777216 % 2 = 0 := by omega
  exact (measured_eq o1 o2).trans (back h0 htp l1 l2 p1 p2)

/-- the clock after 1.4 s and after 2.8 s at 12 MHz -/
example : measured 120000 16800000 33500000 = .ok ⟨0, 0⟩ := C116_stands_still (by norm_num) (by norm_num) (by norm_num) (by norm_num) (by norm_num)

/-- so the full statement is false -/
theorem C116_fails : ¬ C116_statement := by
  intro h
  obtain ⟨d, h1, h2⟩ := h 120000 16777216 (by norm_num) (by norm_num) (by norm_num)
  obtain ⟨e, h3, h4⟩ := h 120000 33554431 (by norm_num) (by norm_num) (by norm_num)
  have o1 : overflowsAt 16777216 = 1 := overflowsAt_eq (by norm_num) (by norm_num) (by norm_num)
  have o2 : overflowsAt 33554431 = 1 := overflowsAt_eq (by norm_num) (by norm_num) (by norm_num)
  rw [low_eq, o1] at h1
  rw [low_eq, o2] at h3
  have k := uptimeOf_congr (tp := 120000) (h := 1) (by norm_num) ((uptimeTicks_one (low := 16777216 % 16777216) (by norm_num)).trans
    (uptimeTicks_one (low := 33554431 % 16777216) (by norm_num)).symm)
  rw [h1, h3] at k
  have k' : d = e := Res.ok.inj k
  rw [k', h4] at h2
  norm_num at h2

/-! ### C117 -/

/-- the first frames of the file, `n` bytes each -/
def frameAt (n : Nat) (buf : List Nat) (k : Nat) : List Nat := (buf.drop (n * k)).take n

/-- the side information of a frame, if it is valid -/
def sideInfoOf (fsInd ne : Nat) (frame : List Nat) : Option SideInfo :=
  match readSideInfo frame Reader.new fsInd ne with
  | .ok (si, _) => some si
  | _ => none

/-- from frame `k` on, `j` valid frames -/
theorem listLoop_valid {n fsInd ne : Nat} (hn : 0 < n) {buf : List Nat} : ∀ (j k fuel : Nat) (infos : List SideInfo), j ≤ fuel →
    n * (k + j) ≤ buf.length → infos.length = j →
    (∀ i < j, sideInfoOf fsInd ne (frameAt n buf (k + i)) = infos[i]?) →
    listSideInfoLoop n fsInd ne fuel buf (n * k) = (do
      let (l, e) ← listSideInfoLoop n fsInd ne (fuel - j) buf (n * (k + j))
      .ok (infos ++ l, e))
  | 0, k, fuel, infos, _, _, h3, _ => by
    obtain rfl := List.length_eq_zero_iff.mp h3
    simp only [Nat.sub_zero, Nat.add_zero, List.nil_append]
    cases listSideInfoLoop n fsInd ne fuel buf (n * k) <;> rfl
  | j + 1, k, 0, infos, h, _, _, _ => by omega
  | j + 1, k, fuel + 1, infos, h1, h2, h3, h4 => by
    obtain ⟨si, infos, rfl⟩ : ∃ si l, infos = si :: l := by
      cases infos with
      | nil => simp at h3
      | cons a l => exact ⟨a, l, rfl⟩
    have hk : n * k + n ≤ buf.length := by nlinarith
    have hv := h4 0 (by omega)
    simp only [Nat.add_zero, List.getElem?_cons_zero, sideInfoOf, frameAt] at hv
    have ih := listLoop_valid hn j (k + 1) fuel infos (by omega) (by rw [show k + 1 + j = k + (j + 1) by omega]; exact h2) (by simpa using h3)
      (fun i hi => by
        have := h4 (i + 1) (by omega)
        rw [List.getElem?_cons_succ, show k + (i + 1) = k + 1 + i by omega] at this
        exact this)
    rw [listSideInfoLoop, if_neg (by omega), if_neg (by omega)]
    split at hv
    · rename_i si' r e
      rw [e]
      simp only [Option.some.injEq] at hv
      subst hv
      simp only
      rw [show n * k + n = n * (k + 1) by ring, ih, show fuel + 1 - (j + 1) = fuel - j by omega, show k + 1 + j = k + (j + 1) by omega]
      cases listSideInfoLoop n fsInd ne (fuel - j) buf (n * (k + (j + 1))) <;> rfl
    · simp at hv

theorem safe_side150 {buf : List Nat} (h : buf.length = 150) :
    readSideInfo buf Reader.new (Lc3Config.new .hz48000 .tenMs).fsInd (Lc3Config.new .hz48000 .tenMs).ne ≠ .panic := by
  have := safe_readSideInfo_config .hz48000 .tenMs buf (by rw [h]; simp [shortLens])
  intro e
  rw [e] at this
  exact this

/-- the side information of a frame of the file, as the program reads it -/
def listed (buf : List Nat) (k : Nat) : Option SideInfo :=
  sideInfoOf (Lc3Config.new .hz48000 .tenMs).fsInd (Lc3Config.new .hz48000 .tenMs).ne (frameAt 150 buf k)

theorem listSideInfo_split {buf : List Nat} {infos : List SideInfo} (hj : 150 * infos.length ≤ buf.length)
    (h : ∀ i < infos.length, listed buf i = infos[i]?) :
    listSideInfo buf = (do
      let (l, e) ← listSideInfoLoop 150 (Lc3Config.new .hz48000 .tenMs).fsInd (Lc3Config.new .hz48000 .tenMs).ne (buf.length + 1 - infos.length) buf
        (150 * infos.length)
      .ok (infos ++ l, e)) := by
  have := listLoop_valid (n := 150) (fsInd := (Lc3Config.new .hz48000 .tenMs).fsInd) (ne := (Lc3Config.new .hz48000 .tenMs).ne) (by norm_num)
    (buf := buf) infos.length 0 (buf.length + 1) infos (by omega) (by omega) rfl (fun i hi => by rw [Nat.zero_add]; exact h i hi)
  rw [Nat.zero_add] at this
  exact this

/-- C117: a file of whole frames with valid side information is listed completely and in order -/
theorem C117 {buf : List Nat} {infos : List SideInfo} (hl : buf.length = 150 * infos.length) (h : ∀ i < infos.length, listed buf i = infos[i]?) :
    listSideInfo buf = .ok (infos, none) := by
  rw [listSideInfo_split (by omega) h, show buf.length + 1 - infos.length = (buf.length - infos.length) + 1 by omega, listSideInfoLoop,
    if_pos (by omega)]
  simp

/-- the listing ends at the first frame with invalid side information and reports its position -/
theorem C117_invalid {buf : List Nat} {infos : List SideInfo} (hl : 150 * (infos.length + 1) ≤ buf.length)
    (h : ∀ i < infos.length, listed buf i = infos[i]?) (hinv : listed buf infos.length = none) :
    listSideInfo buf = .ok (infos, some (150 * infos.length)) := by
  have hfl : (frameAt 150 buf infos.length).length = 150 := by simp [frameAt]; omega
  rw [listSideInfo_split (by omega) h, show buf.length + 1 - infos.length = (buf.length - infos.length) + 1 by omega, listSideInfoLoop,
    if_neg (by omega), if_neg (by omega)]
  have hp := safe_side150 hfl
  simp only [listed, sideInfoOf] at hinv
  simp only [frameAt] at hp hinv
  split
  · rename_i e
    rw [e] at hinv
    simp at hinv
  · simp
  · rename_i e
    exact absurd e hp

/-- a file that does not end with a whole frame makes the program panic, once the frames before have been listed -/
theorem C117_incomplete {buf : List Nat} {infos : List SideInfo} (h1 : 150 * infos.length < buf.length) (h2 : buf.length < 150 * (infos.length + 1))
    (h : ∀ i < infos.length, listed buf i = infos[i]?) : listSideInfo buf = .panic := by
  rw [listSideInfo_split (by omega) h, show buf.length + 1 - infos.length = (buf.length - infos.length) + 1 by omega, listSideInfoLoop,
    if_neg (by omega), if_pos (by omega)]
  rfl

/-- the three cases cover every file -/
theorem C117_cases (buf : List Nat) : ∃ infos : List SideInfo, (∀ i < infos.length, listed buf i = infos[i]?) ∧
    (buf.length = 150 * infos.length ∨ (150 * (infos.length + 1) ≤ buf.length ∧ listed buf infos.length = none) ∨
      (150 * infos.length < buf.length ∧ buf.length < 150 * (infos.length + 1))) := by
  have key : ∀ m, 150 * m ≤ buf.length → ∃ infos : List SideInfo, (∀ i < infos.length, listed buf i = infos[i]?) ∧
      ((infos.length = m) ∨ (150 * (infos.length + 1) ≤ buf.length ∧ listed buf infos.length = none)) := by
    intro m
    induction m with
    | zero => exact fun _ => ⟨[], by simp, .inl rfl⟩
    | succ m ih =>
      intro hm
      obtain ⟨infos, h1, h2 | h2⟩ := ih (by omega)
      · cases e : listed buf m with
        | none => exact ⟨infos, h1, .inr ⟨by omega, by rw [h2]; exact e⟩⟩
        | some si =>
          refine ⟨infos ++ [si], ?_, .inl (by simp [h2])⟩
          intro i hi
          simp only [List.length_append, List.length_singleton] at hi
          by_cases hi2 : i < infos.length
          · rw [List.getElem?_append_left hi2]; exact h1 i hi2
          · obtain rfl : i = infos.length := by omega
            rw [List.getElem?_append_right (le_refl _), h2, e]
            simp
      · exact ⟨infos, h1, .inr h2⟩
  obtain ⟨infos, h1, h2 | h2⟩ := key (buf.length / 150) (by omega)
  · exact ⟨infos, h1, by omega⟩
  · exact ⟨infos, h1, .inr (.inl h2)⟩

theorem frameAt_flatten {n : Nat} : ∀ (frames : List (List Nat)) (k : Nat), (∀ f ∈ frames, f.length = n) → (hk : k < frames.length) →
    frameAt n frames.flatten k = frames[k]
  | [], k, _, hk => by simp at hk
  | f :: fs, 0, h, _ => by
    have hf : f.length = n := h f (by simp)
    simp only [frameAt, Nat.mul_zero, List.drop_zero, List.flatten_cons, List.getElem_cons_zero]
    rw [List.take_append_of_le_length (by omega), List.take_of_length_le (by omega)]
  | f :: fs, k + 1, h, hk => by
    have hf : f.length = n := h f (by simp)
    have ih := frameAt_flatten fs k (fun g hg => h g (by simp [hg])) (by simpa using hk)
    simp only [List.getElem_cons_succ]
    rw [← ih]
    simp only [frameAt, List.flatten_cons]
    rw [show n * (k + 1) = f.length + n * k by rw [hf]; ring, List.drop_append, List.drop_eq_nil_of_le (by omega),
      List.nil_append, Nat.add_sub_cancel_left]

/-- so the side information of every frame that an encoder has appended to the file is listed -/
theorem C117_frames {frames : List (List Nat)} {infos : List SideInfo} {rs : List Reader} (hl : frames.length = infos.length)
    (h150 : ∀ f ∈ frames, f.length = 150) (hr : rs.length = infos.length)
    (h : ∀ i, ∀ (h1 : i < frames.length) (h2 : i < infos.length) (h3 : i < rs.length),
      readSideInfo frames[i] Reader.new (Lc3Config.new .hz48000 .tenMs).fsInd (Lc3Config.new .hz48000 .tenMs).ne = .ok (infos[i], rs[i])) :
    listSideInfo frames.flatten = .ok (infos, none) := by
  have hlen : ∀ fs : List (List Nat), (∀ f ∈ fs, f.length = 150) → fs.flatten.length = 150 * fs.length := by
    intro fs hfs
    induction fs with
    | nil => rfl
    | cons f fs ih =>
      rw [List.flatten_cons, List.length_append, ih (fun g hg => hfs g (by simp [hg])), hfs f (by simp), List.length_cons]
      ring
  refine C117 (by rw [hlen frames h150, hl]) ?_
  intro i hi
  rw [listed, frameAt_flatten frames i h150 (by omega), sideInfoOf, h i (by omega) hi (by omega), List.getElem?_eq_getElem hi]

/-- a file with a valid and an invalid frame -/
example : (match listSideInfo (List.replicate 150 0 ++ List.replicate 150 255) with
    | .ok (l, e) => (l.length, e)
    | _ => (0, none)) = (1, some 150) := by decide +kernel

/-- the empty file is listed; one byte is not -/
example : listSideInfo [] = .ok ([], none) ∧ listSideInfo [0] = .panic :=
  ⟨C117 (infos := []) rfl (by simp), C117_incomplete (infos := []) (by simp) (by simp) (by simp)⟩

end Lc3
