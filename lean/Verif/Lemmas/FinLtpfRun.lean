import Verif.Lemmas.FinLtpf
/-! Sizes in the decoder in binary32: one frame of the long term post filter. -/

namespace Lc3.F32
open Scalar Tables Spec

variable {el : Elem}

theorem transition_bd {f : SamplingFrequency} {d : FrameDuration} {s : Ltpf F32} (h : @LtpfInv F32 f d s)
    (hc : s.activePrev = true → CoefOk s.cNum s.cDen) (hy : AllBd (2 ^ 108) s.yMem)
    {active : Bool} {pitch pitchFr : ℕ} {cn cd : List F32} (hcn : CoefOk cn cd)
    (hlen : cn.length = lDenOf (Lc3Config.new f d).fs - 1) {x y : List F32} (hx : AllBd (2 ^ 102) x)
    (e : @ltpfTransition F32 (scalar el) (Lc3Config.new f d) s active pitch pitchFr cn cd x = .ok y) : AllBd (2 ^ 108) y := by
  letI := scalar el
  obtain ⟨hn1, hn2, hn3⟩ := ltpf_taps_norm f d
  have hs25 : (if (Lc3Config.new f d).fs = 44100 then 48000 / 400 else (Lc3Config.new f d).fs / 400) = ltpfNorm (Lc3Config.new f d) :=
    ltpf_samples f d
  have hb0 : s.blockStart = 0 ∨ (Lc3Config.new f d).nf ≤ s.blockStart := by
    obtain ⟨q, hq⟩ := h.blkDvd
    rcases Nat.eq_zero_or_pos q with rfl | hq0
    · left; simpa using hq
    · right; rw [hq]; exact Nat.le_mul_of_pos_right _ hq0
  have hN0 : 0 < ltpfNorm (Lc3Config.new f d) := by cases f <;> cases d <;> decide
  have hN1 : ltpfNorm (Lc3Config.new f d) ≤ 480 := by cases f <;> cases d <;> decide
  have hfull : ∀ {a count : ℕ} {l l' : List F32}, AllBd (2 ^ 108) l →
      forRange (ltpfSample (ringSize (Lc3Config.new f d)) cn cd x s.blockStart pitch fun _ f => f) a count l = .ok l' →
      AllBd (2 ^ 108) l' := by
    intro a count l l' hl k
    exact (filt_bd hcn hx (fun n f _ _ hf => hf.mono (by norm_num)) hl k).1
  have hdeact : s.activePrev = true → ∀ {l' : List F32},
      ltpfDeactivate (ringSize (Lc3Config.new f d)) (ltpfNorm (Lc3Config.new f d)) s x s.blockStart (ltpfNorm (Lc3Config.new f d)) s.yMem = .ok l' →
      AllBd (2 ^ 108) l' ∧ ∀ n, n < ltpfNorm (Lc3Config.new f d) → ∀ v, l'[s.blockStart + n]? = some v → Bd (43 / 100 * 2 ^ 108) v := by
    intro ha l' k
    unfold ltpfDeactivate at k
    have key := filt_bd (hc ha) hx (fun n f _ hn hf => (fadeOut_bd (el := el) hN0 hN1 (by omega) hf (by norm_num) (by norm_num)).mono (by norm_num)) hy k
    exact ⟨key.1, fun n hn => key.2 n (by omega) (by omega)⟩
  unfold ltpfTransition at e
  simp only [hs25] at e
  cases hact : active <;> cases hprev : s.activePrev
  · rw [hact, hprev] at e
    simp only [Bool.not_false, Bool.and_self, if_true] at e
    exact copy_bd hx hy e
  · rw [hact, hprev] at e
    simp only [Bool.not_false, Bool.not_true, Bool.and_false, Bool.and_true, Bool.false_eq_true, if_false, if_true] at e
    obtain ⟨l, k1, e⟩ := bind_ok_inv e
    exact copy_bd hx (hdeact hprev k1).1 e
  · rw [hact, hprev] at e
    simp only [Bool.not_false, Bool.not_true, Bool.and_true, Bool.false_eq_true, if_false, if_true] at e
    obtain ⟨l, k1, e⟩ := bind_ok_inv e
    have key := filt_bd hcn hx (fun n g _ hn hf => by
      have hN' : (0 : ℝ) < ltpfNorm (Lc3Config.new f d) := by exact_mod_cast hN0
      exact (fadeIn_bd (el := el) hN0 hN1 (n := n) (by omega) (t := 1) (by rw [div_le_one hN']; exact_mod_cast (by omega)) (by norm_num) le_rfl hf
        (by norm_num) (by norm_num)).mono (by norm_num)) hy k1
    exact hfull key.1 e
  · rw [hact, hprev] at e
    simp only [Bool.not_true, Bool.and_false, Bool.false_and, Bool.false_eq_true, if_false] at e
    split at e
    · exact hfull hy e
    · obtain ⟨l, k1, e⟩ := bind_ok_inv e
      obtain ⟨ln, k3, e⟩ := bind_ok_inv e
      obtain ⟨scr, k4, e⟩ := bind_ok_inv e
      obtain ⟨l2, k6, e⟩ := bind_ok_inv e
      have hln := usub_ok_inv k3
      obtain ⟨n1, n2⟩ := hdeact hprev k1
      exact hfull (fromMem_bd hcn (by omega) (by omega) hN0 hN1 (by omega) n1 n2 k4 k6) e

/-- the state of the post filter is finite and bounded -/
structure LtpfFin (f : SamplingFrequency) (d : FrameDuration) (s : Ltpf F32) : Prop where
  inv : @LtpfInv F32 f d s
  co : s.activePrev = true → CoefOk s.cNum s.cDen
  x : AllBd (2 ^ 102) s.xMem
  y : AllBd (2 ^ 108) s.yMem

theorem run_bd {f : SamplingFrequency} {d : FrameDuration} {s : Ltpf F32} (h : LtpfFin f d s) {info : LtpfInfo}
    (hp : info.pitchIndex < 512) (nbits : ℕ) {x : List F32} (l : x.length = (Lc3Config.new f d).nf) (hx : AllBd (2 ^ 102) x) :
    ∃ s' o, @ltpfRun F32 (scalar el) (Lc3Config.new f d) s info nbits x = .ok (s', o) ∧ LtpfFin f d s' ∧ AllBd (2 ^ 108) o ∧
      o.length = (Lc3Config.new f d).nf := by
  letI := scalar el
  obtain ⟨s', o, e, hi, hol⟩ := ltpfRun_inv h.inv hp nbits l
  refine ⟨s', o, e, ?_⟩
  have c := coefOk_setting (el := el) f d info nbits
  obtain ⟨q1, q2⟩ := @settingOf_lengths F32 (scalar el) f d info nbits
  have hpar := @ltpfParams_ok F32 (scalar el) f d info hp nbits
  have hco := @ltpfCoeffs_ok F32 (scalar el) f d s info nbits h.inv.cn h.inv.cd
  have xl := h.inv.xl
  have b := h.inv.blk
  have m := e
  unfold ltpfRun at m
  rw [hpar] at m
  simp only [Res.bind_ok] at m
  rw [hco] at m
  simp only [Res.bind_ok] at m
  rw [if_neg (by rw [not_or]; exact ⟨by simp [l], by omega⟩)] at m
  obtain ⟨y, t, m⟩ := bind_ok_inv m
  have hxm : AllBd (2 ^ 102) (s.xMem.take s.blockStart ++ x ++ s.xMem.drop (s.blockStart + (Lc3Config.new f d).nf)) :=
    ((h.x.take _).append hx).append (h.x.drop _)
  have hy := transition_bd h.inv h.co h.y c q1 hxm t
  split at m
  · cases m
  simp only [Res.ok.injEq, Prod.mk.injEq] at m
  obtain ⟨rfl, rfl⟩ := m
  exact ⟨⟨hi, fun _ => c, hxm, hy⟩, (hy.take _).drop _, hol⟩

end Lc3.F32
