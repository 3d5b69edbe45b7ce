import Verif.Spec.Coding
import Verif.Tables.SpectralData
import Verif.Tables.Tns
/-! The probability tables are proper models (checked over every entry in the kernel). -/

namespace Lc3
open Tables

/-- checker: `c` is the running sum -/
def properFrom (c : Nat) : List Nat → List Nat → Bool
  | [], [] => c == 1024
  | x :: xs, f :: fs => x == c && decide (0 < f) && properFrom (c + f) xs fs
  | _, _ => false

theorem properFrom_spec (c : Nat) (cum freq : List Nat) (h : properFrom c cum freq = true) :
    cum.length = freq.length ∧ (∀ f ∈ freq, 0 < f) ∧
    (∀ i, i < freq.length → cum[i]? = some (c + (freq.take i).sum)) ∧ c + freq.sum = 1024 := by
  induction cum generalizing c freq with
  | nil =>
    cases freq with
    | nil => simp [properFrom] at h; simp [h]
    | cons f fs => simp [properFrom] at h
  | cons x xs ih =>
    cases freq with
    | nil => simp [properFrom] at h
    | cons f fs =>
      simp only [properFrom, Bool.and_eq_true, beq_iff_eq, decide_eq_true_eq] at h
      obtain ⟨⟨h1, h2⟩, h3⟩ := h
      obtain ⟨i1, i2, i3, i4⟩ := ih (c + f) fs h3
      refine ⟨by simp [i1], ?_, ?_, by simp; omega⟩
      · intro g hg
        rcases List.mem_cons.1 hg with rfl | hg
        · exact h2
        · exact i2 g hg
      · intro i hi
        cases i with
        | zero => simp [h1]
        | succ i =>
          have := i3 i (by simpa using hi)
          simp only [List.getElem?_cons_succ, this, List.take_succ_cons, List.sum_cons]
          congr 1; omega

theorem proper_of_check {cum freq : List Nat} (h : properFrom 0 cum freq = true) :
    ProperModel cum freq := by
  obtain ⟨h1, h2, h3, h4⟩ := properFrom_spec 0 cum freq h
  exact ⟨h1, h2, by simpa using h3, by simpa using h4⟩

/-- every pair of tables of two lists of tables -/
def allProper : List (List Nat) → List (List Nat) → Nat → Bool
  | [], [], _ => true
  | c :: cs, f :: fs, n => properFrom 0 c f && f.length == n && allProper cs fs n
  | _, _, _ => false

theorem allProper_spec (cs fs : List (List Nat)) (n : Nat) (h : allProper cs fs n = true) :
    cs.length = fs.length ∧
    ∀ i, (h1 : i < cs.length) → (h2 : i < fs.length) → ProperModel cs[i] fs[i] ∧ fs[i].length = n := by
  induction cs generalizing fs with
  | nil =>
    cases fs with
    | nil => exact ⟨rfl, by simp⟩
    | cons f fs => simp [allProper] at h
  | cons c cs ih =>
    cases fs with
    | nil => simp [allProper] at h
    | cons f fs =>
      simp only [allProper, Bool.and_eq_true, beq_iff_eq] at h
      obtain ⟨⟨h1, h2⟩, h3⟩ := h
      obtain ⟨i1, i2⟩ := ih fs h3
      refine ⟨by simp [i1], ?_⟩
      intro i hi1 hi2
      cases i with
      | zero => exact ⟨proper_of_check h1, h2⟩
      | succ i => exact i2 i (by simpa using hi1) (by simpa using hi2)

theorem spec_check : allProper AC_SPEC_CUMFREQ AC_SPEC_FREQ 17 = true := by decide +kernel
theorem tnsOrder_check : allProper AC_TNS_ORDER_CUMFREQ AC_TNS_ORDER_FREQ 8 = true := by decide +kernel
theorem tnsCoef_check : allProper AC_TNS_COEF_CUMFREQ AC_TNS_COEF_FREQ 17 = true := by decide +kernel
theorem spec_cum_len : AC_SPEC_CUMFREQ.length = 64 := by decide +kernel
theorem spec_freq_len : AC_SPEC_FREQ.length = 64 := by decide +kernel
theorem tnsOrder_cum_len : AC_TNS_ORDER_CUMFREQ.length = 2 := by decide +kernel
theorem tnsOrder_freq_len : AC_TNS_ORDER_FREQ.length = 2 := by decide +kernel
theorem tnsCoef_cum_len : AC_TNS_COEF_CUMFREQ.length = 8 := by decide +kernel
theorem tnsCoef_freq_len : AC_TNS_COEF_FREQ.length = 8 := by decide +kernel
theorem lookup_len : AC_SPEC_LOOKUP.length = 4096 := by decide +kernel
theorem lookup_lt : AC_SPEC_LOOKUP.all (· < 64) = true := by decide +kernel

theorem spec_proper {i : Nat} (h1 : i < AC_SPEC_CUMFREQ.length) (h2 : i < AC_SPEC_FREQ.length) :
    ProperModel AC_SPEC_CUMFREQ[i] AC_SPEC_FREQ[i] ∧ AC_SPEC_FREQ[i].length = 17 :=
  (allProper_spec _ _ _ spec_check).2 i h1 h2

theorem tnsOrder_proper {i : Nat} (h1 : i < AC_TNS_ORDER_CUMFREQ.length)
    (h2 : i < AC_TNS_ORDER_FREQ.length) :
    ProperModel AC_TNS_ORDER_CUMFREQ[i] AC_TNS_ORDER_FREQ[i] ∧ AC_TNS_ORDER_FREQ[i].length = 8 :=
  (allProper_spec _ _ _ tnsOrder_check).2 i h1 h2

theorem tnsCoef_proper {i : Nat} (h1 : i < AC_TNS_COEF_CUMFREQ.length)
    (h2 : i < AC_TNS_COEF_FREQ.length) :
    ProperModel AC_TNS_COEF_CUMFREQ[i] AC_TNS_COEF_FREQ[i] ∧ AC_TNS_COEF_FREQ[i].length = 17 :=
  (allProper_spec _ _ _ tnsCoef_check).2 i h1 h2

theorem lookup_lt' {i : Nat} (h : i < AC_SPEC_LOOKUP.length) : AC_SPEC_LOOKUP[i] < 64 := by
  have := List.all_eq_true.1 lookup_lt _ (List.getElem_mem h)
  simpa using this

end Lc3
