import Verif.Spec.Generator
import Mathlib.Dynamics.PeriodicPts.Defs
import Mathlib.Algebra.Order.BigOperators.Group.Finset
import Mathlib.Data.Nat.Prime.Pow
import Mathlib.Tactic.NormNum
import Mathlib.Tactic.Ring
/-! Linear congruential generators modulo `2 ^ 16`. -/

namespace Lc3
open Spec Function

/-- multiplier and increment of two steps -/
def lcgTwice (p : ℕ × ℕ) : ℕ × ℕ := (p.1 * p.1 % 65536, (p.1 * p.2 + p.2) % 65536)

theorem lcg_pow {g : ℕ → ℕ} {a c : ℕ} (hg : ∀ s < 65536, g s = (a * s + c) % 65536) : ∀ (k s : ℕ), s < 65536 →
    g^[2 ^ k] s = ((lcgTwice^[k] (a, c)).1 * s + (lcgTwice^[k] (a, c)).2) % 65536
  | 0, s, hs => by simpa using hg s hs
  | k + 1, s, hs => by
    have ih := lcg_pow hg k
    have h1 := ih s hs
    have hlt : g^[2 ^ k] s < 65536 := by rw [h1]; exact Nat.mod_lt _ (by norm_num)
    rw [show 2 ^ (k + 1) = 2 ^ k + 2 ^ k by ring, iterate_add_apply, ih _ hlt, h1, iterate_succ_apply']
    generalize lcgTwice^[k] (a, c) = p
    obtain ⟨A, B⟩ := p
    simp only [lcgTwice]
    have e : (A * ((A * s + B) % 65536) + B) % 65536 = (A * (A * s + B) + B) % 65536 := by
      rw [Nat.add_mod, Nat.mul_mod, Nat.mod_mod, ← Nat.mul_mod, ← Nat.add_mod]
    have e2 : (A * A % 65536 * s + (A * B + B) % 65536) % 65536 = (A * A * s + (A * B + B)) % 65536 := by
      rw [Nat.add_mod, Nat.mul_mod, Nat.mod_mod, Nat.mod_mod, ← Nat.mul_mod, ← Nat.add_mod]
    rw [e, e2]
    congr 1
    ring

theorem fair_of_lcg {g : ℕ → ℕ} {a c : ℕ} (hg : ∀ s < 65536, g s = (a * s + c) % 65536) (h : lcgTwice^[15] (a, c) = (1, 32768)) :
    FairGenerator g := by
  have hr : ∀ s < 65536, g s < 65536 := fun s hs => by rw [hg s hs]; exact Nat.mod_lt _ (by norm_num)
  have hri : ∀ n s, s < 65536 → g^[n] s < 65536 := fun n => by
    induction n with
    | zero => intro s hs; exact hs
    | succ n ih => intro s hs; rw [iterate_succ_apply]; exact ih _ (hr s hs)
  have half : ∀ s < 65536, g^[32768] s = (s + 32768) % 65536 := fun s hs => by
    have := lcg_pow hg 15 s hs
    rw [h, show 2 ^ 15 = 32768 by norm_num, one_mul] at this
    exact this
  have full : ∀ s < 65536, g^[65536] s = s := fun s hs => by
    rw [show 65536 = 32768 + 32768 from rfl, iterate_add_apply, half s hs, half _ (Nat.mod_lt _ (by norm_num))]
    omega
  have per : ∀ s < 65536, minimalPeriod g s = 65536 := fun s hs => by
    have h1 : minimalPeriod g s ∣ 2 ^ 16 := IsPeriodicPt.minimalPeriod_dvd (n := 2 ^ 16) (full s hs)
    obtain ⟨k, hk, e⟩ := (Nat.dvd_prime_pow Nat.prime_two).1 h1
    rcases Nat.lt_or_ge k 16 with hlt | hge
    · exfalso
      have h2 : minimalPeriod g s ∣ 2 ^ 15 := by rw [e]; exact Nat.pow_dvd_pow 2 (by omega)
      have h3 : g^[32768] s = s := (isPeriodicPt_minimalPeriod g s).trans_dvd h2
      rw [half s hs] at h3
      omega
    · have : k = 16 := by omega
      rw [e, this]; norm_num
  have inj : ∀ s < 65536, ∀ i < 65536, ∀ j < 65536, g^[i] s = g^[j] s → i = j := fun s hs i hi j hj e => by
    have := iterate_injOn_Iio_minimalPeriod (f := g) (x := s)
    rw [per s hs] at this
    exact this hi hj e
  have opp : ∀ s < 65536, ∀ n, g^[n + 32768] s < 32768 ↔ ¬ g^[n] s < 32768 := fun s hs n => by
    have hn := hri n s hs
    rw [add_comm, iterate_add_apply, half _ hn]
    omega
  refine ⟨hr, ?_, full, opp, ?_⟩
  · intro s hs t ht
    have himg : (Finset.range 65536).image (fun n => g^[n] s) = Finset.range 65536 := by
      refine Finset.eq_of_subset_of_card_le ?_ ?_
      · intro x hx
        obtain ⟨n, -, rfl⟩ := Finset.mem_image.1 hx
        exact Finset.mem_range.2 (hri n s hs)
      · rw [Finset.card_image_of_injOn]
        intro i hi j hj e
        exact inj s hs i (Finset.mem_range.1 hi) j (Finset.mem_range.1 hj) e
    have htm : t ∈ (Finset.range 65536).image (fun n => g^[n] s) := by rw [himg]; exact Finset.mem_range.2 ht
    obtain ⟨n, hn, e⟩ := Finset.mem_image.1 htm
    refine ⟨n, ⟨Finset.mem_range.1 hn, e⟩, ?_⟩
    rintro m ⟨hm, e'⟩
    exact inj s hs m hm n (Finset.mem_range.1 hn) (e'.trans e.symm)
  · intro s hs m
    have bij : ((Finset.range 32768).filter fun n => g^[m + n] s < 32768).card
        + ((Finset.range 32768).filter fun n => ¬ g^[m + n] s < 32768).card = 32768 := by
      rw [Finset.card_filter_add_card_filter_not, Finset.card_range]
    have split : (Finset.range 65536).filter (fun n => g^[m + n] s < 32768) =
        ((Finset.range 32768).filter fun n => g^[m + n] s < 32768) ∪
        (((Finset.range 32768).filter fun n => ¬ g^[m + n] s < 32768).image (· + 32768)) := by
      ext n
      simp only [Finset.mem_filter, Finset.mem_range, Finset.mem_union, Finset.mem_image]
      constructor
      · rintro ⟨h1, h2⟩
        rcases Nat.lt_or_ge n 32768 with hn | hn
        · exact .inl ⟨hn, h2⟩
        · refine .inr ⟨n - 32768, ⟨by omega, ?_⟩, by omega⟩
          rw [← opp s hs, show m + (n - 32768) + 32768 = m + n by omega]
          exact h2
      · rintro (⟨h1, h2⟩ | ⟨k, ⟨h1, h2⟩, rfl⟩)
        · exact ⟨by omega, h2⟩
        · refine ⟨by omega, ?_⟩
          rw [← opp s hs, add_assoc] at h2
          exact h2
    rw [split, Finset.card_union_of_disjoint, Finset.card_image_of_injective _ (add_left_injective _), bij]
    rw [Finset.disjoint_left]
    intro n h1 h2
    simp only [Finset.mem_filter, Finset.mem_range, Finset.mem_image] at h1 h2
    obtain ⟨k, ⟨h3, -⟩, rfl⟩ := h2
    omega

end Lc3
