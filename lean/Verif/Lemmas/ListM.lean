import Verif.Lemmas.Safe
/-! `List.mapM` in `Res`. -/

namespace Lc3

theorem mapM_cons' {β γ : Type} (f : β → Res γ) (a : β) (l : List β) :
    (a :: l).mapM f = (do let b ← f a; let r ← l.mapM f; Res.ok (b :: r)) := by
  rw [List.mapM_cons]; rfl

theorem mapM_ok {β γ : Type} {f : β → Res γ} {g : β → γ} : ∀ {l : List β}, (∀ a ∈ l, f a = .ok (g a)) →
    l.mapM f = .ok (l.map g)
  | [], _ => rfl
  | a :: l, h => by
    rw [mapM_cons', h a (by simp), mapM_ok (l := l) (fun b hb => h b (by simp [hb]))]; rfl

theorem safe_mapM {β γ : Type} {f : β → Res γ} {P : γ → Prop} : ∀ {l : List β}, (∀ a ∈ l, Safe (f a) P) →
    Safe (l.mapM f) (fun r => r.length = l.length ∧ ∀ c ∈ r, P c)
  | [], _ => by simp [Safe, List.mapM_nil]
  | a :: l, h => by
    rw [mapM_cons']
    refine (h a (by simp)).bind ?_
    intro b hb
    refine (safe_mapM (l := l) (fun c hc => h c (by simp [hc]))).bind ?_
    rintro r ⟨h1, h2⟩
    simp only [safe_ok, List.length_cons, h1, true_and, List.mem_cons]
    rintro c (rfl | hc)
    · exact hb
    · exact h2 c hc

theorem flatten_length_const {β : Type} {n : Nat} : ∀ {l : List (List β)}, (∀ c ∈ l, c.length = n) →
    l.flatten.length = l.length * n
  | [], _ => by simp
  | a :: l, h => by
    rw [List.flatten_cons, List.length_append, flatten_length_const (l := l) (fun c hc => h c (by simp [hc])),
      h a (by simp), List.length_cons]
    rw [Nat.add_mul, Nat.one_mul, Nat.add_comm]

end Lc3
