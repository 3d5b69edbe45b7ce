import Verif.Lemmas.PtrInv
import Verif.Lemmas.DecStep
import Verif.Lemmas.FrameBody
import Verif.Spec.Symbols
/-! Symbol sequences as event lists. -/

namespace Lc3

def Symb.ev (y : Symb) : Ev := .sym (y.freq.take y.val).sum (y.freq.getD y.val 0)

theorem Symb.Ok.ev_eq {y : Symb} (h : y.Ok) : y.ev = .sym (y.freq.take y.val).sum (y.freq[y.val]'h.2) := by
  unfold Symb.ev; rw [List.getD_eq_getElem _ _ h.2]

theorem symbs_valid {ys : List Symb} (h : ∀ y ∈ ys, y.Ok) : ∀ e ∈ ys.map Symb.ev, e.Valid := by
  intro e he
  obtain ⟨y, hy, rfl⟩ := List.mem_map.1 he
  rw [(h y hy).ev_eq]
  exact (h y hy).1.valid (h y hy).2

theorem encodeSymbols_eq {ys : List Symb} (h : ∀ y ∈ ys, y.Ok) (s : EncSt) :
    encodeSymbols ys s = runEv (ys.map Symb.ev) s := by
  induction ys generalizing s with
  | nil => rfl
  | cons y ys ih =>
    have hy := h y (by simp)
    simp only [encodeSymbols, List.map_cons]
    rw [hy.1.cum_eq hy.2, idx_eq_ok hy.2, hy.ev_eq]
    simp only [Res.bind_ok, runEv]
    congr 1; funext s'; exact ih (fun y' h' => h y' (by simp [h'])) s'

theorem decodeModels_spec {buf : List Nat} {ys : List Symb} (h : ∀ y ∈ ys, y.Ok) {σ : ASt} (ho : σ.Ok)
    (hg : Good buf (σ.run (ys.map Symb.ev))) :
    decodeModels buf (decRd σ) (decAc buf σ) ys = .ok (ys.map Symb.val) := by
  induction ys generalizing σ with
  | nil => rfl
  | cons y ys ih =>
    have hy := h y (by simp)
    have hys : ∀ y' ∈ ys, y'.Ok := fun y' h' => h y' (by simp [h'])
    have hv := symbs_valid h y.ev (by simp)
    have ho' := ho.step hv
    simp only [List.map_cons, ASt.run] at hg
    have hb := hg.back_run _ ho' (symbs_valid hys)
    have hd := hy.ev_eq ▸ hb
    simp only [decodeModels]
    rw [acDecode_sym hy.1 hy.2 ho hd, ← hy.ev_eq]
    simp only [Res.bind_ok]
    rw [ih hys ho' hg]
    rfl

/-- abstract state after the symbols -/
def symSt (tl : List Bool) (ys : List Symb) : ASt := ASt.run ⟨Abs.init, tl⟩ (ys.map Symb.ev)

theorem symSt_tl (σ : ASt) (ys : List Symb) : (σ.run (ys.map Symb.ev)).tl = σ.tl := by
  induction ys generalizing σ with
  | nil => rfl
  | cons y ys ih => simp only [List.map_cons, ASt.run, ih]; rfl

theorem startFrame_pos {N : Nat} {tl : List Bool} {s : EncSt} (h : startFrame N tl = .ok s)
    (hN2 : N < 65536) : 0 < N := by
  by_contra h0
  have : N = 0 := by omega
  subst this
  simp [startFrame, Writer.new, usub] at h

theorem startFrame_inv {N : Nat} {tl : List Bool} {s : EncSt} (h : startFrame N tl = .ok s)
    (hN2 : N < 65536) : tl.length < 8 * N ∧ FrameInv N s [] tl ∧ CInv s.ac [] Abs.init := by
  have hN := startFrame_pos h hN2
  obtain ⟨w, e1, f1⟩ := FrameInv.new hN hN2 ⟨0, 0, 0, 0, 0⟩
  obtain ⟨w', e1', f1'⟩ := FrameInv.new hN hN2 initAc
  rw [e1, Res.ok.injEq] at e1'
  subst e1'
  unfold startFrame at h
  rw [e1] at h
  simp only [Res.bind_ok] at h
  obtain ⟨s1, e2, e3⟩ := Res.bind_eq_ok.1 h
  have hac := encBools_ac tl ⟨w, List.replicate N 0, ⟨0, 0, 0, 0, 0⟩⟩ initAc
  rw [e2] at hac
  have hp := runEv_ptr (tl.map .bit) (PtrInv.of_inv (σ := ⟨Abs.init, []⟩) f1' CInv.init) (ASt.Ok.init _)
    (bits_valid _) (by rw [runEv_bits]; exact hac)
  rw [ASt.run_bits] at hp
  have hlt := hp.tlt
  simp only [List.nil_append] at hlt
  obtain ⟨s2, b1, b2, b3⟩ := encBools_spec tl f1' (by simp; omega) (by simp; omega)
  rw [hac] at b1
  simp only [Res.bind_ok, Res.ok.injEq] at b1 e3
  have : s = s2 := by rw [← b1, ← e3]; rfl
  subst this
  refine ⟨hlt, by simpa using b2, by rw [b3]; exact CInv.init⟩

theorem symbols_post {N : Nat} {tl : List Bool} {ys : List Symb} {s0 s : EncSt} (hN2 : N < 65536)
    (hys : ∀ y ∈ ys, y.Ok) (h0 : startFrame N tl = .ok s0) (h1 : encodeSymbols ys s0 = .ok s)
    (hfit : tl.length + nbitsAriForecast s ≤ 8 * N) (hT : 16 ≤ tl.length) :
    ∃ hd, FrameInv N s hd tl ∧ CInv s.ac hd (symSt tl ys).abs ∧ (symSt tl ys).abs.S + 3 ≤ N ∧
      nbitsAriForecast s = 8 * (symSt tl ys).abs.S + (25 - Nat.log2 (symSt tl ys).abs.R) +
        (if s.ac.cache < 0 then 8 else 0) := by
  obtain ⟨hlt, f0, c0⟩ := startFrame_inv h0 hN2
  rw [encodeSymbols_eq hys] at h1
  have hv := symbs_valid hys
  have hp : PtrInv N s (symSt tl ys) := runEv_ptr _ (PtrInv.of_inv (σ := ⟨Abs.init, tl⟩) f0 c0) (ASt.Ok.init _) hv h1
  have hfore := hp.forecast
  have htl : (symSt tl ys).tl = tl := symSt_tl _ _
  have hok : (symSt tl ys).Ok := (ASt.Ok.init _).run hv
  obtain ⟨hl1, hl2⟩ := log2_le hok.1 hok.2
  obtain ⟨s', hd, e, f, c⟩ := runEv_spec _ (σ := ⟨Abs.init, tl⟩) f0 c0 hv
    (by change 8 * (symSt tl ys).abs.S + (symSt tl ys).tl.length ≤ _; rw [htl]; omega)
    (by change (symSt tl ys).tl.length < _; rw [htl]; omega)
  rw [h1, Res.ok.injEq] at e
  subst e
  change FrameInv N s hd (symSt tl ys).tl at f
  rw [htl] at f
  exact ⟨hd, f, c, by omega, hfore⟩

end Lc3
