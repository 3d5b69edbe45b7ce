import Verif.Lemmas.RangeFinish2
/-! Coding events (an entropy-coded symbol or a bit written from the back), the encoder running a list
of events, and the abstract state after a list of events. -/

namespace Lc3

inductive Ev where
  | sym (cum freq : Nat)
  | bit (b : Bool)

/-- a symbol of some model with total 1024 -/
def Ev.Valid : Ev → Prop
  | .sym cum freq => 0 < freq ∧ cum + freq ≤ 1024
  | .bit _ => True

/-- the concrete encoder running events -/
def runEv : List Ev → EncSt → Res EncSt
  | [], s => .ok s
  | .sym c f :: es, s => acEncode s c f >>= runEv es
  | .bit b :: es, s => s.bool b >>= runEv es

/-- abstract state: interval and bits at the back -/
structure ASt where
  abs : Abs
  tl : List Bool

def ASt.step (σ : ASt) : Ev → ASt
  | .sym c f => ⟨σ.abs.step c f, σ.tl⟩
  | .bit b => ⟨σ.abs, σ.tl ++ [b]⟩

def ASt.run (σ : ASt) : List Ev → ASt
  | [] => σ
  | e :: es => (σ.step e).run es

theorem ASt.run_append (σ : ASt) (a b : List Ev) : σ.run (a ++ b) = (σ.run a).run b := by
  induction a generalizing σ with
  | nil => rfl
  | cons e es ih => simp [ASt.run, ih]

theorem runEv_append (a b : List Ev) (s : EncSt) : runEv (a ++ b) s = (runEv a s >>= runEv b) := by
  induction a generalizing s with
  | nil => rfl
  | cons e es ih =>
    cases e with
    | sym c f =>
      simp only [List.cons_append, runEv, Res.bind_assoc]
      congr 1; funext s'; exact ih s'
    | bit b' =>
      simp only [List.cons_append, runEv, Res.bind_assoc]
      congr 1; funext s'; exact ih s'

theorem runEv_bits (bs : List Bool) (s : EncSt) : runEv (bs.map .bit) s = encBools bs s := by
  induction bs generalizing s with
  | nil => rfl
  | cons b bs ih =>
    simp only [List.map_cons, runEv, encBools]
    congr 1; funext s'; exact ih s'

theorem ASt.run_bits (σ : ASt) (bs : List Bool) : σ.run (bs.map .bit) = ⟨σ.abs, σ.tl ++ bs⟩ := by
  induction bs generalizing σ with
  | nil => simp [ASt.run]
  | cons b bs ih => simp [ASt.run, ih, ASt.step]

theorem ASt.step_mono (σ : ASt) (e : Ev) :
    σ.abs.S ≤ (σ.step e).abs.S ∧ σ.tl.length ≤ (σ.step e).tl.length := by
  cases e with
  | sym c f => exact ⟨Abs.step_fit_mono _ _ _, le_refl _⟩
  | bit b => simp [ASt.step]

theorem ASt.run_mono (σ : ASt) (es : List Ev) :
    σ.abs.S ≤ (σ.run es).abs.S ∧ σ.tl.length ≤ (σ.run es).tl.length := by
  induction es generalizing σ with
  | nil => simp [ASt.run]
  | cons e es ih =>
    have h1 := σ.step_mono e
    have h2 := ih (σ.step e)
    simp only [ASt.run]; omega

/-- range of the interval between symbols -/
def ASt.Ok (σ : ASt) : Prop := 2 ^ 16 ≤ σ.abs.R ∧ σ.abs.R < 2 ^ 24

theorem ASt.Ok.init (tl : List Bool) : ASt.Ok ⟨Abs.init, tl⟩ := by
  unfold ASt.Ok Abs.init; norm_num

theorem step_range {R cum freq : Nat} (hlo : 2 ^ 16 ≤ R) (hhi : R < 2 ^ 24) (hfreq : 0 < freq)
    (htot : cum + freq ≤ 1024) :
    2 ^ 16 ≤ R / 1024 * freq * 256 ^ nShift (R / 1024 * freq) ∧
    R / 1024 * freq * 256 ^ nShift (R / 1024 * freq) < 2 ^ 24 := by
  have h1 : 64 ≤ R / 1024 := by omega
  have h2 : 64 ≤ R / 1024 * freq := by nlinarith
  have h3 : R / 1024 * freq ≤ R := by
    have : R / 1024 * freq ≤ R / 1024 * 1024 := Nat.mul_le_mul_left _ (by omega)
    omega
  generalize R / 1024 * freq = x at *
  unfold nShift
  split
  · simp only [Nat.reducePow] at *; omega
  · split
    · simp only [Nat.reducePow] at *; omega
    · simp only [Nat.reducePow] at *; omega

theorem ASt.Ok.step {σ : ASt} {e : Ev} (h : σ.Ok) (hv : e.Valid) : (σ.step e).Ok := by
  cases e with
  | sym c f => exact step_range h.1 h.2 hv.1 hv.2
  | bit b => exact h

theorem ASt.Ok.run {σ : ASt} {es : List Ev} (h : σ.Ok) (hv : ∀ e ∈ es, e.Valid) : (σ.run es).Ok := by
  induction es generalizing σ with
  | nil => exact h
  | cons e es ih =>
    exact ih (h.step (hv e (by simp))) (fun e' he => hv e' (by simp [he]))

theorem CInv.hd_le {ac : AcEnc} {hd : List Nat} {a : Abs} (h : CInv ac hd a) : hd.length ≤ a.S := by
  have := h.rc.hS; omega

/-- the concrete encoder follows the abstract one as long as everything fits -/
theorem runEv_spec {N : Nat} (es : List Ev) {s : EncSt} {hd : List Nat} {σ : ASt}
    (hf : FrameInv N s hd σ.tl) (hc : CInv s.ac hd σ.abs) (hv : ∀ e ∈ es, e.Valid)
    (hfit : 8 * (σ.run es).abs.S + (σ.run es).tl.length ≤ 8 * N)
    (hlt : (σ.run es).tl.length < 8 * N) :
    ∃ s' hd', runEv es s = .ok s' ∧ FrameInv N s' hd' (σ.run es).tl ∧ CInv s'.ac hd' (σ.run es).abs := by
  induction es generalizing s hd σ with
  | nil => exact ⟨s, hd, rfl, hf, hc⟩
  | cons e es ih =>
    have hm := (σ.step e).run_mono es
    simp only [ASt.run] at hfit hlt ⊢
    cases e with
    | sym c f =>
      obtain ⟨hv1, hv2⟩ := hv (.sym c f) (by simp)
      have hs : (σ.step (.sym c f)).abs = σ.abs.step c f := rfl
      have ht : (σ.step (.sym c f)).tl = σ.tl := rfl
      rw [hs, ht] at hm
      obtain ⟨s1, hd1, e1, f1, c1⟩ := acEncode_spec hf hc hv1 hv2 (by omega)
      obtain ⟨s2, hd2, e2, f2, c2⟩ := ih (σ := σ.step (.sym c f)) f1 c1
        (fun e' he => hv e' (by simp [he])) hfit hlt
      exact ⟨s2, hd2, by simp [runEv, e1, e2], f2, c2⟩
    | bit b =>
      have ht : (σ.step (.bit b)).tl = σ.tl ++ [b] := rfl
      have hs : (σ.step (.bit b)).abs = σ.abs := rfl
      have hlen : (σ.step (.bit b)).tl.length = σ.tl.length + 1 := by rw [ht]; simp
      have hle := hc.hd_le
      rw [hs] at hm
      obtain ⟨s1, e1, f1, c1⟩ := EncSt.bool_spec b hf (by omega) (by omega)
      obtain ⟨s2, hd2, e2, f2, c2⟩ := ih (σ := σ.step (.bit b)) f1 (by rw [hs, c1]; exact hc)
        (fun e' he => hv e' (by simp [he])) hfit hlt
      exact ⟨s2, hd2, by simp [runEv, e1, e2], f2, c2⟩

theorem CInv.init : CInv ⟨0, 0x00ffffff, -1, 0, 0⟩ [] Abs.init := by
  refine ⟨⟨?_, ?_, ?_, ?_, ?_, ?_, ?_, ?_, ?_⟩, rfl, ?_, ?_, ?_⟩ <;>
    simp [pending, Abs.init, beVal, Bytes]

/-- the new frame writer -/
theorem FrameInv.new {N : Nat} (hN : 0 < N) (hN2 : N < 65536) (ac : AcEnc) :
    ∃ w, Writer.new N = .ok w ∧ FrameInv N ⟨w, List.replicate N 0, ac⟩ [] [] := by
  unfold Writer.new
  rw [Nat.mod_eq_of_lt hN2]
  refine ⟨_, by simp [usub, show 1 ≤ N by omega]; rfl, ?_⟩
  refine ⟨by simp, hN2, ?_, rfl, by simp, by simp; omega, by simp, by simp, by simp, ?_, by simp⟩
  · intro b hb
    rw [List.eq_of_mem_replicate hb]; omega
  · intro j _ hj
    unfold tailBit
    have : (List.replicate N (0 : Nat)).getD (N - 1 - j / 8) 0 = 0 := by
      rw [List.getD_eq_getElem?_getD, List.getElem?_replicate]; split <;> rfl
    simp only [List.length_replicate]
    rw [this, Nat.zero_testBit]

end Lc3
