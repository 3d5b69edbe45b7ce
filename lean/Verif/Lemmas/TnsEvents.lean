import Verif.Lemmas.SpecEvents
/-! Temporal noise shaping parameters: encoder as event list, decoder in lock step. -/

namespace Lc3
open Tables

def coefEv (k i : Nat) : Ev :=
  modelEv (AC_TNS_COEF_CUMFREQ.getD k []) (AC_TNS_COEF_FREQ.getD k []) i

def orderEv (w i : Nat) : Ev :=
  modelEv (AC_TNS_ORDER_CUMFREQ.getD w []) (AC_TNS_ORDER_FREQ.getD w []) i

theorem coef_model {k : Nat} (hk : k < 8) :
    ProperModel (AC_TNS_COEF_CUMFREQ.getD k []) (AC_TNS_COEF_FREQ.getD k []) ∧
    (AC_TNS_COEF_FREQ.getD k []).length = 17 := by
  have h1 : k < AC_TNS_COEF_CUMFREQ.length := by rw [tnsCoef_cum_len]; exact hk
  have h2 : k < AC_TNS_COEF_FREQ.length := by rw [tnsCoef_freq_len]; exact hk
  rw [List.getD_eq_getElem _ _ h1, List.getD_eq_getElem _ _ h2]
  exact tnsCoef_proper h1 h2

theorem order_model {w : Nat} (hw : w < 2) :
    ProperModel (AC_TNS_ORDER_CUMFREQ.getD w []) (AC_TNS_ORDER_FREQ.getD w []) ∧
    (AC_TNS_ORDER_FREQ.getD w []).length = 8 := by
  have h1 : w < AC_TNS_ORDER_CUMFREQ.length := by rw [tnsOrder_cum_len]; exact hw
  have h2 : w < AC_TNS_ORDER_FREQ.length := by rw [tnsOrder_freq_len]; exact hw
  rw [List.getD_eq_getElem _ _ h1, List.getD_eq_getElem _ _ h2]
  exact tnsOrder_proper h1 h2

theorem coef_idx {k : Nat} (hk : k < 8) :
    idx AC_TNS_COEF_CUMFREQ k = .ok (AC_TNS_COEF_CUMFREQ.getD k []) ∧
    idx AC_TNS_COEF_FREQ k = .ok (AC_TNS_COEF_FREQ.getD k []) :=
  ⟨idx_getD [] (by rw [tnsCoef_cum_len]; exact hk), idx_getD [] (by rw [tnsCoef_freq_len]; exact hk)⟩

theorem order_idx {w : Nat} (hw : w < 2) :
    idx AC_TNS_ORDER_CUMFREQ w = .ok (AC_TNS_ORDER_CUMFREQ.getD w []) ∧
    idx AC_TNS_ORDER_FREQ w = .ok (AC_TNS_ORDER_FREQ.getD w []) :=
  ⟨idx_getD [] (by rw [tnsOrder_cum_len]; exact hw), idx_getD [] (by rw [tnsOrder_freq_len]; exact hw)⟩

/-- events of the coefficients `k ..` of a filter -/
def coefEvs : Nat → List Nat → List Ev
  | _, [] => []
  | k, i :: is => coefEv k i :: coefEvs (k + 1) is

/-- events of one filter with order `o` and coefficients `cs` -/
def filterEvs (w o : Nat) (cs : List Nat) : List Ev :=
  if o > 0 then orderEv w (o - 1) :: coefEvs 0 cs else []

/-- the coefficients of filter `f` that are transmitted -/
def filterCoefs (rcI : List Nat) (f o : Nat) : List Nat := (rcI.drop (8 * f)).take o

/-- events of the filters `f ..` -/
def tnsEvs (w : Nat) (rcOrder rcI : List Nat) (f : Nat) : Nat → List Ev
  | 0 => []
  | n + 1 => filterEvs w (rcOrder.getD f 0) (filterCoefs rcI f (rcOrder.getD f 0)) ++
      tnsEvs w rcOrder rcI (f + 1) n

theorem coefEvs_valid (k : Nat) (cs : List Nat) (hk : k + cs.length ≤ 8) (hc : ∀ c ∈ cs, c < 17) :
    ∀ e ∈ coefEvs k cs, e.Valid := by
  induction cs generalizing k with
  | nil => intro e he; simp [coefEvs] at he
  | cons c cs ih =>
    simp only [List.length_cons] at hk
    intro e he
    simp only [coefEvs, List.mem_cons] at he
    rcases he with rfl | he
    · obtain ⟨h1, h2⟩ := coef_model (k := k) (by omega)
      exact modelEv_valid h1 (by rw [h2]; exact hc c (by simp))
    · exact ih (k + 1) (by omega) (fun x hx => hc x (by simp [hx])) e he

theorem filterCoefs_mem {rcI : List Nat} (h : ∀ c ∈ rcI, c < 17) (f o : Nat) :
    ∀ c ∈ filterCoefs rcI f o, c < 17 :=
  fun c hc => h c (List.mem_of_mem_drop (List.mem_of_mem_take hc))

theorem filterCoefs_length_le (rcI : List Nat) (f o : Nat) : (filterCoefs rcI f o).length ≤ o := by
  unfold filterCoefs; simp

theorem filterEvs_valid {w o : Nat} {cs : List Nat} (hw : w < 2) (ho : o ≤ 8) (hl : cs.length ≤ o)
    (hc : ∀ c ∈ cs, c < 17) : ∀ e ∈ filterEvs w o cs, e.Valid := by
  intro e he
  unfold filterEvs at he
  by_cases h : o > 0
  · rw [if_pos h, List.mem_cons] at he
    rcases he with rfl | he
    · obtain ⟨h1, h2⟩ := order_model hw
      exact modelEv_valid h1 (by omega)
    · exact coefEvs_valid 0 cs (by omega) hc e he
  · rw [if_neg h] at he; simp at he

theorem getD_le_of_mem {l : List Nat} {b : Nat} (h : ∀ o ∈ l, o ≤ b) (f : Nat) : l.getD f 0 ≤ b := by
  by_cases hf : f < l.length
  · rw [List.getD_eq_getElem _ _ hf]; exact h _ (List.getElem_mem hf)
  · rw [List.getD_eq_default _ _ (by omega)]; omega

theorem tnsEvs_valid {w : Nat} {rcOrder rcI : List Nat} (hw : w < 2) (ho : ∀ o ∈ rcOrder, o ≤ 8)
    (hc : ∀ c ∈ rcI, c < 17) (f n : Nat) : ∀ e ∈ tnsEvs w rcOrder rcI f n, e.Valid := by
  induction n generalizing f with
  | zero => intro e he; simp [tnsEvs] at he
  | succ n ih =>
    intro e he
    simp only [tnsEvs, List.mem_append] at he
    rcases he with he | he
    · exact filterEvs_valid hw (getD_le_of_mem ho f) (filterCoefs_length_le _ _ _)
        (filterCoefs_mem hc _ _) e he
    · exact ih (f + 1) e he

theorem runEv_cons (e : Ev) (es : List Ev) (s : EncSt) : runEv (e :: es) s = (runEv [e] s >>= runEv es) := by
  rw [← runEv_append]; rfl

theorem encTnsCoefs_eq {rcI : List Nat} {f : Nat} (hc : ∀ c ∈ rcI, c < 17) (n k : Nat) (hk : k + n ≤ 8)
    (hl : 8 * f + 8 ≤ rcI.length) (s : EncSt) :
    encTnsCoefs rcI f k n s = runEv (coefEvs k ((rcI.drop (8 * f + k)).take n)) s := by
  induction n generalizing k s with
  | zero => simp [encTnsCoefs, coefEvs, runEv]
  | succ n ih =>
    have hlt : 8 * f + k < rcI.length := by omega
    obtain ⟨h1, h2⟩ := coef_model (k := k) (by omega)
    obtain ⟨i1, i2⟩ := coef_idx (k := k) (by omega)
    have hi : idx rcI (k + 8 * f) = .ok rcI[8 * f + k] := by
      rw [Nat.add_comm]; exact idx_eq_ok hlt
    have hd : (rcI.drop (8 * f + k)).take (n + 1) = rcI[8 * f + k] :: (rcI.drop (8 * f + (k + 1))).take n := by
      rw [List.drop_eq_getElem_cons hlt, List.take_succ_cons, Nat.add_assoc]
    rw [hd]
    simp only [encTnsCoefs, i1, i2, hi, Res.bind_ok, coefEvs]
    rw [runEv_cons, show coefEv k rcI[8 * f + k] = modelEv _ _ rcI[8 * f + k] from rfl,
      ← encModel_eq h1 (by rw [h2]; exact hc _ (List.getElem_mem hlt))]
    simp only [Res.bind_assoc]
    congr 1; funext c; congr 1; funext fr; congr 1; funext s1
    exact ih (k + 1) (by omega) s1

theorem encTnsData_eq {w : Nat} {rcOrder rcI : List Nat} (hw : w < 2) (ho : ∀ o ∈ rcOrder, o ≤ 8)
    (hc : ∀ c ∈ rcI, c < 17) (n f : Nat) (hf : f + n ≤ rcOrder.length) (hl : 8 * (f + n) ≤ rcI.length)
    (s : EncSt) :
    encTnsData w rcOrder rcI f n s = runEv (tnsEvs w rcOrder rcI f n) s := by
  induction n generalizing f s with
  | zero => rfl
  | succ n ih =>
    have hlt : f < rcOrder.length := by omega
    have ho8 : rcOrder[f] ≤ 8 := ho _ (List.getElem_mem hlt)
    simp only [encTnsData, tnsEvs]
    rw [idx_eq_ok hlt, List.getD_eq_getElem _ _ hlt, runEv_append]
    simp only [Res.bind_ok]
    generalize rcOrder[f] = o at *
    have key : (if o > 0 then do
          let cums ← idx AC_TNS_ORDER_CUMFREQ w
          let freqs ← idx AC_TNS_ORDER_FREQ w
          let cum ← idx cums (o - 1)
          let freq ← idx freqs (o - 1)
          let s ← acEncode s cum freq
          encTnsCoefs rcI f 0 o s
        else .ok s) = runEv (filterEvs w o (filterCoefs rcI f o)) s := by
      unfold filterEvs
      by_cases h : o > 0
      · rw [if_pos h, if_pos h]
        obtain ⟨h1, h2⟩ := order_model hw
        obtain ⟨i1, i2⟩ := order_idx hw
        rw [runEv_cons, show orderEv w (o - 1) = modelEv _ _ (o - 1) from rfl, ← encModel_eq h1 (by omega)]
        simp only [i1, i2, Res.bind_ok, Res.bind_assoc]
        congr 1; funext c; congr 1; funext fr; congr 1; funext s1
        have := encTnsCoefs_eq (f := f) hc o 0 (by omega) (by omega) s1
        rw [this]; rfl
      · rw [if_neg h, if_neg h]; rfl
    rw [key]
    congr 1; funext s1
    exact ih (f + 1) (by omega) (by omega) s1

theorem decodeTnsCoefs_spec {buf : List Nat} (cs : List Nat) (k : Nat) (σ : ASt) (hk : k + cs.length ≤ 8)
    (hc : ∀ c ∈ cs, c < 17) (ho : σ.Ok) (hg : Good buf (σ.run (coefEvs k cs))) :
    decodeTnsCoefs buf (decRd σ) (decAc buf σ) k cs.length =
      .ok (cs, decAc buf (σ.run (coefEvs k cs)), decRd (σ.run (coefEvs k cs))) := by
  induction cs generalizing k σ with
  | nil => rfl
  | cons c cs ih =>
    simp only [List.length_cons] at hk ⊢
    obtain ⟨h1, h2⟩ := coef_model (k := k) (by omega)
    obtain ⟨i1, i2⟩ := coef_idx (k := k) (by omega)
    have hc1 : c < 17 := hc c (by simp)
    simp only [coefEvs, ASt.run] at hg ⊢
    have hv : (coefEv k c).Valid := modelEv_valid h1 (by omega)
    have ho1 := ho.step hv
    have hg1 : Good buf (σ.step (coefEv k c)) :=
      hg.back_run _ ho1 (coefEvs_valid _ _ (by omega) (fun x hx => hc x (by simp [hx])))
    unfold decodeTnsCoefs
    simp only [i1, i2, Res.bind_ok]
    have hd := acDecode_model (buf := buf) (σ := σ) h1 (i := c) (by omega) ho hg1
    rw [hd]
    simp only [Res.bind_ok]
    have hih := ih (k + 1) (σ.step (coefEv k c)) (by omega) (fun x hx => hc x (by simp [hx])) ho1 hg
    have hce : coefEv k c = modelEv (AC_TNS_COEF_CUMFREQ.getD k []) (AC_TNS_COEF_FREQ.getD k []) c := rfl
    rw [← hce, hih]
    simp only [Res.bind_ok]

/-- what the decoder reports for a list of filters -/
def filtersDec (rcOrder rcI : List Nat) (f : Nat) : Nat → List (Nat × List Nat)
  | 0 => []
  | n + 1 =>
    (rcOrder.getD f 0, filterCoefs rcI f (rcOrder.getD f 0) ++ List.replicate (8 - rcOrder.getD f 0) 0) ::
      filtersDec rcOrder rcI (f + 1) n

theorem decodeTnsFilters_spec {buf : List Nat} {w : Nat} {rcOrder rcI : List Nat} (hw : w < 2)
    (ho8 : ∀ o ∈ rcOrder, o ≤ 8) (hc : ∀ c ∈ rcI, c < 17) (n f : Nat) (hf : f + n ≤ rcOrder.length)
    (hl : 8 * (f + n) ≤ rcI.length) (σ : ASt) (ho : σ.Ok)
    (hg : Good buf (σ.run (tnsEvs w rcOrder rcI f n))) :
    decodeTnsFilters buf w (decRd σ) (decAc buf σ)
        (((rcOrder.drop f).take n).map (fun o => if o = 0 then 0 else 1)) =
      .ok (filtersDec rcOrder rcI f n, decAc buf (σ.run (tnsEvs w rcOrder rcI f n)),
        decRd (σ.run (tnsEvs w rcOrder rcI f n))) := by
  induction n generalizing f σ with
  | zero => simp [decodeTnsFilters, filtersDec, tnsEvs, ASt.run]
  | succ n ih =>
    have hlt : f < rcOrder.length := by omega
    have ho88 : rcOrder[f] ≤ 8 := ho8 _ (List.getElem_mem hlt)
    have hd : (rcOrder.drop f).take (n + 1) = rcOrder[f] :: (rcOrder.drop (f + 1)).take n := by
      rw [List.drop_eq_getElem_cons hlt, List.take_succ_cons]
    rw [hd]
    simp only [tnsEvs, filtersDec, List.map_cons] at hg ⊢
    rw [List.getD_eq_getElem _ _ hlt] at hg ⊢
    generalize rcOrder[f] = o at *
    have hcs := filterCoefs_mem hc f o
    have hlen : (filterCoefs rcI f o).length = o := by
      unfold filterCoefs; simp; omega
    have hvf := filterEvs_valid hw ho88 (le_of_eq hlen) hcs
    rw [ASt.run_append] at hg ⊢
    have hof := ho.run hvf
    have hgf : Good buf (σ.run (filterEvs w o (filterCoefs rcI f o))) :=
      hg.back_run _ hof (tnsEvs_valid hw ho8 hc _ _)
    have hih := ih (f + 1) (by omega) (by omega) _ hof hg
    unfold decodeTnsFilters
    by_cases h0 : o = 0
    · subst h0
      simp only [if_true]
      rw [if_neg (by omega)]
      simp only [filterEvs, gt_iff_lt, Nat.lt_irrefl, if_false, ASt.run] at hih ⊢
      rw [hih]
      simp [filterCoefs]
    · simp only [h0, if_false]
      rw [if_pos (by omega)]
      have hfe : filterEvs w o (filterCoefs rcI f o) = orderEv w (o - 1) :: coefEvs 0 (filterCoefs rcI f o) := by
        unfold filterEvs; rw [if_pos (by omega)]
      rw [hfe] at hih hgf ⊢
      simp only [ASt.run] at hih hgf ⊢
      obtain ⟨h1, h2⟩ := order_model hw
      obtain ⟨i1, i2⟩ := order_idx hw
      have hv : (orderEv w (o - 1)).Valid := modelEv_valid h1 (by omega)
      have ho1 := ho.step hv
      have hg1 : Good buf (σ.step (orderEv w (o - 1))) :=
        hgf.back_run _ ho1 (coefEvs_valid _ _ (by omega) hcs)
      simp only [i1, i2, Res.bind_ok]
      have hdd := acDecode_model (buf := buf) (σ := σ) h1 (i := o - 1) (by omega) ho hg1
      rw [hdd]
      simp only [Res.bind_ok]
      have hoe : orderEv w (o - 1) = modelEv (AC_TNS_ORDER_CUMFREQ.getD w []) (AC_TNS_ORDER_FREQ.getD w []) (o - 1) := rfl
      have hco := decodeTnsCoefs_spec (buf := buf) (filterCoefs rcI f o) 0 (σ.step (orderEv w (o - 1)))
        (by omega) hcs ho1 hgf
      rw [hlen] at hco
      rw [← hoe, show o - 1 + 1 = o by omega, hco]
      simp only [Res.bind_ok]
      rw [hih]
      simp only [Res.bind_ok]

end Lc3
