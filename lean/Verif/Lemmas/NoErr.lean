import Verif.Lemmas.Safe
import Verif.Model.Decoder
/-! The decoder stages after the frame parser report no errors. -/

namespace Lc3
open Scalar Tables
variable {α : Type} [Scalar α]

/-- the computation does not return an error -/
def NoErr {β : Type} (x : Res β) : Prop := x ≠ .err

@[simp] theorem noErr_ok {β : Type} (a : β) : NoErr (.ok a) := by simp [NoErr]
@[simp] theorem noErr_panic {β : Type} : NoErr (.panic : Res β) := by simp [NoErr]

theorem NoErr.bind {β γ : Type} {x : Res β} {f : β → Res γ} (h : NoErr x) (hf : ∀ a, NoErr (f a)) : NoErr (x >>= f) := by
  cases x with
  | ok a => exact hf a
  | err => exact absurd rfl h
  | panic => simp [NoErr]

theorem noErr_ite {β : Type} {c : Prop} [Decidable c] {x y : Res β} (h1 : NoErr x) (h2 : NoErr y) :
    NoErr (if c then x else y) := by split <;> assumption

theorem noErr_idx {β : Type} (l : List β) (i : Nat) : NoErr (idx l i) := by
  unfold idx; split <;> simp
theorem noErr_setIdx {β : Type} (l : List β) (i : Nat) (v : β) : NoErr (setIdx l i v) := by
  unfold setIdx; split <;> simp
theorem noErr_usub (a b : Nat) : NoErr (usub a b) := by
  unfold usub; split <;> simp

theorem noErr_mapM {β γ : Type} {f : β → Res γ} (h : ∀ a, NoErr (f a)) : ∀ l : List β, NoErr (l.mapM f)
  | [] => by simp [NoErr]
  | a :: l => by
    rw [List.mapM_cons]
    exact (h a).bind fun _ => (noErr_mapM h l).bind fun _ => noErr_ok _

/-- closes goals for straight line code -/
macro "no_err" : tactic => `(tactic| repeat' (first
  | exact noErr_ok _ | exact noErr_panic | exact noErr_idx _ _ | exact noErr_setIdx _ _ _ | exact noErr_usub _ _
  | assumption | apply noErr_ite | apply NoErr.bind | intro _))

theorem noErr_noiseFillLoop (stop start width : Nat) (level : α) (ints : List Int) : ∀ (l : List α) (k seed : Nat),
    NoErr (noiseFillLoop stop start width level ints k seed l)
  | [], _, _ => by simp [noiseFillLoop]
  | x :: xs, k, seed => by
    have ih := noErr_noiseFillLoop stop start width level ints xs
    have hn : ∀ s, NoErr (noiseNext s) := by intro s; unfold noiseNext; no_err
    rw [noiseFillLoop]
    refine noErr_ite ((ih _ _).bind fun _ => noErr_ok _) ?_
    refine (noErr_usub _ _).bind fun _ => (noErr_usub _ _).bind fun _ => noErr_ite noErr_panic (noErr_ite ?_ ?_)
    · exact (hn _).bind fun _ => (ih _ _).bind fun _ => noErr_ok _
    · exact (ih _ _).bind fun _ => noErr_ok _

theorem noErr_noiseFilling (z : Bool) (seed bw : Nat) (d : FrameDuration) (nf : Nat) (ints : List Int) (l : List α) :
    NoErr (noiseFilling z seed bw d nf ints l) := by
  unfold noiseFilling
  exact noErr_ite ((noErr_idx _ _).bind fun _ => noErr_noiseFillLoop _ _ _ _ _ _ _ _) (noErr_ok _)

theorem noErr_latticeLoop (rc : List α) (off : Nat) : ∀ (k : Nat) (t : α) (st : List α), NoErr (latticeLoop rc off k t st)
  | 0, _, _ => noErr_ok _
  | k + 1, t, st => by
    rw [latticeLoop]
    exact (noErr_idx _ _).bind fun _ => (noErr_idx _ _).bind fun _ => (noErr_setIdx _ _ _).bind fun _ =>
      noErr_latticeLoop rc off k _ _

theorem noErr_latticeBand (rc : List α) (off o : Nat) : ∀ (xs st : List α), NoErr (latticeBand rc off o xs st)
  | [], _ => noErr_ok _
  | x :: xs, st => by
    rw [latticeBand]
    refine NoErr.bind ?_ fun _ => (noErr_latticeBand rc off o xs _).bind fun _ => noErr_ok _
    unfold latticeLine
    exact (noErr_idx _ _).bind fun _ => (noErr_idx _ _).bind fun _ => (noErr_latticeLoop _ _ _ _ _).bind fun _ =>
      (noErr_setIdx _ _ _).bind fun _ => noErr_ok _

theorem noErr_tnsLoop (rc : List α) : ∀ (bands : List (Nat × Nat)) (f : Nat) (orders : List Nat) (l st : List α),
    NoErr (tnsLoop rc f bands orders l st)
  | [], _, _, _, _ => by simp [tnsLoop]
  | (a, b) :: bands, f, [], _, _ => by simp [tnsLoop]
  | (a, b) :: bands, f, o :: orders, l, st => by
    rw [tnsLoop]
    exact noErr_ite ((noErr_latticeBand _ _ _ _ _).bind fun _ => noErr_tnsLoop rc bands _ _ _ _)
      (noErr_tnsLoop rc bands _ _ _ _)

theorem noErr_tnsDecode (d : FrameDuration) (bw n : Nat) (o i : List Nat) (l : List α) :
    NoErr (tnsDecode d bw n o i l) := by
  unfold tnsDecode
  exact noErr_ite noErr_panic (noErr_ite noErr_panic (noErr_tnsLoop _ _ _ _ _ _))

theorem noErr_deenumSearch (row : List Nat) (ind : Nat) : ∀ k, NoErr (deenumSearch row ind k)
  | 0 => by rw [deenumSearch]; no_err
  | k + 1 => by have := noErr_deenumSearch row ind k; rw [deenumSearch]; no_err

theorem noErr_deenumLoop : ∀ (n k : Nat) (b : Bool) (ind : Nat), NoErr (deenumLoop n k b ind)
  | 0, _, _, _ => noErr_ok _
  | n + 1, k, b, ind => by
    rw [deenumLoop]
    refine (noErr_idx _ _).bind fun _ => noErr_ite ?_ (noErr_ok _)
    refine (noErr_deenumSearch _ _ _).bind fun _ => (noErr_usub _ _).bind fun _ => noErr_ite ?_ ?_
    · exact (noErr_usub _ _).bind fun _ => (noErr_deenumLoop n _ _ _).bind fun _ => noErr_ok _
    · exact (noErr_deenumLoop n _ _ _).bind fun _ => noErr_ok _

theorem noErr_snsPulses (s : SnsVq) : NoErr (snsPulses s) := by
  unfold snsPulses mpvqDeenum
  split
  · exact (noErr_deenumLoop _ _ _ _).bind fun _ => (noErr_deenumLoop _ _ _ _).bind fun _ => noErr_ok _
  · exact (noErr_deenumLoop _ _ _ _).bind fun _ => noErr_ok _
  · exact noErr_deenumLoop _ _ _ _
  · exact noErr_deenumLoop _ _ _ _
  · exact noErr_panic

theorem noErr_shapeLoop (tab : List Nat) : ∀ (g : List α) (b : Nat) (l : List α), NoErr (shapeLoop tab b g l)
  | [], _, _ => noErr_ok _
  | g :: gs, b, l => by
    rw [shapeLoop]
    refine (noErr_idx _ _).bind fun _ => (noErr_idx _ _).bind fun _ => NoErr.bind ?_ fun _ => noErr_shapeLoop tab gs _ _
    unfold scaleRange; no_err

theorem noErr_snsGain (sns : SnsVq) : NoErr (snsGain sns) := by
  unfold snsGain; split <;> no_err

/-- a computation without panic and error returns -/
theorem Safe.exists_ok {β : Type} {x : Res β} {P : β → Prop} (h : Safe x P) (hn : NoErr x) : ∃ a, x = .ok a ∧ P a := by
  cases x with
  | ok a => exact ⟨a, rfl, h⟩
  | err => exact absurd rfl hn
  | panic => exact h.elim

theorem noErr_snsDecode (cfg : Lc3Config) (s : SnsVq) (l : List α) : NoErr (snsDecode cfg s l) := by
  unfold snsDecode snsGains snsScaleFactors
  refine NoErr.bind (NoErr.bind ((noErr_idx _ _).bind fun _ => (noErr_idx _ _).bind fun _ =>
    (noErr_snsPulses _).bind fun _ => NoErr.bind ?_ fun _ => noErr_ok _) fun _ => NoErr.bind ?_ fun _ => noErr_ok _)
    fun _ => NoErr.bind ?_ fun _ => noErr_shapeLoop _ _ _ _
  · unfold snsGain; split <;> no_err
  · unfold snsReduce
    refine (noErr_usub _ _).bind fun _ => noErr_ite ?_ (noErr_ok _)
    exact (noErr_mapM (fun _ => by no_err) _).bind fun _ => (noErr_mapM (fun _ => noErr_idx _ _) _).bind fun _ => noErr_ok _
  · unfold bandTable; split <;> no_err

theorem noErr_specFromFrame (cfg : Lc3Config) (l : List α) (si : SideInfo) (ad : ArithmeticData) (x : List Int) :
    NoErr (specFromFrame cfg l si ad x) := by
  unfold specFromFrame dequantise
  exact (noErr_ite noErr_panic ((noErr_noiseFilling _ _ _ _ _ _ _).bind fun _ => noErr_ok _)).bind fun _ =>
    (noErr_tnsDecode _ _ _ _ _ _).bind fun _ => noErr_snsDecode _ _ _

theorem noErr_genericSum (tw : List (Cx α)) (step : Nat) : ∀ (s : List (Cx α)) (t : Nat) (a : Cx α), NoErr (genericSum tw step s t a)
  | [], _, _ => noErr_ok _
  | _ :: ss, _, _ => by
    rw [genericSum]
    exact (noErr_idx _ _).bind fun _ => noErr_genericSum tw step ss _ _

theorem noErr_bflyBlock (inv : Bool) (p : Nat) (tw blk : List (Cx α)) (fs m rest : Nat) :
    NoErr (bflyBlock inv p tw blk fs m rest) := by
  unfold bflyBlock
  refine (noErr_mapM ?_ _).bind fun _ => (noErr_mapM (fun _ => noErr_mapM (fun _ => noErr_idx _ _) _) _).bind fun _ => noErr_ok _
  intro i
  unfold bflyCol
  split
  · unfold bfly2; no_err
  · unfold bfly3; no_err
  · unfold bfly4; no_err
  · unfold bfly5; no_err
  · unfold bflyGeneric
    refine noErr_ite noErr_panic (noErr_ite noErr_panic ((noErr_mapM (fun _ => noErr_ite (noErr_idx _ _) (noErr_ok _)) _).bind fun _ =>
      (noErr_idx _ _).bind fun _ => noErr_mapM (fun _ => noErr_genericSum _ _ _ _ _) _))

theorem noErr_kfWork (inv : Bool) (tw fin : List (Cx α)) : ∀ (fac : List (Nat × Nat)) (fs fi rest : Nat),
    NoErr (kfWork inv tw fin fac fs fi rest)
  | [], _, _, _ => by simp [kfWork]
  | (p, m) :: fac, fs, fi, rest => by
    rw [kfWork]
    refine NoErr.bind (noErr_ite (noErr_mapM (fun _ => noErr_idx _ _) _) ?_) fun _ => noErr_bflyBlock _ _ _ _ _ _ _
    exact (noErr_mapM (fun _ => noErr_kfWork inv tw fin fac _ _ _) _).bind fun _ => noErr_ok _

theorem noErr_kfFactorLoop (sq : Nat) : ∀ (fuel p n : Nat), NoErr (kfFactorLoop sq fuel p n)
  | 0, _, _ => noErr_panic
  | fuel + 1, p, n => by
    rw [kfFactorLoop]
    exact noErr_ite (noErr_kfFactorLoop sq fuel _ _) (noErr_ite (noErr_ok _)
      ((noErr_kfFactorLoop sq fuel _ _).bind fun _ => noErr_ok _))

theorem noErr_dctIv (nf : Nat) (l : List α) : NoErr (dctIv nf l) := by
  unfold dctIv fft kfFactor
  refine noErr_ite noErr_panic ((noErr_mapM ?_ _).bind fun _ => NoErr.bind ((noErr_kfFactorLoop _ _ _ _).bind fun _ =>
    noErr_kfWork _ _ _ _ _ _ _) fun _ => noErr_mapM ?_ _)
  · intro n; unfold dctIn; no_err
  · intro n; unfold dctOut; no_err

theorem noErr_mdctDecRun (cfg : Lc3Config) (m l : List α) : NoErr (mdctDecRun cfg m l) := by
  unfold mdctDecRun mdctUnfold
  refine noErr_ite noErr_panic (NoErr.bind ?_ fun _ => (noErr_usub _ _).bind fun _ => NoErr.bind
    ((noErr_dctIv _ _).bind fun _ => noErr_ok _) fun _ => (noErr_usub _ _).bind fun _ => noErr_ite noErr_panic (noErr_ok _))
  unfold windowOf; split <;> no_err

theorem noErr_forRange {σ : Type} {f : Nat → σ → Res σ} (h : ∀ n s, NoErr (f n s)) : ∀ (n a : Nat) (s : σ),
    NoErr (forRange f a n s)
  | 0, _, _ => noErr_ok _
  | n + 1, a, s => by rw [forRange]; exact (h _ _).bind fun _ => noErr_forRange h n _ _

theorem noErr_ringRead (mem : List α) (ring : Nat) (i : Int) : NoErr (ringRead mem ring i) := by
  unfold ringRead; no_err

theorem noErr_firAdd (mem : List α) (ring : Nat) : ∀ (c : List α) (i : Int) (a : α), NoErr (firAdd mem ring c i a)
  | [], _, _ => noErr_ok _
  | c :: cs, i, a => by rw [firAdd]; exact (noErr_ringRead _ _ _).bind fun _ => noErr_firAdd mem ring cs _ _

theorem noErr_firSub (mem : List α) (ring : Nat) : ∀ (c : List α) (i : Int) (a : α), NoErr (firSub mem ring c i a)
  | [], _, _ => noErr_ok _
  | c :: cs, i, a => by rw [firSub]; exact (noErr_ringRead _ _ _).bind fun _ => noErr_firSub mem ring cs _ _

theorem noErr_ltpfSample (ring : Nat) (cn cd xm : List α) (blk p : Nat) (sc : Nat → α → α) (n : Nat) (ym : List α) :
    NoErr (ltpfSample ring cn cd xm blk p sc n ym) := by
  unfold ltpfSample computeFilter
  exact (noErr_idx _ _).bind fun _ => (noErr_setIdx _ _ _).bind fun _ => NoErr.bind ((noErr_firAdd _ _ _ _ _).bind fun _ =>
    noErr_firSub _ _ _ _ _) fun _ => (noErr_idx _ _).bind fun _ => noErr_setIdx _ _ _

theorem noErr_ltpfRun (cfg : Lc3Config) (s : Ltpf α) (info : LtpfInfo) (nbits : Nat) (x : List α) :
    NoErr (ltpfRun cfg s info nbits x) := by
  have hs : ∀ (cn cd xm : List α) (blk p : Nat) (sc : Nat → α → α) (n a : Nat) (ym : List α),
      NoErr (forRange (ltpfSample (ringSize cfg) cn cd xm blk p sc) a n ym) :=
    fun cn cd xm blk p sc n a ym => noErr_forRange (fun _ _ => noErr_ltpfSample _ _ _ _ _ _ _ _ _) _ _ _
  have hc : ∀ (xm : List α) (blk a n : Nat) (ym : List α), NoErr (forRange (fun n (y : List α) => do
      let x ← idx xm (blk + n)
      setIdx y (blk + n) x) a n ym) :=
    fun xm blk a n ym => noErr_forRange (fun _ _ => (noErr_idx _ _).bind fun _ => noErr_setIdx _ _ _) _ _ _
  unfold ltpfRun
  refine NoErr.bind ?_ fun _ => NoErr.bind ?_ fun _ => noErr_ite noErr_panic (NoErr.bind ?_ fun _ =>
    noErr_ite noErr_panic (noErr_ok _))
  · unfold ltpfParams
    refine noErr_ite (noErr_ok _) (NoErr.bind ?_ fun _ => noErr_ok _)
    unfold pitchLagDec; no_err
  · unfold ltpfCoeffs ltpfTables
    refine noErr_ite (noErr_ok _) (NoErr.bind (NoErr.bind ?_ fun _ => ?_) fun _ => noErr_ok _)
    · no_err
    · no_err
  · unfold ltpfTransition ltpfDeactivate
    refine noErr_ite (hc _ _ _ _ _) (noErr_ite ?_ (noErr_ite ?_ (noErr_ite (hs _ _ _ _ _ _ _ _ _) ?_)))
    · exact (hs _ _ _ _ _ _ _ _ _).bind fun _ => hs _ _ _ _ _ _ _ _ _
    · exact (hs _ _ _ _ _ _ _ _ _).bind fun _ => hc _ _ _ _ _
    · refine (hs _ _ _ _ _ _ _ _ _).bind fun _ => (noErr_usub _ _).bind fun _ => NoErr.bind ?_ fun _ =>
        NoErr.bind (noErr_forRange ?_ _ _ _) fun _ => hs _ _ _ _ _ _ _ _ _
      · unfold ltpfScratch; no_err
      · intro _ _
        unfold ltpfSampleFromMem
        exact (noErr_idx _ _).bind fun _ => (noErr_setIdx _ _ _).bind fun _ => (noErr_firAdd _ _ _ _ _).bind fun _ =>
          (noErr_firSub _ _ _ _ _).bind fun _ => (noErr_idx _ _).bind fun _ => noErr_setIdx _ _ _

theorem noErr_decodeSpectrum (checks : Bool) (cfg : Lc3Config) (ch : DecChannel α) (buf : List Nat) :
    NoErr (decodeSpectrum checks cfg ch buf) := by
  unfold decodeSpectrum
  split
  · refine (noErr_specFromFrame _ _ _ _ _).bind fun _ => NoErr.bind ?_ fun _ => noErr_ok _
    unfold Plc.save; no_err
  · exact noErr_ok _
  · exact noErr_panic

theorem noErr_decodeChannel (checks : Bool) (cfg : Lc3Config) (ch : DecChannel α) (bits : Nat) (buf : List Nat)
    (out : List Int) : NoErr (decodeChannel checks cfg ch bits buf out) := by
  unfold decodeChannel
  exact noErr_ite (noErr_ok _) ((noErr_decodeSpectrum _ _ _ _).bind fun _ => noErr_ite noErr_panic
    ((noErr_mdctDecRun _ _ _).bind fun _ => (noErr_ltpfRun _ _ _ _ _).bind fun _ => noErr_ok _))

end Lc3
