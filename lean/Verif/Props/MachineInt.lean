import Verif.Lemmas.MachineInt
import Verif.Props.FrameRoundTrip
/-!
# C104: no accumulator overflows

`Lc3.Machine` (Spec/MachineInt.lean) is the frame writer, the range decoder, the rate estimation and the block sums of the attack detector with the
integer types of the code: sums and products that do not fit panic, shifts lose the bits that do not fit. The functions of the model, which
compute with unbounded numbers, give the same results.
-/

namespace Lc3
open Tables

/-- **C104**, frame writer. For all parameters with at most two filters and 400 lines, whatever the state of the encoder was before and
whatever the buffer is, `u32` and `i32` arithmetic with overflow checks gives the same frame (or the same failure) as the model. -/
theorem C104_frame (ne : Nat) (p : FrameParams) (stale : EncSt) (buf : List Nat) (h1 : p.numTns ≤ 2) (h2 : p.lastnz ≤ 400) :
    Machine.encodeFrame ne p stale buf = encodeFrame ne p stale buf := by
  unfold Machine.encodeFrame encodeFrame encodeBody
  simp only [Res.bind_assoc]
  congr 1
  funext w
  congr 1
  funext s
  have main : Machine.Same (54 + 51 * 400)
      (Machine.encTnsData p.lpcWeighting p.rcOrder p.rcI 0 p.numTns (acEncInit s) >>= fun s => Machine.encSpectral ne p s)
      (encTnsData p.lpcWeighting p.rcOrder p.rcI 0 p.numTns (acEncInit s) >>= fun s => encSpectral ne p s) (·.2) := by
    refine ((Machine.encTnsData_same p.lpcWeighting p.rcOrder p.rcI p.numTns (Machine.fit_init s) (by omega)).mono
      (L := 54) (by omega)).bind fun t ht => ?_
    unfold Machine.encSpectral encSpectral
    refine Machine.Same.bindL fun _ _ => ?_
    by_cases c1 : p.nbitsLsb > 3840
    · rw [if_pos c1, if_pos c1]; exact Machine.Same.panic
    · rw [if_neg c1, if_neg c1]
      by_cases c2 : p.lastnz > p.xq.length
      · rw [if_pos c2, if_pos c2]; exact Machine.Same.panic
      · rw [if_neg c2, if_neg c2]
        exact Machine.encPairs_same _ _ _ _ 400 (by rw [List.length_take]; omega) ht (by norm_num)
  have fin : ∀ b : List Bool × EncSt, Machine.Fit (54 + 51 * 400) b.2 → Machine.encResidual p b.1 b.2 = encResidual p b.1 b.2 := by
    rintro ⟨lsbs, t⟩ ht
    unfold Machine.encResidual encResidual
    cases e : t.w.nbitsSideWritten (t.buf.length * 8) with
    | ok n =>
      simp only [Res.bind_ok]
      obtain ⟨-, g⟩ := Machine.Same.encBools ((if p.lsbMode = true then lsbs else p.residual).take
        (t.buf.length * 8 - (n + nbitsAriForecast t))) ht
      cases e2 : encBools ((if p.lsbMode = true then lsbs else p.residual).take
        (t.buf.length * 8 - (n + nbitsAriForecast t))) t with
      | ok u => simp only [Res.bind_ok]; exact Machine.acEncFinish_same (g u e2) (by norm_num)
      | err => rfl
      | panic => rfl
    | err => rfl
    | panic => rfl
  obtain ⟨m1, m2⟩ := main
  rw [← Res.bind_assoc, ← Res.bind_assoc] at *
  rw [m1]
  cases e : (encTnsData p.lpcWeighting p.rcOrder p.rcI 0 p.numTns (acEncInit s) >>= fun s => encSpectral ne p s) with
  | ok b => exact fin b (m2 b e)
  | err => rfl
  | panic => rfl

/-- **C104**, range decoder. Whatever the bytes of the frame are: decoding any number of symbols of proper models gives in `u32` arithmetic with
overflow checks the same symbols and the same state as in the model. -/
theorem C104_decoder (buf : List Nat) (hb : ∀ b ∈ buf, b < 256) (r r' : Reader) (st : AcDec) (hi : acDecInit buf r = .ok (st, r'))
    (ys : List Symb) (hy : ∀ y ∈ ys, ProperModel y.cum y.freq) :
    Machine.decodeModels buf r' st ys = Machine.decodeModelsNat buf r' st ys := by
  refine Machine.decodeModels_same hb ys ?_ hy
  unfold acDecInit Reader.readHeadU24 at hi
  split at hi
  · obtain ⟨⟨low, r1⟩, q1, q2⟩ := bind_ok_inv hi
    obtain ⟨b0, e0, q1⟩ := bind_ok_inv q1
    obtain ⟨b1, e1, q1⟩ := bind_ok_inv q1
    obtain ⟨b2, e2, q1⟩ := bind_ok_inv q1
    obtain ⟨i0, rfl⟩ := Machine.idx_inv e0
    obtain ⟨i1, rfl⟩ := Machine.idx_inv e1
    obtain ⟨i2, rfl⟩ := Machine.idx_inv e2
    have l0 := hb _ (List.getElem_mem i0)
    have l1 := hb _ (List.getElem_mem i1)
    have l2 := hb _ (List.getElem_mem i2)
    simp only [Res.ok.injEq, Prod.mk.injEq] at q1 q2
    obtain ⟨rfl, -⟩ := q2
    obtain ⟨q1, -⟩ := q1
    exact ⟨by simp only; rw [← q1]; omega, by norm_num, by norm_num⟩
  · simp at hi

/-- **C104**, rate estimation: the accumulators of at most 400 lines stay below `2 ^ 32`, whatever the lines are -/
theorem C104_estimate {α : Type} [Scalar α] (mode : Bool) (rate ne spec : Nat) (xs : List Int) (h : xs.length ≤ 400) :
    Machine.estPairs α mode rate ne spec xs 0 ⟨0, 0, 0, 2, 0⟩ = estPairs α mode rate ne spec xs 0 ⟨0, 0, 0, 2, 0⟩ :=
  Machine.estPairs_same mode rate ne spec 400 h (by norm_num) (by norm_num)

/-- **C104**, attack detector: the sums of the blocks of every frame of 16 bit samples fit into `i32` -/
theorem C104_attack (f : SamplingFrequency) (d : FrameDuration) (x : List Int) (hx : ∀ v ∈ x, -32768 ≤ v ∧ v ≤ 32767) (i n : Nat) :
    Machine.attackDownsample ((Lc3Config.new f d).nf / (attackDims d).1) x i n =
      attackDownsample ((Lc3Config.new f d).nf / (attackDims d).1) x i n :=
  Machine.attackDownsample_same (by cases f <;> cases d <;> decide) hx n i

/-- a frame with a filter of order two and escapes meets the conditions -/
example : exampleNormal.numTns ≤ 2 ∧ exampleNormal.lastnz ≤ 400 ∧
    encodeBody 160 exampleNormal staleSt (List.replicate 20 77) = .ok ([], exampleNormalSt) :=
  ⟨by decide, by decide, by decide +kernel⟩

/-- the loudest frame: its blocks add up to -98304 -/
example : Machine.attackDownsample 3 (List.replicate 480 (-32768)) 0 2 = .ok [-98304, -98304] := by decide +kernel

/-- the checks are there: a range that is too large panics -/
example : Machine.acEncode ⟨⟨0, 0, 0⟩, [], ⟨2 ^ 32 - 1, 2 ^ 24, -1, 0, 0⟩⟩ 1 1 = .panic := by decide +kernel

/-- one symbol in machine arithmetic -/
example : Machine.acEncode ⟨⟨0, 0, 0⟩, [0, 0], ⟨0, 2 ^ 24 - 1, -1, 0, 0⟩⟩ 512 512 =
    .ok ⟨⟨0, 0, 0⟩, [0, 0], ⟨8388096, 8388096, -1, 0, 0⟩⟩ := by decide +kernel

end Lc3
