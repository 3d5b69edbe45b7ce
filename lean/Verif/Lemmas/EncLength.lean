import Verif.Model.BitstreamEnc
import Verif.Lemmas.SafeDecoder
/-! The encoder never changes the length of the output buffer. -/

namespace Lc3

/-- if it returns, the value satisfies `P` -/
def OkThen {β : Type} (r : Res β) (P : β → Prop) : Prop := ∀ b, r = .ok b → P b

theorem OkThen.ok {β : Type} {b : β} {P : β → Prop} (h : P b) : OkThen (.ok b) P := by
  intro b' e; cases e; exact h

theorem OkThen.panic {β : Type} {P : β → Prop} : OkThen (.panic : Res β) P := by intro b e; cases e

theorem OkThen.bind {β γ : Type} {r : Res β} {k : β → Res γ} {P : β → Prop} {Q : γ → Prop} (h : OkThen r P)
    (hk : ∀ b, P b → OkThen (k b) Q) : OkThen (r >>= k) Q := by
  intro c e
  obtain ⟨b, e1, e2⟩ := bind_ok_inv e
  exact hk b (h b e1) c e2

theorem OkThen.any {β γ : Type} {r : Res β} {k : β → Res γ} {Q : γ → Prop} (hk : ∀ b, OkThen (k b) Q) : OkThen (r >>= k) Q :=
  OkThen.bind (P := fun _ => True) (fun _ _ => trivial) fun b _ => hk b

theorem okThen_setIdx {β : Type} (l : List β) (i : Nat) (v : β) : OkThen (setIdx l i v) fun l' => l'.length = l.length := by
  unfold setIdx
  split
  · exact OkThen.ok (by simp)
  · exact OkThen.panic

theorem len_boolBackward (w : Writer) (buf : List Nat) (b : Bool) : OkThen (w.writeBoolBackward buf b) fun p => p.2.length = buf.length := by
  unfold Writer.writeBoolBackward
  refine OkThen.any fun old => ?_
  refine (okThen_setIdx _ _ _).bind fun l hl => ?_
  split
  · exact OkThen.any fun _ => OkThen.ok hl
  · exact OkThen.ok hl

theorem len_uintBackward : ∀ (n : Nat) (w : Writer) (buf : List Nat) (v : Nat),
    OkThen (w.writeUintBackward buf v n) fun p => p.2.length = buf.length
  | 0, w, buf, v => OkThen.ok rfl
  | n + 1, w, buf, v => by
    unfold Writer.writeUintBackward
    refine (len_boolBackward _ _ _).bind fun p hp => ?_
    intro q hq
    rw [len_uintBackward n p.1 p.2 _ q hq, hp]

theorem len_fwdLoop : ∀ (n : Nat) (bp v : Nat) (buf : List Nat) (mask : Nat),
    OkThen (writeUintForwardLoop bp v buf mask n) fun l => l.length = buf.length
  | 0, _, _, _, _ => OkThen.ok rfl
  | n + 1, bp, v, buf, mask => by
    unfold writeUintForwardLoop
    refine OkThen.any fun old => ?_
    refine (okThen_setIdx _ _ _).bind fun l hl => ?_
    intro q hq
    rw [len_fwdLoop n _ _ _ _ q hq, hl]

/-- the buffer keeps its length -/
abbrev KeepsLen (n : Nat) (r : Res EncSt) : Prop := OkThen r fun s => s.buf.length = n

theorem len_bool {s : EncSt} {n : Nat} (h : s.buf.length = n) (b : Bool) : KeepsLen n (s.bool b) := by
  unfold EncSt.bool
  exact (len_boolBackward _ _ _).bind fun p hp => OkThen.ok (by simpa [h] using hp)

theorem len_uint {s : EncSt} {n : Nat} (h : s.buf.length = n) (v k : Nat) : KeepsLen n (s.uint v k) := by
  unfold EncSt.uint
  exact (len_uintBackward _ _ _ _).bind fun p hp => OkThen.ok (by simpa [h] using hp)

theorem len_byte {s : EncSt} {n : Nat} (h : s.buf.length = n) (v : Nat) : KeepsLen n (s.byte v) := by
  unfold EncSt.byte Writer.writeByteForward
  refine OkThen.bind (P := fun p => p.2.length = n) ?_ fun p hp => OkThen.ok (by simpa using hp)
  exact (okThen_setIdx _ _ _).bind fun l hl => OkThen.ok (by simpa [h] using hl)

theorem len_uintFwd {s : EncSt} {n : Nat} (h : s.buf.length = n) (v k : Nat) : KeepsLen n (s.uintFwd v k) := by
  unfold EncSt.uintFwd Writer.writeUintForward
  exact (len_fwdLoop _ _ _ _ _).bind fun l hl => OkThen.ok (by simpa [h] using hl)

theorem len_flush : ∀ (m n : Nat) (s : EncSt), s.buf.length = n → KeepsLen n (flushCarries s m)
  | 0, n, s, h => OkThen.ok h
  | m + 1, n, s, h => by
    unfold flushCarries
    exact (len_byte h _).bind fun s hs => len_flush m n s hs

theorem len_shift {s : EncSt} {n : Nat} (h : s.buf.length = n) : KeepsLen n (acShift s) := by
  unfold acShift
  split
  · refine OkThen.bind (P := fun s => s.buf.length = n) ?_ fun s hs => ?_
    · split
      · exact len_byte h _
      · exact OkThen.ok h
    · exact (len_flush _ n s hs).bind fun s hs => OkThen.ok hs
  · exact OkThen.ok h

theorem len_renorm : ∀ (fuel n : Nat) (s : EncSt), s.buf.length = n → KeepsLen n (acEncRenorm fuel s)
  | 0, n, s, h => by
    unfold acEncRenorm
    split
    · exact OkThen.panic
    · exact OkThen.ok h
  | fuel + 1, n, s, h => by
    unfold acEncRenorm
    split
    · refine OkThen.bind (len_shift (n := n) h) fun s hs => len_renorm fuel n s hs
    · exact OkThen.ok h

theorem len_encode {s : EncSt} {n : Nat} (h : s.buf.length = n) (c f : Nat) : KeepsLen n (acEncode s c f) := by
  unfold acEncode
  exact len_renorm _ n _ h

theorem len_finishShift : ∀ (fuel n : Nat) (b : Int) (s : EncSt), s.buf.length = n →
    OkThen (finishShift fuel b s) fun p => p.2.buf.length = n
  | 0, n, b, s, h => by
    unfold finishShift
    split
    · exact OkThen.panic
    · exact OkThen.ok h
  | fuel + 1, n, b, s, h => by
    unfold finishShift
    split
    · exact (len_shift h).bind fun s hs => len_finishShift fuel n _ s hs
    · exact OkThen.ok h

theorem len_finishCarries : ∀ (m n : Nat) (s : EncSt), s.buf.length = n → KeepsLen n (finishCarries s m)
  | 0, n, s, h => OkThen.ok h
  | m + 1, n, s, h => by
    unfold finishCarries
    exact (len_byte h _).bind fun s hs => len_finishCarries m n _ hs

theorem len_finish {s : EncSt} {n : Nat} (h : s.buf.length = n) : KeepsLen n (acEncFinish s) := by
  unfold acEncFinish
  refine OkThen.any fun bits => ?_
  simp only
  refine (len_finishShift _ n _ _ (by simpa using h)).bind fun p hp => ?_
  split
  · exact OkThen.panic
  · split
    · refine (len_byte hp _).bind fun s hs => ?_
      exact (len_finishCarries _ n s hs).bind fun s hs => len_uintFwd hs _ _
    · exact len_uintFwd hp _ _

theorem len_tnsFlags : ∀ (l : List Nat) (n : Nat) (s : EncSt), s.buf.length = n → KeepsLen n (encTnsFlags l s)
  | [], n, s, h => OkThen.ok h
  | o :: os, n, s, h => by
    unfold encTnsFlags
    exact (len_bool h _).bind fun s hs => len_tnsFlags os n s hs

theorem len_scf2 {p : FrameParams} {s : EncSt} {n : Nat} (h : s.buf.length = n) : KeepsLen n (encScf2 p s) := by
  unfold encScf2
  refine (len_bool h _).bind fun s hs => OkThen.any fun _ => OkThen.any fun _ => ?_
  refine (len_uint hs _ _).bind fun s hs => (len_bool hs _).bind fun s hs => ?_
  split
  · exact (len_uint hs _ _).bind fun s hs => len_uint hs _ _
  · exact (len_uint hs _ _).bind fun s hs => len_uint hs _ _

theorem len_sideInfo {ne : Nat} {p : FrameParams} {s : EncSt} {n : Nat} (h : s.buf.length = n) : KeepsLen n (encSideInfo ne p s) := by
  unfold encSideInfo
  refine OkThen.bind (P := fun s => s.buf.length = n) ?_ fun s hs => ?_
  · split
    · exact len_uint h _ _
    · exact OkThen.ok h
  refine OkThen.any fun v => (len_uint hs _ _).bind fun s hs => (len_bool hs _).bind fun s hs => (len_uint hs _ _).bind fun s hs => ?_
  refine OkThen.bind (P := fun s => s.buf.length = n) ?_ fun s hs => ?_
  · split
    · exact len_tnsFlags _ n s hs
    · exact OkThen.panic
  refine (len_bool hs _).bind fun s hs => (len_uint hs _ _).bind fun s hs => (len_uint hs _ _).bind fun s hs => (len_scf2 hs).bind fun s hs => ?_
  refine OkThen.bind (P := fun s => s.buf.length = n) ?_ fun s hs => len_uint hs _ _
  split
  · exact (len_bool hs _).bind fun s hs => len_uint hs _ _
  · exact OkThen.ok hs

theorem len_tnsCoefs (rcI : List Nat) (f : Nat) : ∀ (m k n : Nat) (s : EncSt), s.buf.length = n → KeepsLen n (encTnsCoefs rcI f k m s)
  | 0, k, n, s, h => OkThen.ok h
  | m + 1, k, n, s, h => by
    unfold encTnsCoefs
    refine OkThen.any fun _ => OkThen.any fun _ => OkThen.any fun _ => OkThen.any fun _ => OkThen.any fun _ => ?_
    exact (len_encode h _ _).bind fun s hs => len_tnsCoefs rcI f m _ n s hs

theorem len_tnsData (w : Nat) (ro rcI : List Nat) : ∀ (m f n : Nat) (s : EncSt), s.buf.length = n → KeepsLen n (encTnsData w ro rcI f m s)
  | 0, f, n, s, h => OkThen.ok h
  | m + 1, f, n, s, h => by
    unfold encTnsData
    refine OkThen.any fun o => OkThen.bind (P := fun s => s.buf.length = n) ?_ fun s hs => len_tnsData w ro rcI m _ n s hs
    split
    · refine OkThen.any fun _ => OkThen.any fun _ => OkThen.any fun _ => OkThen.any fun _ => ?_
      exact (len_encode h _ _).bind fun s hs => len_tnsCoefs rcI f o 0 n s hs
    · exact OkThen.ok h

theorem len_sym {s : EncSt} {n : Nat} (h : s.buf.length = n) (t lev sym : Nat) : KeepsLen n (encSym t lev sym s) := by
  unfold encSym
  exact OkThen.any fun _ => OkThen.any fun _ => OkThen.any fun _ => OkThen.any fun _ => OkThen.any fun _ => len_encode h _ _

theorem len_escapes (m : Bool) (t : Nat) : ∀ (fuel a b lev n : Nat) (s : EncSt), s.buf.length = n →
    OkThen (encEscapes m t fuel a b lev s) fun p => p.2.buf.length = n
  | 0, a, b, lev, n, s, h => by
    unfold encEscapes
    split
    · exact OkThen.panic
    · exact OkThen.ok h
  | fuel + 1, a, b, lev, n, s, h => by
    unfold encEscapes
    split
    · refine (len_sym h _ _ _).bind fun s hs => ?_
      refine OkThen.bind (P := fun s => s.buf.length = n) ?_ fun s hs => len_escapes m t fuel _ _ _ n s hs
      split
      · exact OkThen.ok hs
      · exact (len_bool hs _).bind fun s hs => len_bool hs _
    · exact OkThen.ok h

theorem len_pairs (m : Bool) (rf ne nl : Nat) : ∀ (xs : List Int) (k c : Nat) (lsbs : List Bool) (n : Nat) (s : EncSt), s.buf.length = n →
    OkThen (encPairs m rf ne nl xs k c lsbs s) fun p => p.2.buf.length = n
  | [], k, c, lsbs, n, s, h => by unfold encPairs; exact OkThen.ok h
  | [_], k, c, lsbs, n, s, h => by unfold encPairs; exact OkThen.panic
  | x0 :: x1 :: xs, k, c, lsbs, n, s, h => by
    unfold encPairs
    refine (len_escapes m _ _ _ _ _ n s h).bind fun q hq => ?_
    refine (len_sym hq _ _ _).bind fun s hs => ?_
    extract_lets post lsbs' aLsb bLsb c'
    split
    · exact OkThen.panic
    · refine OkThen.bind (P := fun s => s.buf.length = n) ?_ fun s hs => ?_
      · split
        · exact len_bool hs _
        · exact OkThen.ok hs
      refine OkThen.bind (P := fun s => s.buf.length = n) ?_ fun s hs => len_pairs m rf ne nl xs _ _ _ n s hs
      split
      · exact len_bool hs _
      · exact OkThen.ok hs

theorem len_bools : ∀ (l : List Bool) (n : Nat) (s : EncSt), s.buf.length = n → KeepsLen n (encBools l s)
  | [], n, s, h => OkThen.ok h
  | b :: l, n, s, h => by
    unfold encBools
    exact (len_bool h _).bind fun s hs => len_bools l n s hs

/-- the frame has the length of the buffer -/
theorem len_encodeFrame (ne : Nat) (p : FrameParams) (stale : EncSt) (buf : List Nat) :
    KeepsLen buf.length (encodeFrame ne p stale buf) := by
  unfold encodeFrame
  refine OkThen.bind (P := fun q => q.2.buf.length = buf.length) ?_ fun q hq => ?_
  · unfold encodeBody
    refine OkThen.any fun w => ?_
    refine (len_sideInfo (n := buf.length) (by simp)).bind fun s hs => ?_
    extract_lets s1
    refine (len_tnsData _ _ _ _ _ buf.length s1 hs).bind fun s hs => ?_
    unfold encSpectral
    refine OkThen.any fun _ => ?_
    split
    · exact OkThen.panic
    · split
      · exact OkThen.panic
      · exact len_pairs _ _ _ _ _ _ _ _ _ _ hs
  · unfold encResidual
    exact OkThen.any fun _ => (len_bools _ _ _ hq).bind fun s hs => len_finish hs

end Lc3
