import Verif.Model.NoAlloc
import Verif.Props.Memory
import Verif.Props.Encoder
import Verif.Props.EncoderReturns32
/-!
# The crate without an allocator behaves like the crate with one (C109)

The two halves of `lc3_encoder.rs` and `lc3_decoder.rs` that `#[cfg(feature = "alloc")]` selects between are written twice. The property: for
the same number of channels they agree, results, states and panics alike; in particular no channel is lost to a full `heapless::Vec`.
-/

namespace Lc3
variable {α : Type} [Scalar α]

theorem encChannelsHeapless_eq (cfg : Lc3Config) (cap : Nat) : ∀ (n : Nat) (v : List (EncChannel α)) (ib : List Int) (sb : List α) (cb : List (Cx α)),
    v.length + n ≤ cap → encChannelsHeapless cfg cap n v ib sb cb =
      (encChannelsNew cfg n ib sb cb >>= fun r : List (EncChannel α) × List Int × List α × List (Cx α) => .ok (v ++ r.1, r.2))
  | 0, v, ib, sb, cb, _ => by simp [encChannelsHeapless, encChannelsNew]
  | n + 1, v, ib, sb, cb, h => by
    unfold encChannelsHeapless encChannelsNew
    cases encChannelNew cfg ib sb cb with
    | err => rfl
    | panic => rfl
    | ok a =>
      obtain ⟨ch, ib', sb', cb'⟩ := a
      have hp : heaplessPush cap v ch = v ++ [ch] := by unfold heaplessPush; rw [if_pos (by omega)]
      simp only [Res.bind_ok, hp]
      rw [encChannelsHeapless_eq cfg cap n (v ++ [ch]) ib' sb' cb' (by simp; omega)]
      cases encChannelsNew cfg n ib' sb' cb' with
      | err => rfl
      | panic => rfl
      | ok r => simp

theorem decChannelsHeapless_eq (cfg : Lc3Config) (cap : Nat) : ∀ (n : Nat) (v : List (DecChannel α)) (sb : List α) (cb : List (Cx α)),
    v.length + n ≤ cap → decChannelsHeapless cfg cap n v sb cb =
      (decChannelsNew cfg n sb cb >>= fun r : List (DecChannel α) × List α × List (Cx α) => .ok (v ++ r.1, r.2))
  | 0, v, sb, cb, _ => by simp [decChannelsHeapless, decChannelsNew]
  | n + 1, v, sb, cb, h => by
    unfold decChannelsHeapless decChannelsNew
    cases decChannelNew cfg sb cb with
    | err => rfl
    | panic => rfl
    | ok a =>
      obtain ⟨ch, sb', cb'⟩ := a
      have hp : heaplessPush cap v ch = v ++ [ch] := by unfold heaplessPush; rw [if_pos (by omega)]
      simp only [Res.bind_ok, hp]
      rw [decChannelsHeapless_eq cfg cap n (v ++ [ch]) sb' cb' (by simp; omega)]
      cases decChannelsNew cfg n sb' cb' with
      | err => rfl
      | panic => rfl
      | ok r => simp

/-- **C109, constructors.** With and without an allocator, the constructors of the encoder and the decoder do the same for the same number of
channels and the same buffers: the same channels, the same rest of the buffers, or both panic. And both ask for the same buffers. -/
theorem C109_new (n : Nat) (d : FrameDuration) (f : SamplingFrequency) (ib : List Int) (sb : List α) (cb : List (Cx α)) :
    Encoder.newHeapless n d f ib sb cb = Encoder.new n d f ib sb cb ∧ Decoder.newHeapless n d f sb cb = Decoder.new n d f sb cb ∧
    encoderLensHeapless n d f = encoderLens n d f ∧ decoderLensHeapless n d f = decoderLens n d f := by
  refine ⟨?_, ?_, rfl, rfl⟩
  · unfold Encoder.newHeapless Encoder.new
    simp only
    rw [encChannelsHeapless_eq _ n n [] ib sb cb (by simp)]
    cases encChannelsNew (Lc3Config.new f d) n ib sb cb <;> simp
  · unfold Decoder.newHeapless Decoder.new
    simp only
    rw [decChannelsHeapless_eq _ n n [] sb cb (by simp)]
    cases decChannelsNew (Lc3Config.new f d) n sb cb <;> simp

/-- **C109, frames.** On a codec with `n` channels the calls for a frame agree too, for every channel number, in range or not. -/
theorem C109_frame (n : Nat) : (∀ (e : Encoder α), e.channels.length = n → ∀ (c : Nat) (x : List Int) (buf : List Nat),
      encodeFrameHeapless n e c x buf = encodeFrameOn e c x buf) ∧
    (∀ (D : Decoder α), D.channels.length = n → ∀ (checks : Bool) (bits c : Nat) (buf : List Nat) (out : List Int),
      decodeFrameHeapless checks n D bits c buf out = decodeFrame checks D bits c buf out) := by
  refine ⟨fun e he c x buf => ?_, fun D hD checks bits c buf out => ?_⟩
  · unfold encodeFrameHeapless encodeFrameOn
    by_cases h : c < n
    · rw [if_pos h, idx_eq_ok (he ▸ h), List.getElem?_eq_getElem (he ▸ h)]
      rfl
    · rw [if_neg h, List.getElem?_eq_none (by omega)]
  · unfold decodeFrameHeapless decodeFrame
    by_cases h : c < n
    · rw [if_pos h, idx_eq_ok (hD ▸ h), List.getElem?_eq_getElem (hD ▸ h)]
      rfl
    · rw [if_neg h, List.getElem?_eq_none (by omega)]

/-- a sequence of calls of `encode_frame`, given as a step function: the codec after the calls and the bytes of every call -/
def callsEnc (step : Encoder α → Nat → List Int → List Nat → Res (Encoder α × List Nat)) :
    Encoder α → List (Nat × List Int × List Nat) → Res (Encoder α × List (List Nat))
  | e, [] => .ok (e, [])
  | e, (c, x, buf) :: l => do
    let (e, b) ← step e c x buf
    let (e, bs) ← callsEnc step e l
    .ok (e, b :: bs)

/-- a sequence of calls of `decode_frame` -/
def callsDec (step : Decoder α → Nat → Nat → List Nat → List Int → Res (DecResult × Decoder α × List Int)) :
    Decoder α → List (Nat × Nat × List Nat × List Int) → Res (Decoder α × List (DecResult × List Int))
  | d, [] => .ok (d, [])
  | d, (bits, c, buf, out) :: l => do
    let (r, d, o) ← step d bits c buf out
    let (d, os) ← callsDec step d l
    .ok (d, (r, o) :: os)

/-- **C109.** A program that makes an encoder and a decoder for `n` channels and then calls them any number of times, for any channels, sees no
difference between the crate with and the crate without an allocator: the same bytes, the same samples, the same errors and panics. -/
theorem C109 (n : Nat) (d : FrameDuration) (f : SamplingFrequency) :
    (∀ (ib : List Int) (sb : List α) (cb : List (Cx α)) (calls : List (Nat × List Int × List Nat)),
      (Encoder.newHeapless n d f ib sb cb >>= fun r : Encoder α × List Int × List α × List (Cx α) => callsEnc (encodeFrameHeapless n) r.1 calls) =
      (Encoder.new n d f ib sb cb >>= fun r : Encoder α × List Int × List α × List (Cx α) => callsEnc encodeFrameOn r.1 calls)) ∧
    (∀ (checks : Bool) (sb : List α) (cb : List (Cx α)) (calls : List (Nat × Nat × List Nat × List Int)),
      (Decoder.newHeapless n d f sb cb >>= fun r : Decoder α × List α × List (Cx α) => callsDec (decodeFrameHeapless checks n) r.1 calls) =
      (Decoder.new n d f sb cb >>= fun r : Decoder α × List α × List (Cx α) => callsDec (decodeFrame checks) r.1 calls)) := by
  refine ⟨fun ib sb cb calls => ?_, fun checks sb cb calls => ?_⟩
  · rw [(C109_new n d f ib sb cb).1]
    have key : ∀ (calls : List (Nat × List Int × List Nat)) (e : Encoder α), e.channels.length = n →
        callsEnc (encodeFrameHeapless n) e calls = callsEnc encodeFrameOn e calls := by
      intro calls
      induction calls with
      | nil => intro e _; rfl
      | cons a l ih =>
        intro e he
        obtain ⟨c, x, buf⟩ := a
        unfold callsEnc
        rw [(C109_frame n).1 e he]
        cases hs : encodeFrameOn e c x buf with
        | err => rfl
        | panic => rfl
        | ok r =>
          obtain ⟨e', b⟩ := r
          have he' : e'.channels.length = n := by
            unfold encodeFrameOn at hs
            split at hs
            · cases hs
            · obtain ⟨⟨_, _⟩, -, hs⟩ := bind_ok_inv hs
              cases hs
              simpa using he
          simp only [Res.bind_ok]
          rw [ih e' he']
    cases hE : Encoder.new n d f ib sb cb with
    | err => rfl
    | panic => rfl
    | ok r =>
      obtain ⟨E, r1, r2, r3⟩ := r
      simp only [Res.bind_ok]
      exact key calls E (C106_new.1 hE).1
  · rw [(C109_new n d f [] sb cb).2.1]
    have key : ∀ (calls : List (Nat × Nat × List Nat × List Int)) (D : Decoder α), D.channels.length = n →
        callsDec (decodeFrameHeapless checks n) D calls = callsDec (decodeFrame checks) D calls := by
      intro calls
      induction calls with
      | nil => intro e _; rfl
      | cons a l ih =>
        intro D hD
        obtain ⟨bits, c, buf, out⟩ := a
        unfold callsDec
        rw [(C109_frame n).2 D hD]
        cases hs : decodeFrame checks D bits c buf out with
        | err => rfl
        | panic => rfl
        | ok r =>
          obtain ⟨R, D', o⟩ := r
          have hD' : D'.channels.length = n := by
            unfold decodeFrame at hs
            split at hs
            · cases hs
            · obtain ⟨⟨_, _, _⟩, -, hs⟩ := bind_ok_inv hs
              cases hs
              simpa using hD
          simp only [Res.bind_ok]
          rw [ih D' hD']
    cases hD : Decoder.new n d f sb cb with
    | err => rfl
    | panic => rfl
    | ok r =>
      obtain ⟨D, r1, r2⟩ := r
      simp only [Res.bind_ok]
      exact key calls D ((C106_new (n := n) (d := d) (f := f)).2 hD).1

/-- C109 speaks about real codecs: without an allocator too, an encoder for two channels at 48 kHz is made from buffers of the lengths asked
for, and has both channels -/
example (ib : List Int) (sb : List α) (cb : List (Cx α)) (h : (encoderLensHeapless 2 .tenMs .hz48000).1 ≤ ib.length ∧
    (encoderLensHeapless 2 .tenMs .hz48000).2.1 ≤ sb.length ∧ (encoderLensHeapless 2 .tenMs .hz48000).2.2 ≤ cb.length) :
    ∃ E r, Encoder.newHeapless 2 .tenMs .hz48000 ib sb cb = .ok (E, r) ∧ E.channels.length = 2 := by
  obtain ⟨E, e, hl, -⟩ := (C12_partial 2 .tenMs .hz48000 (by decide) ib sb cb).1 h
  exact ⟨E, _, by rw [(C109_new 2 .tenMs .hz48000 ib sb cb).1, e], hl⟩

end Lc3
