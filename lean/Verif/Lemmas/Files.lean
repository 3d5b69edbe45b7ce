import Verif.Model.Files
import Verif.Spec.Files
import Verif.Props.Encoder
import Verif.Props.FrameRoundTrip
import Verif.Props.DecoderSafety
import Verif.Props.Concealment
import Verif.Lemmas.EncLength
import Mathlib.Tactic.Linarith
import Mathlib.Data.List.GetD
/-! The loops of the file programs. -/

namespace Lc3
open Scalar Spec

variable {α : Type} [Scalar α]

theorem i16OfBytes_eq {a b : Nat} (ha : a < 256) (hb : b < 256) : i16OfBytes a b = Int.bmod (a + 256 * b) 65536 := by
  unfold i16OfBytes Int.bmod
  have : ((a : Int) + 256 * b) % ((65536 : Nat) : Int) = a + 256 * b := Int.emod_eq_of_lt (by omega) (by omega)
  simp only [this]
  split <;> split <;> omega

theorem pcmAt_cons2 (a b : Nat) (l : List Nat) (j : Nat) : pcmAt (a :: b :: l) (j + 1) = pcmAt l j := by
  unfold pcmAt
  have e1 : 2 * (j + 1) = 2 * j + 1 + 1 := by ring
  simp only [e1, List.getD_cons_succ, List.length_cons]
  by_cases h : 2 * j + 1 < l.length
  · rw [if_pos h, if_pos (by omega)]
  · rw [if_neg h, if_neg (by omega)]

theorem pcmAt_drop (l : List Nat) (k j : Nat) : pcmAt (l.drop (2 * k)) j = pcmAt l (k + j) := by
  unfold pcmAt
  rw [List.length_drop]
  have e (i : Nat) : (l.drop (2 * k)).getD i 0 = l.getD (2 * k + i) 0 := by
    simp [List.getD_eq_getElem?_getD, List.getElem?_drop]
  rw [e, e]
  have e2 : 2 * (k + j) = 2 * k + 2 * j := by ring
  rw [e2, Nat.add_assoc]
  by_cases h : 2 * k + (2 * j + 1) < l.length
  · rw [if_pos (by omega), if_pos h]
  · rw [if_neg (by omega), if_neg h]

theorem pcmAt_take (l : List Nat) {k j : Nat} (h : j < k) : pcmAt (l.take (2 * k)) j = pcmAt l j := by
  unfold pcmAt
  rw [List.length_take]
  have e (i : Nat) (hi : i < 2 * k) : (l.take (2 * k)).getD i 0 = l.getD i 0 := by
    simp [List.getD_eq_getElem?_getD, List.getElem?_take, hi]
  rw [e _ (by omega), e _ (by omega)]
  by_cases h' : 2 * j + 1 < l.length
  · rw [if_pos (by omega), if_pos h']
  · rw [if_neg (by omega), if_neg h']

theorem pcmAt_behind (l : List Nat) {j : Nat} (h : l.length ≤ 2 * j + 1) : pcmAt l j = 0 := by
  unfold pcmAt; rw [if_neg (by omega)]

/-- reading an even number of bytes -/
theorem readI16s_even : ∀ (k : Nat) (l : List Nat), Bytes l → l.length = 2 * k → readI16s l = .ok ((List.range k).map (pcmAt l))
  | 0, [], _, _ => by simp [readI16s]
  | k + 1, a :: b :: l, hb, h => by
    have h0 : pcmAt (a :: b :: l) 0 = i16OfBytes a b := by
      rw [i16OfBytes_eq (hb a (by simp)) (hb b (by simp))]
      unfold pcmAt
      simp
    have h1 : (List.range k).map (pcmAt (a :: b :: l) ∘ Nat.succ) = (List.range k).map (pcmAt l) := by
      apply List.map_congr_left
      intro j _
      simp only [Function.comp_apply]
      rw [Nat.succ_eq_add_one, pcmAt_cons2]
    rw [readI16s, readI16s_even k l (fun x hx => hb x (by simp [hx])) (by simp only [List.length_cons] at h; omega), Res.bind_ok,
      List.range_succ_eq_map, List.map_cons, List.map_map, h0, h1]
  | 0, _ :: _, _, h => by simp at h
  | k + 1, [], _, h => by simp at h
  | k + 1, [a], _, h => by simp at h; omega

/-- an odd number of bytes is not read -/
theorem readI16s_odd : ∀ (k : Nat) (l : List Nat), l.length = 2 * k + 1 → readI16s l = .panic
  | 0, [a], _ => rfl
  | k + 1, a :: b :: l, h => by
    rw [readI16s, readI16s_odd k l (by simp only [List.length_cons] at h; omega)]; rfl
  | 0, [], h => by simp at h
  | 0, _ :: _ :: _, h => by simp at h
  | k + 1, [], h => by simp at h
  | k + 1, [a], h => by simp at h

theorem readTemp_even {n : Nat} {temp : List Int} {data : List Nat} (hb : Bytes data) (ht : temp.length = n) {m : Nat} (h : data.length = 2 * m) :
    readTemp (2 * n) temp (data.take (2 * n)) = .ok ((List.range n).map (pcmAt data)) := by
  have hl : (data.take (2 * n)).length = 2 * min n m := by rw [List.length_take, h]; omega
  have hmap : (List.range (min n m)).map (pcmAt (data.take (2 * n))) = (List.range (min n m)).map (pcmAt data) := by
    apply List.map_congr_left
    intro j hj
    exact pcmAt_take _ (by rw [List.mem_range] at hj; omega)
  unfold readTemp
  rw [readI16s_even _ _ (fun x hx => hb x (List.mem_of_mem_take hx)) hl, Res.bind_ok, hmap]
  simp only [List.length_map, List.length_range, ht, hl]
  rw [if_neg (by omega)]
  by_cases hc : 2 * min n m < 2 * n
  · rw [if_pos hc]
    have : min n m = m := by omega
    rw [this]
    congr 1
    apply List.ext_getElem
    · simp; omega
    · intro i h1 h2
      rw [List.getElem_append]
      split
      · simp
      · rename_i h3
        simp only [List.length_map, List.length_range] at h3
        simp only [List.getElem_replicate, List.getElem_map, List.getElem_range]
        rw [pcmAt_behind _ (by omega)]
  · rw [if_neg hc]
    have : min n m = n := by omega
    rw [this, List.drop_of_length_le (by omega), List.append_nil]

theorem channelOf_eq {nf nch c : Nat} (hc : c < nch) (g : Nat → Int) :
    channelOf nf nch ((List.range (nf * nch)).map g) c = .ok ((List.range nf).map fun i => g (i * nch + c)) := by
  unfold channelOf
  have hi : ∀ i, i < nf → idx ((List.range (nf * nch)).map g) (i * nch + c) = .ok (g (i * nch + c)) := by
    intro i hi
    have hlt : i * nch + c < nf * nch := by
      calc i * nch + c < i * nch + nch := by omega
        _ = (i + 1) * nch := by ring
        _ ≤ nf * nch := Nat.mul_le_mul_right _ hi
    rw [idx_eq_ok (by simpa using hlt)]
    simp
  have : ∀ l : List Nat, (∀ i ∈ l, i < nf) → (l.mapM fun i => idx ((List.range (nf * nch)).map g) (i * nch + c)) =
      .ok (l.map fun i => g (i * nch + c)) := by
    intro l
    induction l with
    | nil => intro _; rfl
    | cons i l ih =>
      intro h
      rw [List.mapM_cons, hi i (h i (by simp)), Res.bind_ok, ih (fun j hj => h j (by simp [hj])), Res.bind_ok]
      rfl
  exact this _ fun i hi => List.mem_range.1 hi

/-- the contents of the output buffer do not matter -/
theorem encodeFrameOn_buf (E : Encoder α) (c : Nat) (x : List Int) {buf buf' : List Nat} (h : buf.length = buf'.length) :
    encodeFrameOn E c x buf = encodeFrameOn E c x buf' := by
  unfold encodeFrameOn
  split
  · rfl
  · rename_i ch _
    unfold encodeChannel
    simp only [h, C31 _ _ ch.bits ch.bits buf buf' h]

/-- the frame has the length of the output buffer -/
theorem encodeFrameOn_length {E E' : Encoder α} {c : Nat} {x : List Int} {buf b : List Nat} (h : encodeFrameOn E c x buf = .ok (E', b)) :
    b.length = buf.length := by
  unfold encodeFrameOn at h
  split at h
  · cases h
  · rename_i ch _
    obtain ⟨⟨ch', b'⟩, h1, h⟩ := bind_ok_inv h
    cases h
    unfold encodeChannel at h1
    obtain ⟨a, -, h1⟩ := bind_ok_inv h1
    obtain ⟨s, h2, h1⟩ := bind_ok_inv h1
    cases h1
    exact len_encodeFrame _ _ _ _ _ h2

/-- the calls with an output buffer of `n` zeros -/
def encCallsFor (n : Nat) (l : List (Nat × List Int)) : List EncCall := l.map fun p => ⟨p.1, p.2, List.replicate n 0⟩

theorem runEncCalls_length : ∀ (cs : List EncCall) (E E' : Encoder α) (l : List (List Nat)) (n : Nat), (∀ c ∈ cs, c.buf.length = n) →
    runEncCalls cs E = .ok (l, E') → l.length = cs.length ∧ ∀ b ∈ l, b.length = n
  | [], E, E', l, n, _, h => by cases h; simp
  | c :: cs, E, E', l, n, hn, h => by
    rw [runEncCalls] at h
    obtain ⟨⟨E1, b⟩, h1, h⟩ := bind_ok_inv h
    obtain ⟨⟨l', E2⟩, h2, h⟩ := bind_ok_inv h
    simp only [Res.ok.injEq, Prod.mk.injEq] at h
    obtain ⟨rfl, rfl⟩ := h
    obtain ⟨i1, i2⟩ := runEncCalls_length cs E1 _ l' n (fun c hc => hn c (by simp [hc])) h2
    refine ⟨by simp [i1], ?_⟩
    intro b' hb'
    rcases List.mem_cons.1 hb' with rfl | hb'
    · rw [encodeFrameOn_length h1]; exact hn c (by simp)
    · exact i2 b' hb'

theorem runEncCalls_append (cs cs' : List EncCall) (E : Encoder α) :
    runEncCalls (cs ++ cs') E = (do
      let (l, E) ← runEncCalls cs E
      let (l', E) ← runEncCalls cs' E
      .ok (l ++ l', E)) := by
  induction cs generalizing E with
  | nil =>
    rw [List.nil_append]
    show _ = (runEncCalls cs' E >>= fun p => .ok ([] ++ p.1, p.2))
    cases runEncCalls cs' E <;> rfl
  | cons c cs ih =>
    rw [List.cons_append, runEncCalls, runEncCalls]
    cases h : encodeFrameOn E c.channel c.x c.buf with
    | ok p =>
      obtain ⟨E1, b⟩ := p
      simp only [Res.bind_ok]
      rw [ih]
      cases h2 : runEncCalls cs E1 with
      | ok q =>
        simp only [Res.bind_ok]
        cases h3 : runEncCalls cs' q.2 with
        | ok r => rfl
        | err => rfl
        | panic => rfl
      | err => rfl
      | panic => rfl
    | err => rfl
    | panic => rfl

/-- the channels of one frame -/
theorem encFileChannels_eq {nf nch nbytes : Nat} (g : Nat → Int) : ∀ (cs : List Nat), (∀ c ∈ cs, c < nch) → ∀ (E : Encoder α) (buf : List Nat),
    buf.length = nbytes →
    encFileChannels nf nch ((List.range (nf * nch)).map g) cs E buf = (do
      let (l, E) ← runEncCalls (encCallsFor nbytes (cs.map fun c => (c, (List.range nf).map fun i => g (i * nch + c)))) E
      .ok (E, l.getLast?.getD buf, l.flatten))
  | [], _, E, buf, _ => by simp [encFileChannels, encCallsFor, runEncCalls]
  | c :: cs, hcs, E, buf, hb => by
    rw [encFileChannels, channelOf_eq (hcs c (by simp)), Res.bind_ok, encodeFrameOn_buf E c _ (buf' := List.replicate nbytes 0) (by simp [hb])]
    simp only [encCallsFor, List.map_cons, runEncCalls]
    cases h : encodeFrameOn E c ((List.range nf).map fun i => g (i * nch + c)) (List.replicate nbytes 0) with
    | ok p =>
      obtain ⟨E1, b⟩ := p
      have hbl : b.length = nbytes := by rw [encodeFrameOn_length h]; simp
      simp only [Res.bind_ok]
      rw [encFileChannels_eq g cs (fun c hc => hcs c (by simp [hc])) E1 b hbl]
      unfold encCallsFor
      cases h2 : runEncCalls (((cs.map fun c => (c, (List.range nf).map fun i => g (i * nch + c)))).map
          fun p => (⟨p.1, p.2, List.replicate nbytes 0⟩ : EncCall)) E1 with
      | ok q =>
        obtain ⟨l, E2⟩ := q
        simp only [Res.bind_ok, List.flatten_cons]
        congr 3
        cases l <;> simp [List.getLast?_cons]
      | err => rfl
      | panic => rfl
    | err => rfl
    | panic => rfl

theorem frameCount_zero (nf nch : Nat) (h : 0 < nf * nch) : frameCount nf nch 0 = 0 := by
  unfold frameCount
  have : 0 < 2 * nf * nch := by rw [Nat.mul_assoc]; omega
  exact Nat.div_eq_of_lt (by omega)

theorem frameCount_step {nf nch len : Nat} (h : 0 < nf * nch) (hl : 0 < len) :
    frameCount nf nch len = frameCount nf nch (len - 2 * (nf * nch)) + 1 := by
  unfold frameCount
  rw [Nat.mul_assoc 2]
  generalize nf * nch = m at *
  by_cases hm : 2 * m ≤ len
  · have e : len + (2 * m - 1) = (len - 2 * m + (2 * m - 1)) + 2 * m := by omega
    rw [e, Nat.add_div_right _ (by omega)]
  · have e1 : len - 2 * m = 0 := by omega
    rw [e1, Nat.div_eq_of_lt (a := 0 + (2 * m - 1)) (by omega)]
    have e : len + (2 * m - 1) = (len - 1) + 2 * m := by omega
    rw [e, Nat.add_div_right _ (by omega), Nat.div_eq_of_lt (by omega)]

theorem pcmFrame_drop (nf nch : Nat) (data : List Nat) (t c : Nat) :
    pcmFrame nf nch (data.drop (2 * (nf * nch))) t c = pcmFrame nf nch data (t + 1) c := by
  unfold pcmFrame
  apply List.map_congr_left
  intro i _
  rw [pcmAt_drop]
  congr 1
  ring

/-- the frames of a file: the first one, then those of the rest -/
theorem pcmFrames_step {nf nch : Nat} (h : 0 < nf * nch) {data : List Nat} (hd : data ≠ []) :
    pcmFrames nf nch data = ((List.range nch).map fun c => (c, pcmFrame nf nch data 0 c)) ++ pcmFrames nf nch (data.drop (2 * (nf * nch))) := by
  unfold pcmFrames
  rw [frameCount_step h (List.length_pos_iff.2 hd), List.length_drop, List.range_succ_eq_map, List.flatMap_cons]
  congr 1
  rw [List.flatMap_map]
  apply List.flatMap_congr
  intro t _
  apply List.map_congr_left
  intro c _
  rw [pcmFrame_drop]

/-- the loop over the frames -/
theorem encFileFrames_eq {nf nch nbytes : Nat} (hn : 0 < nf * nch) : ∀ (fuel : Nat) (data : List Nat) (temp : List Int) (E : Encoder α)
    (buf : List Nat) (m : Nat), Bytes data → data.length = 2 * m → data.length ≤ fuel → temp.length = nf * nch → buf.length = nbytes →
    encFileFrames nf nch (2 * (nf * nch)) fuel data temp E buf = (do
      let (l, _) ← runEncCalls (encCallsFor nbytes (pcmFrames nf nch data)) E
      .ok l.flatten)
  | 0, data, temp, E, buf, m, _, _, hf, _, _ => by
    have : data = [] := List.length_eq_zero_iff.1 (by omega)
    subst this
    simp [encFileFrames, pcmFrames, frameCount_zero _ _ hn, encCallsFor, runEncCalls]
  | fuel + 1, data, temp, E, buf, m, hb, hl, hf, ht, hbl => by
    by_cases hd : data = []
    · subst hd
      simp [encFileFrames, pcmFrames, frameCount_zero _ _ hn, encCallsFor, runEncCalls]
    have hpos := List.length_pos_iff.2 hd
    rw [encFileFrames, if_neg hd, readTemp_even hb ht hl, Res.bind_ok,
      encFileChannels_eq (pcmAt data) (List.range nch) (fun c hc => List.mem_range.1 hc) E buf hbl, pcmFrames_step hn hd]
    have e0 : ∀ c, pcmFrame nf nch data 0 c = (List.range nf).map fun i => pcmAt data (i * nch + c) := by
      intro c; unfold pcmFrame; simp
    simp only [e0]
    have ea : ∀ a b, encCallsFor nbytes (a ++ b) = encCallsFor nbytes a ++ encCallsFor nbytes b := fun a b => by simp [encCallsFor]
    rw [ea, runEncCalls_append]
    cases h : runEncCalls (encCallsFor nbytes ((List.range nch).map fun c => (c, (List.range nf).map fun i => pcmAt data (i * nch + c)))) E with
    | ok q =>
      obtain ⟨l, E1⟩ := q
      simp only [Res.bind_ok]
      have hlen := (runEncCalls_length _ _ _ _ nbytes (by
        intro c hc
        unfold encCallsFor at hc
        obtain ⟨p, -, rfl⟩ := List.mem_map.1 hc
        simp) h).2
      rw [encFileFrames_eq hn fuel (data.drop (2 * (nf * nch))) _ E1 _ (m - nf * nch) (fun x hx => hb x (List.mem_of_mem_drop hx))
        (by rw [List.length_drop]; omega) (by rw [List.length_drop]; omega) (by simp) (by
          cases hl2 : l.getLast? with
          | none => simpa using hbl
          | some b => simpa using hlen b (List.mem_of_getLast? hl2))]
      cases h2 : runEncCalls (encCallsFor nbytes (pcmFrames nf nch (data.drop (2 * (nf * nch))))) E1 with
      | ok q2 => simp
      | err => rfl
      | panic => rfl
    | err => rfl
    | panic => rfl

/-- the loop does not end normally if the number of bytes is odd -/
theorem encFileFrames_odd {nf nch : Nat} (hn : 0 < nf * nch) : ∀ (fuel : Nat) (data : List Nat) (temp : List Int) (E : Encoder α)
    (buf : List Nat) (m : Nat), data.length = 2 * m + 1 → data.length ≤ fuel → ∀ r,
    encFileFrames nf nch (2 * (nf * nch)) fuel data temp E buf ≠ .ok r
  | 0, data, temp, E, buf, m, hl, hf, r => by omega
  | fuel + 1, data, temp, E, buf, m, hl, hf, r => by
    have hd : data ≠ [] := by intro h; rw [h] at hl; simp at hl
    intro h
    rw [encFileFrames, if_neg hd] at h
    obtain ⟨temp', h1, h⟩ := bind_ok_inv h
    obtain ⟨⟨E1, b1, o1⟩, -, h⟩ := bind_ok_inv h
    obtain ⟨r2, h3, -⟩ := bind_ok_inv h
    by_cases hc : 2 * (nf * nch) ≤ data.length
    · exact encFileFrames_odd hn fuel _ _ _ _ (m - nf * nch) (by rw [List.length_drop]; omega) (by rw [List.length_drop]; omega) _ h3
    · unfold readTemp at h1
      rw [readI16s_odd m _ (by rw [List.length_take]; omega)] at h1
      cases h1

end Lc3
