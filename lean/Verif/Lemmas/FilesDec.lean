import Verif.Lemmas.Files
import Verif.Props.Silence
/-! The loop of the decoding program. -/

namespace Lc3
open Scalar Spec

variable {α : Type} [Scalar α]

theorem writeI16s_eq (l : List Int) : writeI16s l = l.flatMap sampleBytes := by
  unfold writeI16s
  apply List.flatMap_congr
  intro x _
  unfold le16 sampleBytes
  have e1 : (x % 65536).toNat % 256 = (x % 256).toNat := by omega
  have e2 : (x % 65536).toNat / 256 % 256 = (x / 256 % 256).toNat := by omega
  simp only [e1, e2]

/-- a call gives the same result for all output buffers of the length of a frame -/
theorem decodeFrame_out {f : SamplingFrequency} {d : FrameDuration} {D : Decoder α} (hD : Reachable f d D) (checks : Bool) (c : Nat)
    (buf : List Nat) {out out2 : List Int} (h : out.length = (Lc3Config.new f d).nf) (h2 : out2.length = (Lc3Config.new f d).nf) {r : DecResult}
    {D' : Decoder α} {o : List Int} (he : decodeFrame checks D 16 c buf out = .ok (r, D', o)) :
    r = .ok ∧ o.length = (Lc3Config.new f d).nf ∧ decodeFrame checks D 16 c buf out2 = .ok (.ok, D', o) := by
  have hr' := reachable_inv (Reachable.call hD he)
  unfold decodeFrame at he ⊢
  split at he
  · cases he
  · rename_i ch hch
    obtain ⟨⟨r', ch', o'⟩, h1, he⟩ := bind_ok_inv he
    simp only [Res.ok.injEq, Prod.mk.injEq] at he
    obtain ⟨rfl, rfl, rfl⟩ := he
    have hlt : c < D.channels.length := (List.getElem?_eq_some_iff.1 hch).1
    have hci : ChInv f d ch' := hr'.2 ch' (by
      simp only
      exact List.mem_iff_getElem.2 ⟨c, by simpa using hlt, by simp⟩)
    unfold decodeChannel at h1
    rw [if_neg (by simp)] at h1
    obtain ⟨⟨lines, plc, info⟩, g1, h1⟩ := bind_ok_inv h1
    by_cases g2 : ch.freqSamples.length ≠ D.config.nf
    · simp only [if_pos g2] at h1
      cases h1
    simp only [if_neg g2] at h1
    obtain ⟨⟨ola, fr⟩, g3, h1⟩ := bind_ok_inv h1
    obtain ⟨⟨lt, fr2⟩, g4, h1⟩ := bind_ok_inv h1
    simp only [Res.ok.injEq, Prod.mk.injEq] at h1
    obtain ⟨rfl, rfl, rfl⟩ := h1
    have hfl : fr2.length = (Lc3Config.new f d).nf := hci.freq
    refine ⟨rfl, by rw [scaleAndRound_length, h], ?_⟩
    simp only
    unfold decodeChannel
    rw [if_neg (by simp), g1, Res.bind_ok]
    simp only
    rw [if_neg g2, g3, Res.bind_ok]
    simp only
    rw [g4, Res.bind_ok]
    simp only [Res.bind_ok, Res.ok.injEq, Prod.mk.injEq, true_and]
    rw [scaleAndRound_eq, scaleAndRound_eq, h, h2, List.drop_of_length_le (by omega), List.drop_of_length_le (by omega)]

theorem decodeFrame_out_eq {f : SamplingFrequency} {d : FrameDuration} {D : Decoder α} (hD : Reachable f d D) (checks : Bool) (c : Nat)
    (buf : List Nat) {out out2 : List Int} (h : out.length = (Lc3Config.new f d).nf) (h2 : out2.length = (Lc3Config.new f d).nf) :
    decodeFrame checks D 16 c buf out = decodeFrame checks D 16 c buf out2 := by
  cases e : decodeFrame checks D 16 c buf out with
  | ok p =>
    obtain ⟨r, D', o⟩ := p
    obtain ⟨rfl, -, e2⟩ := decodeFrame_out hD checks c buf h h2 e
    rw [e2]
  | err => exact absurd e (C07 checks D 16 c buf out).1
  | panic =>
    cases e' : decodeFrame checks D 16 c buf out2 with
    | ok p =>
      obtain ⟨r, D', o⟩ := p
      obtain ⟨rfl, -, e2⟩ := decodeFrame_out hD checks c buf h2 h e'
      rw [e] at e2; cases e2
    | err => exact absurd e' (C07 checks D 16 c buf out2).1
    | panic => rfl

/-- the calls with an output buffer of `nf` zeros -/
def decCallsFor (nf : Nat) (l : List (Nat × List Nat)) : List Call := l.map fun p => ⟨p.1, 16, p.2, List.replicate nf 0⟩

theorem runCalls_append (checks : Bool) (cs cs' : List Call) (D : Decoder α) :
    runCalls checks (cs ++ cs') D = (do
      let (l, D) ← runCalls checks cs D
      let (l', D) ← runCalls checks cs' D
      .ok (l ++ l', D)) := by
  induction cs generalizing D with
  | nil =>
    rw [List.nil_append]
    show _ = (runCalls checks cs' D >>= fun p => .ok ([] ++ p.1, p.2))
    cases runCalls checks cs' D <;> rfl
  | cons c cs ih =>
    rw [List.cons_append, runCalls, runCalls]
    cases h : decodeFrame checks D c.bits c.channel c.frame c.out with
    | ok p =>
      obtain ⟨r, D1, o⟩ := p
      simp only [Res.bind_ok]
      rw [ih]
      cases h2 : runCalls checks cs D1 with
      | ok q =>
        simp only [Res.bind_ok]
        cases h3 : runCalls checks cs' q.2 with
        | ok r => rfl
        | err => rfl
        | panic => rfl
      | err => rfl
      | panic => rfl
    | err => rfl
    | panic => rfl

/-- the results of calls with output buffers of the length of a frame -/
theorem runCalls_post {f : SamplingFrequency} {d : FrameDuration} {checks : Bool} : ∀ (l : List (Nat × List Nat)) (D D' : Decoder α)
    (r : List (DecResult × List Int)), Reachable f d D → runCalls checks (decCallsFor (Lc3Config.new f d).nf l) D = .ok (r, D') →
    Reachable f d D' ∧ r.length = l.length ∧ (∀ p ∈ r, p.1 = .ok ∧ p.2.length = (Lc3Config.new f d).nf)
  | [], D, D', r, hD, h => by
    simp only [decCallsFor, List.map_nil, runCalls, Res.ok.injEq, Prod.mk.injEq] at h
    obtain ⟨rfl, rfl⟩ := h
    exact ⟨hD, rfl, by simp⟩
  | c :: cs, D, D', r, hD, h => by
    simp only [decCallsFor, List.map_cons, runCalls] at h
    obtain ⟨⟨r1, D1, o⟩, h1, h⟩ := bind_ok_inv h
    obtain ⟨⟨l', D2⟩, h2, h⟩ := bind_ok_inv h
    simp only [Res.ok.injEq, Prod.mk.injEq] at h
    obtain ⟨rfl, rfl⟩ := h
    obtain ⟨i1, i2, i3⟩ := runCalls_post cs D1 _ l' (Reachable.call hD h1) h2
    obtain ⟨k1, k2, -⟩ := decodeFrame_out hD checks _ _ (by simp) (out2 := List.replicate (Lc3Config.new f d).nf 0) (by simp) h1
    refine ⟨i1, by simp [i2], ?_⟩
    intro p hp
    rcases List.mem_cons.1 hp with rfl | hp
    · exact ⟨k1, k2⟩
    · exact i3 p hp

/-- `k` pieces of `n` bytes -/
def chunksOf (n k : Nat) (data : List Nat) : List (List Nat) := (List.range k).map fun i => (data.drop (i * n)).take n

theorem chunksOf_succ (n k : Nat) (data : List Nat) : chunksOf n (k + 1) data = data.take n :: chunksOf n k (data.drop n) := by
  unfold chunksOf
  rw [List.range_succ_eq_map, List.map_cons, List.map_map]
  simp only [Nat.zero_mul, List.drop_zero, List.cons.injEq, true_and]
  apply List.map_congr_left
  intro i _
  simp only [Function.comp_apply, List.drop_drop]
  congr 2
  rw [Nat.succ_eq_add_one]; ring

/-- the number of calls made for `len` bytes -/
def callCount (n len : Nat) : Nat := (len - 1) / n

theorem callCount_zero {n len : Nat} (hn : 0 < n) (h : len ≤ n) : callCount n len = 0 := Nat.div_eq_of_lt (by omega)

theorem callCount_step {n len : Nat} (hn : 0 < n) (h : n < len) : callCount n len = callCount n (len - n) + 1 := by
  unfold callCount
  have : len - 1 = (len - n - 1) + n := by omega
  rw [this, Nat.add_div_right _ hn]

/-- the channels of one frame -/
theorem decFileChannels_eq {f : SamplingFrequency} {d : FrameDuration} (checks : Bool) {n : Nat} (hn : 0 < n) :
    ∀ (m a : Nat) (pre post : List (List Int)) (data : List Nat) (D : Decoder α), pre.length = a → post.length = m →
    (∀ o ∈ post, o.length = (Lc3Config.new f d).nf) → Reachable f d D →
    decFileChannels checks 16 n (List.range' a m) data D (pre ++ post) = (do
      let (l, D) ← runCalls checks (decCallsFor (Lc3Config.new f d).nf ((List.range' a m).zip (chunksOf n (callCount n data.length) data))) D
      .ok (if m ≤ callCount n data.length then some (data.drop (m * n), D, pre ++ l.map Prod.snd) else none))
  | 0, a, pre, post, data, D, ha, hm, ho, hD => by
    have : post = [] := List.length_eq_zero_iff.1 hm
    subst this
    simp [decFileChannels, decCallsFor, runCalls]
  | m + 1, a, pre, o :: post, data, D, ha, hm, ho, hD => by
    rw [List.range'_succ, decFileChannels]
    by_cases hl : data.length ≤ n
    · rw [callCount_zero hn hl]
      by_cases hd : data = []
      · rw [if_pos hd]
        simp [chunksOf, decCallsFor, runCalls]
      · rw [if_neg hd, if_pos hl]
        simp [chunksOf, decCallsFor, runCalls]
    · have hd : data ≠ [] := by rintro rfl; simp at hl
      have hcc := callCount_step hn (show n < data.length by omega)
      rw [if_neg hd, if_neg hl, idx_eq_ok (by simp [ha]), Res.bind_ok]
      have e1 : (pre ++ o :: post)[a]'(by simp [ha]) = o := by simp [← ha]
      rw [e1, hcc, chunksOf_succ, List.zip_cons_cons]
      simp only [decCallsFor, List.map_cons, runCalls]
      rw [decodeFrame_out_eq hD checks a (data.take n) (ho o (by simp)) (out2 := List.replicate (Lc3Config.new f d).nf 0) (by simp)]
      cases h : decodeFrame checks D 16 a (data.take n) (List.replicate (Lc3Config.new f d).nf 0) with
      | ok p =>
        obtain ⟨r, D1, o1⟩ := p
        obtain ⟨rfl, -, -⟩ := decodeFrame_out hD checks _ _ (by simp) (out2 := List.replicate (Lc3Config.new f d).nf 0) (by simp) h
        simp only [Res.bind_ok]
        have e2 : setIdx (pre ++ o :: post) a o1 = .ok ((pre ++ [o1]) ++ post) := by
          unfold setIdx
          rw [if_pos (by simp [ha])]
          simp [← ha]
        rw [e2, Res.bind_ok, decFileChannels_eq checks hn m (a + 1) (pre ++ [o1]) post (data.drop n) D1 (by simp [ha])
          (by simpa using hm) (fun o' h' => ho o' (by simp [h'])) (Reachable.call hD h), List.length_drop]
        unfold decCallsFor
        cases h2 : runCalls checks (((List.range' (a + 1) m).zip (chunksOf n (callCount n (data.length - n)) (data.drop n))).map
            fun p => (⟨p.1, 16, p.2, List.replicate (Lc3Config.new f d).nf 0⟩ : Call)) D1 with
        | ok q =>
          obtain ⟨l, D2⟩ := q
          simp only [Res.bind_ok, List.map_cons, List.append_assoc, List.singleton_append, List.drop_drop]
          congr 1
          have e3 : n + m * n = (m + 1) * n := by ring
          rw [e3]
          by_cases hc : m ≤ callCount n (data.length - n)
          · rw [if_pos hc, if_pos (by omega)]
          · rw [if_neg hc, if_neg (by omega)]
        | err => rfl
        | panic => rfl
      | err => rfl
      | panic => rfl
  | m + 1, a, pre, [], data, D, ha, hm, ho, hD => by simp at hm

/-- the samples of a frame in the order of the file -/
theorem interleave_eq {nf nch : Nat} {outs : List (List Int)} (h : outs.length = nch) (ho : ∀ o ∈ outs, o.length = nf) :
    interleave nf nch outs = .ok ((List.range nf).flatMap fun i => (List.range nch).map fun c => (outs.getD c []).getD i 0) := by
  have key : ∀ {β : Type} (l : List Nat) (fn : Nat → Res β) (g : Nat → β), (∀ i ∈ l, fn i = .ok (g i)) → l.mapM fn = .ok (l.map g) := by
    intro β l fn g
    induction l with
    | nil => intro _; rfl
    | cons i l ih =>
      intro h
      rw [List.mapM_cons, h i (by simp), Res.bind_ok, ih (fun j hj => h j (by simp [hj])), Res.bind_ok]
      rfl
  unfold interleave
  rw [key _ _ (fun i => (List.range nch).map fun c => (outs.getD c []).getD i 0), Res.bind_ok, List.flatMap_def]
  intro i hi
  rw [List.mem_range] at hi
  apply key
  intro c hc
  rw [List.mem_range] at hc
  rw [idx_eq_ok (by omega), Res.bind_ok]
  have h2 := ho _ (List.getElem_mem (l := outs) (n := c) (by omega))
  rw [idx_eq_ok (by omega), List.getD_eq_getElem _ _ (by omega : c < outs.length), List.getD_eq_getElem _ _ (by omega)]

theorem pcmBytes_succ (nf nch k : Nat) (g : Nat → Nat → Nat → Int) :
    pcmBytes nf nch (k + 1) g = pcmBytes nf nch 1 g ++ pcmBytes nf nch k fun t => g (t + 1) := by
  unfold pcmBytes
  rw [List.range_succ_eq_map, List.flatMap_cons, List.flatMap_map]
  simp

theorem pcmBytes_congr {nf nch k : Nat} {g g' : Nat → Nat → Nat → Int} (h : ∀ t < k, ∀ c < nch, ∀ i < nf, g t c i = g' t c i) :
    pcmBytes nf nch k g = pcmBytes nf nch k g' := by
  unfold pcmBytes
  apply List.flatMap_congr
  intro t ht
  apply List.flatMap_congr
  intro i hi
  apply List.flatMap_congr
  intro c hc
  rw [h t (List.mem_range.1 ht) c (List.mem_range.1 hc) i (List.mem_range.1 hi)]

/-- the frames, when less than one for each channel is left -/
theorem lc3Frames_short {nch n k : Nat} (h : k < nch) (data : List Nat) :
    lc3Frames nch n k data = (List.range' 0 nch).zip (chunksOf n k data) := by
  unfold lc3Frames chunksOf
  apply List.ext_getElem
  · simp; omega
  · intro i h1 h2
    simp only [List.length_map, List.length_range] at h1
    simp only [List.getElem_map, List.getElem_range, List.getElem_zip, List.getElem_range', Nat.one_mul, Nat.zero_add]
    rw [Nat.mod_eq_of_lt (by omega)]

theorem lc3Frames_step (nch n k : Nat) (data : List Nat) :
    lc3Frames nch n (nch + k) data = (List.range' 0 nch).zip (chunksOf n (nch + k) data) ++ lc3Frames nch n k (data.drop (nch * n)) := by
  unfold lc3Frames chunksOf
  apply List.ext_getElem
  · simp
  · intro i h1 h2
    simp only [List.length_map, List.length_range] at h1
    rw [List.getElem_append]
    simp only [List.length_zip, List.length_range', List.length_map, List.length_range, Nat.min_eq_left (Nat.le_add_right nch k)]
    split
    · rename_i h3
      simp only [List.getElem_map, List.getElem_range, List.getElem_zip, List.getElem_range', Nat.one_mul, Nat.zero_add]
      rw [Nat.mod_eq_of_lt h3]
    · rename_i h3
      simp only [List.getElem_map, List.getElem_range, List.drop_drop]
      have e : i = (i - nch) + nch := by omega
      congr 1
      · conv_lhs => rw [e, Nat.add_mod_right]
      · congr 2
        rw [← Nat.add_mul]
        congr 1
        omega

theorem callCount_drop {n len : Nat} (hn : 0 < n) : ∀ (m : Nat), m ≤ callCount n len → callCount n len = m + callCount n (len - m * n)
  | 0, _ => by simp
  | m + 1, h => by
    have ih := callCount_drop (len := len) hn m (by omega)
    have hgt : n < len - m * n := by
      by_contra hc
      rw [callCount_zero hn (show len - m * n ≤ n by omega)] at ih
      omega
    rw [ih, callCount_step hn hgt]
    have : len - m * n - n = len - (m + 1) * n := by rw [Nat.add_mul]; omega
    rw [this]; omega

/-- the whole loop -/
theorem decFileFrames_eq {f : SamplingFrequency} {d : FrameDuration} (checks : Bool) {n nch : Nat} (hn : 0 < n) (hc : 0 < nch) :
    ∀ (fuel : Nat) (data : List Nat) (D : Decoder α) (outs : List (List Int)), data.length < fuel → outs.length = nch →
    (∀ o ∈ outs, o.length = (Lc3Config.new f d).nf) → Reachable f d D →
    decFileFrames checks (Lc3Config.new f d).nf nch 16 n fuel data D outs = (do
      let (l, _) ← runCalls checks (decCallsFor (Lc3Config.new f d).nf (lc3Frames nch n (callCount n data.length) data)) D
      .ok (pcmBytes (Lc3Config.new f d).nf nch (callCount n data.length / nch) fun t c i => (l.getD (t * nch + c) (.ok, [])).2.getD i 0))
  | 0, data, D, outs, hf, _, _, _ => by omega
  | fuel + 1, data, D, outs, hf, ho, hol, hD => by
    have hch := decFileChannels_eq (f := f) (d := d) checks hn nch 0 [] outs data D rfl ho hol hD
    rw [List.nil_append] at hch
    rw [decFileFrames, List.range_eq_range', hch]
    by_cases hk : callCount n data.length < nch
    · rw [lc3Frames_short hk, Nat.div_eq_of_lt hk]
      simp only [if_neg (show ¬ nch ≤ callCount n data.length by omega)]
      cases h : runCalls checks (decCallsFor (Lc3Config.new f d).nf ((List.range' 0 nch).zip (chunksOf n (callCount n data.length) data))) D with
      | ok q => simp [pcmBytes]
      | err => rfl
      | panic => rfl
    · have hk' : nch ≤ callCount n data.length := by omega
      have hcd := callCount_drop hn nch hk'
      have hpos : 0 < data.length := by
        by_contra h0
        have := callCount_zero hn (show data.length ≤ n by omega)
        omega
      have hfr : lc3Frames nch n (callCount n data.length) data =
          (List.range' 0 nch).zip (chunksOf n (callCount n data.length) data) ++
            lc3Frames nch n (callCount n (data.length - nch * n)) (data.drop (nch * n)) := by
        rw [hcd]; exact lc3Frames_step _ _ _ _
      have ea : ∀ a b, decCallsFor (Lc3Config.new f d).nf (a ++ b) =
          decCallsFor (Lc3Config.new f d).nf a ++ decCallsFor (Lc3Config.new f d).nf b := fun a b => by simp [decCallsFor]
      rw [hfr, ea, runCalls_append]
      simp only [if_pos hk']
      cases h : runCalls checks (decCallsFor (Lc3Config.new f d).nf ((List.range' 0 nch).zip (chunksOf n (callCount n data.length) data))) D with
      | ok q =>
        obtain ⟨l, D1⟩ := q
        obtain ⟨hD1, hl1, hl2⟩ := runCalls_post _ _ _ _ hD h
        have hll : l.length = nch := by
          rw [hl1]; simp [chunksOf]; omega
        have hm1 : (l.map Prod.snd).length = nch := by simp [hll]
        have hm2 : ∀ o ∈ l.map Prod.snd, o.length = (Lc3Config.new f d).nf := by
          intro o ho
          obtain ⟨p, hp, rfl⟩ := List.mem_map.1 ho
          exact (hl2 p hp).2
        simp only [Res.bind_ok, List.nil_append]
        rw [interleave_eq hm1 hm2, Res.bind_ok]
        have hlen : ((List.range (Lc3Config.new f d).nf).flatMap fun i => (List.range nch).map fun c => ((l.map Prod.snd).getD c []).getD i 0).length =
            (Lc3Config.new f d).nf * nch := by
          simp [List.length_flatMap]
        rw [if_neg (by
          rw [hlen, ne_eq, not_not]
          have : nch * (Lc3Config.new f d).nf * 16 = 2 * ((Lc3Config.new f d).nf * nch) * 8 := by ring
          rw [this, Nat.mul_div_cancel _ (by omega)])]
        rw [decFileFrames_eq checks hn hc fuel (data.drop (nch * n)) D1 (l.map Prod.snd)
          (by rw [List.length_drop]; have : 0 < nch * n := Nat.mul_pos hc hn; omega) hm1 hm2 hD1, List.length_drop]
        cases h2 : runCalls checks (decCallsFor (Lc3Config.new f d).nf
            (lc3Frames nch n (callCount n (data.length - nch * n)) (data.drop (nch * n)))) D1 with
        | ok q2 =>
          obtain ⟨l2, D2⟩ := q2
          simp only [Res.bind_ok]
          rw [hcd, Nat.add_div_left _ hc, pcmBytes_succ]
          congr 2
          · rw [writeI16s_eq]
            unfold pcmBytes
            simp only [List.range_one, List.flatMap_cons, List.flatMap_nil, List.append_nil, List.flatMap_assoc]
            apply List.flatMap_congr
            intro i _
            rw [List.flatMap_map]
            apply List.flatMap_congr
            intro c hc
            rw [List.mem_range] at hc
            rw [Nat.zero_mul, Nat.zero_add, List.getD_append _ _ _ _ (by omega), List.getD_eq_getElem _ _ (by omega : c < (l.map Prod.snd).length),
              List.getD_eq_getElem _ _ (by omega : c < l.length), List.getElem_map]
          · apply pcmBytes_congr
            intro t _ c _ i _
            have e : (t + 1) * nch + c = l.length + (t * nch + c) := by rw [hll]; ring
            rw [e, List.getD_append_right _ _ _ _ (by omega)]
            congr 3
            omega
        | err => rfl
        | panic => rfl
      | err => rfl
      | panic => rfl

end Lc3
