import Verif.Model.Wav
import Verif.Spec.Wav
import Mathlib.Tactic.NormNum
/-! # C40: WAV headers -/

namespace Lc3
open Spec

theorem sliceOf_ok {buf : List Nat} {a b : Nat} (h1 : a ≤ b) (h2 : b ≤ buf.length) :
    sliceOf buf a b = .ok (bytesAt buf a (b - a)) := by
  unfold sliceOf bytesAt
  rw [if_pos ⟨h1, h2⟩, List.drop_take]

theorem readLe16_ok {s : List Nat} (h : s.length = 2) : readLe16 s = .ok (leValue s) := by
  match s, h with
  | [a, b], _ => simp [readLe16, leValue]

theorem readLe32_ok {s : List Nat} (h : s.length = 4) : readLe32 s = .ok (leValue s) := by
  match s, h with
  | [a, b, c, d], _ => simp only [readLe32, leValue, Res.ok.injEq]; omega

theorem bytesAt_length {buf : List Nat} {pos n : Nat} (h : pos + n ≤ buf.length) : (bytesAt buf pos n).length = n := by
  unfold bytesAt
  rw [List.length_take, List.length_drop]; omega

/-- **C40** (parsing) Parsing any byte string returns; it returns a header exactly for the byte strings that begin with a PCM header
and a data or LIST section, and then the fields are the numbers at their positions. -/
theorem C40_read (buf : List Nat) : ∃ r, readWavHeader buf = .ok r ∧ ((∃ h, r = .ok h) ↔ ValidWav buf) ∧
    ∀ h, r = .ok h → h.dataWithHeaderSize = numAt buf 4 4 ∧ h.numChannels = numAt buf 22 2 ∧ h.sampleRate = numAt buf 24 4 ∧
      h.byteRate = numAt buf 28 4 ∧ h.blockAlign = numAt buf 32 2 ∧ h.bitsPerSample = numAt buf 34 2 ∧
      h.dataSize = numAt buf 40 4 ∧ h.dataStartPosition = (if bytesAt buf 36 4 = ascii "data" then 44 else 48) := by
  have a1 : ascii "RIFF" = [0x52, 0x49, 0x46, 0x46] := by decide
  have a2 : ascii "WAVE" = [0x57, 0x41, 0x56, 0x45] := by decide
  have a3 : ascii "fmt " = [0x66, 0x6D, 0x74, 0x20] := by decide
  have a4 : ascii "data" = [0x64, 0x61, 0x74, 0x61] := by decide
  have a5 : ascii "LIST" = [0x4C, 0x49, 0x53, 0x54] := by decide
  unfold ValidWav
  rw [a1, a2, a3, a4, a5]
  by_cases hl : buf.length < 44
  · refine ⟨.error .readHeaderInvalidHeaderLength, by unfold readWavHeader FULL_WAV_HEADER_LEN; rw [if_pos hl], ?_, ?_⟩
    · constructor
      · rintro ⟨h, e⟩; cases e
      · rintro ⟨h, -⟩; omega
    · intro h e; cases e
  · have h44 : 44 ≤ buf.length := by omega
    have hs : ∀ a b : Nat, a ≤ b → b ≤ 44 → sliceOf buf a b = .ok (bytesAt buf a (b - a)) := fun a b h1 h2 => sliceOf_ok h1 (by omega)
    have r4 : ∀ a : Nat, a + 4 ≤ 44 → readLe32 (bytesAt buf a 4) = .ok (numAt buf a 4) := fun a h => readLe32_ok (bytesAt_length (by omega))
    have r2 : ∀ a : Nat, a + 2 ≤ 44 → readLe16 (bytesAt buf a 2) = .ok (numAt buf a 2) := fun a h => readLe16_ok (bytesAt_length (by omega))
    have bad : ∀ e : WavError, (∃ h : WavHeader, (Except.error e : Except WavError WavHeader) = .ok h) ↔ False :=
      fun e => ⟨(by rintro ⟨h, hh⟩; cases hh), False.elim⟩
    unfold readWavHeader FULL_WAV_HEADER_LEN
    rw [if_neg hl, hs 0 4 (by omega) (by omega), Res.bind_ok]
    by_cases c1 : bytesAt buf 0 (4 - 0) = [0x52, 0x49, 0x46, 0x46]
    swap
    · rw [if_pos c1]
      refine ⟨_, rfl, (bad _).trans ⟨False.elim, fun h => c1 h.2.1⟩, fun h e => by cases e⟩
    rw [if_neg (not_not.2 c1), hs 8 12 (by omega) (by omega), Res.bind_ok]
    by_cases c2 : bytesAt buf 8 (12 - 8) = [0x57, 0x41, 0x56, 0x45]
    swap
    · rw [if_pos c2]
      refine ⟨_, rfl, (bad _).trans ⟨False.elim, fun h => c2 h.2.2.1⟩, fun h e => by cases e⟩
    rw [if_neg (not_not.2 c2), hs 12 16 (by omega) (by omega), Res.bind_ok]
    by_cases c3 : bytesAt buf 12 (16 - 12) = [0x66, 0x6D, 0x74, 0x20]
    swap
    · rw [if_pos c3]
      refine ⟨_, rfl, (bad _).trans ⟨False.elim, fun h => c3 h.2.2.2.1⟩, fun h e => by cases e⟩
    rw [if_neg (not_not.2 c3), hs 16 20 (by omega) (by omega), Res.bind_ok, r4 16 (by omega), Res.bind_ok]
    by_cases c4 : numAt buf 16 4 = 16
    swap
    · rw [if_pos c4]
      refine ⟨_, rfl, (bad _).trans ⟨False.elim, fun h => c4 h.2.2.2.2.1⟩, fun h e => by cases e⟩
    rw [if_neg (not_not.2 c4), hs 20 22 (by omega) (by omega), Res.bind_ok, r2 20 (by omega), Res.bind_ok]
    by_cases c5 : numAt buf 20 2 = 1
    swap
    · rw [if_pos c5]
      refine ⟨_, rfl, (bad _).trans ⟨False.elim, fun h => c5 h.2.2.2.2.2.1⟩, fun h e => by cases e⟩
    rw [if_neg (not_not.2 c5), hs 4 8 (by omega) (by omega), Res.bind_ok, r4 4 (by omega), Res.bind_ok,
      hs 22 24 (by omega) (by omega), Res.bind_ok, r2 22 (by omega), Res.bind_ok,
      hs 24 28 (by omega) (by omega), Res.bind_ok, r4 24 (by omega), Res.bind_ok,
      hs 28 32 (by omega) (by omega), Res.bind_ok, r4 28 (by omega), Res.bind_ok,
      hs 32 34 (by omega) (by omega), Res.bind_ok, r2 32 (by omega), Res.bind_ok,
      hs 34 36 (by omega) (by omega), Res.bind_ok, r2 34 (by omega), Res.bind_ok,
      hs 36 40 (by omega) (by omega), Res.bind_ok, hs 40 44 (by omega) (by omega), Res.bind_ok, r4 40 (by omega), Res.bind_ok]
    by_cases c6 : bytesAt buf 36 4 = [0x64, 0x61, 0x74, 0x61]
    · rw [if_pos c6]
      refine ⟨_, rfl, ⟨fun _ => ⟨h44, c1, c2, c3, c4, c5, .inl c6⟩, fun _ => ⟨_, rfl⟩⟩, ?_⟩
      intro h e
      cases e
      exact ⟨rfl, rfl, rfl, rfl, rfl, rfl, rfl, by rw [if_pos c6]⟩
    · rw [if_neg c6]
      by_cases c7 : bytesAt buf 36 4 = [0x4C, 0x49, 0x53, 0x54]
      · rw [if_pos c7]
        simp only [Res.bind_ok]
        rw [r4 40 (by omega), Res.bind_ok]
        refine ⟨_, rfl, ⟨fun _ => ⟨h44, c1, c2, c3, c4, c5, .inr c7⟩, fun _ => ⟨_, rfl⟩⟩, ?_⟩
        intro h e
        cases e
        exact ⟨rfl, rfl, rfl, rfl, rfl, rfl, rfl, by rw [if_neg c6]⟩
      · rw [if_neg c7]
        refine ⟨_, rfl, (bad _).trans ⟨False.elim, fun h => ?_⟩, fun h e => by cases e⟩
        rcases h.2.2.2.2.2.2 with h | h
        · exact c6 h
        · exact c7 h

theorem copyTo_ok {p r v : List Nat} {a b : Nat} (hp : p.length = a) (hv : v.length = b - a) (hab : a ≤ b) (hr : b - a ≤ r.length) :
    copyTo (p ++ r) a b v = .ok ((p ++ v) ++ r.drop (b - a)) := by
  unfold copyTo
  rw [if_pos ⟨hab, by rw [List.length_append]; omega, hv⟩, List.take_left' hp]
  have : (p ++ r).drop b = r.drop (b - a) := by
    rw [List.drop_append, List.drop_of_length_le (by omega), hp, List.nil_append]
  rw [this]

/-- the fields of a header that a WAV file can hold -/
def FitsWav (h : WavHeader) : Prop :=
  h.numChannels < 2 ^ 16 ∧ h.sampleRate < 2 ^ 32 ∧ h.byteRate < 2 ^ 32 ∧ h.blockAlign < 2 ^ 16 ∧ h.bitsPerSample < 2 ^ 16 ∧
    h.dataSize < 2 ^ 32 ∧ h.dataWithHeaderSize < 2 ^ 32

/-- the 44 bytes -/
theorem writeWavHeader_eq {h : WavHeader} {buf : List Nat} (hl : 44 ≤ buf.length) :
    writeWavHeader h buf = .ok ([0x52, 0x49, 0x46, 0x46] ++ le32 h.dataWithHeaderSize ++ [0x57, 0x41, 0x56, 0x45] ++
      [0x66, 0x6D, 0x74, 0x20] ++ le32 16 ++ le16 1 ++ le16 h.numChannels ++ le32 h.sampleRate ++ le32 h.byteRate ++ le16 h.blockAlign ++
      le16 h.bitsPerSample ++ [0x64, 0x61, 0x74, 0x61] ++ le32 h.dataSize ++ buf.drop 44, .ok 44) := by
  unfold writeWavHeader FULL_WAV_HEADER_LEN
  have e0 : copyTo buf 0 4 [0x52, 0x49, 0x46, 0x46] = .ok ([0x52, 0x49, 0x46, 0x46] ++ buf.drop 4) := by
    have := copyTo_ok (p := []) (r := buf) (v := [0x52, 0x49, 0x46, 0x46]) (a := 0) (b := 4) rfl rfl (by omega) (by omega)
    simpa using this
  rw [if_neg (by omega), e0, Res.bind_ok]
  rw [copyTo_ok (a := 4) (b := 8) rfl rfl (by omega) (by simp only [List.length_drop]; omega), Res.bind_ok, List.drop_drop]
  rw [copyTo_ok (a := 8) (b := 12) rfl rfl (by omega) (by simp only [List.length_drop]; omega), Res.bind_ok, List.drop_drop]
  rw [copyTo_ok (a := 12) (b := 16) rfl rfl (by omega) (by simp only [List.length_drop]; omega), Res.bind_ok, List.drop_drop]
  rw [copyTo_ok (a := 16) (b := 20) rfl rfl (by omega) (by simp only [List.length_drop]; omega), Res.bind_ok, List.drop_drop]
  rw [copyTo_ok (a := 20) (b := 22) rfl rfl (by omega) (by simp only [List.length_drop]; omega), Res.bind_ok, List.drop_drop]
  rw [copyTo_ok (a := 22) (b := 24) rfl rfl (by omega) (by simp only [List.length_drop]; omega), Res.bind_ok, List.drop_drop]
  rw [copyTo_ok (a := 24) (b := 28) rfl rfl (by omega) (by simp only [List.length_drop]; omega), Res.bind_ok, List.drop_drop]
  rw [copyTo_ok (a := 28) (b := 32) rfl rfl (by omega) (by simp only [List.length_drop]; omega), Res.bind_ok, List.drop_drop]
  rw [copyTo_ok (a := 32) (b := 34) rfl rfl (by omega) (by simp only [List.length_drop]; omega), Res.bind_ok, List.drop_drop]
  rw [copyTo_ok (a := 34) (b := 36) rfl rfl (by omega) (by simp only [List.length_drop]; omega), Res.bind_ok, List.drop_drop]
  rw [copyTo_ok (a := 36) (b := 40) rfl rfl (by omega) (by simp only [List.length_drop]; omega), Res.bind_ok, List.drop_drop]
  rw [copyTo_ok (a := 40) (b := 44) rfl rfl (by omega) (by simp only [List.length_drop]; omega), Res.bind_ok, List.drop_drop]

set_option maxHeartbeats 1000000 in
/-- **C40** (writing) A header whose fields fit their widths is written into the first 44 bytes of a buffer, leaving the rest of the
buffer alone, and reading it back gives the same fields, with the position of the data behind the header. A buffer
that is too short is refused and left alone. -/
theorem C40_write {h : WavHeader} {buf : List Nat} :
    (buf.length < 44 → writeWavHeader h buf = .ok (buf, .error .writeHeaderBufferTooSmall)) ∧
    (44 ≤ buf.length → FitsWav h → ∃ buf', writeWavHeader h buf = .ok (buf', .ok 44) ∧ buf'.length = buf.length ∧
      buf'.drop 44 = buf.drop 44 ∧ (∀ b ∈ buf'.take 44, b < 256) ∧
      readWavHeader buf' = .ok (.ok { h with dataStartPosition := 44 })) := by
  refine ⟨fun hl => by unfold writeWavHeader FULL_WAV_HEADER_LEN; rw [if_pos hl], ?_⟩
  rintro hl ⟨f1, f2, f3, f4, f5, f6, f7⟩
  refine ⟨_, writeWavHeader_eq hl, ?_, ?_, ?_, ?_⟩
  · simp only [le32, le16, List.length_append, List.length_cons, List.length_nil, List.length_drop]
    omega
  · exact List.drop_left' rfl
  · rw [List.take_left' (i := 44) rfl]
    intro b hb
    simp only [le32, le16, List.mem_append, List.mem_cons, List.not_mem_nil, or_false] at hb
    omega
  · obtain ⟨B, hB⟩ : ∃ B, B = [0x52, 0x49, 0x46, 0x46] ++ le32 h.dataWithHeaderSize ++ [0x57, 0x41, 0x56, 0x45] ++
      [0x66, 0x6D, 0x74, 0x20] ++ le32 16 ++ le16 1 ++ le16 h.numChannels ++ le32 h.sampleRate ++ le32 h.byteRate ++ le16 h.blockAlign ++
      le16 h.bitsPerSample ++ [0x64, 0x61, 0x74, 0x61] ++ le32 h.dataSize ++ buf.drop 44 := ⟨_, rfl⟩
    rw [← hB]
    have v32 : ∀ x, x < 2 ^ 32 → leValue (le32 x) = x := by
      intro x hx
      simp only [le32, leValue]
      omega
    have v16 : ∀ x, x < 2 ^ 16 → leValue (le16 x) = x := by
      intro x hx
      simp only [le16, leValue]
      omega
    have n1 : numAt B 4 4 = h.dataWithHeaderSize := by rw [hB]; exact v32 _ f7
    have n2 : numAt B 22 2 = h.numChannels := by rw [hB]; exact v16 _ f1
    have n3 : numAt B 24 4 = h.sampleRate := by rw [hB]; exact v32 _ f2
    have n4 : numAt B 28 4 = h.byteRate := by rw [hB]; exact v32 _ f3
    have n5 : numAt B 32 2 = h.blockAlign := by rw [hB]; exact v16 _ f4
    have n6 : numAt B 34 2 = h.bitsPerSample := by rw [hB]; exact v16 _ f5
    have n7 : numAt B 40 4 = h.dataSize := by rw [hB]; exact v32 _ f6
    have hd : bytesAt B 36 4 = ascii "data" := by rw [hB]; rfl
    have hv : ValidWav B := by
      refine ⟨?_, ?_, ?_, ?_, ?_, ?_, .inl hd⟩
      · rw [hB]
        simp only [le32, le16, List.length_append, List.length_cons, List.length_nil]
        omega
      all_goals rw [hB]; rfl
    obtain ⟨r, e1, e2, e3⟩ := C40_read B
    obtain ⟨h', rfl⟩ := e2.2 hv
    obtain ⟨g1, g2, g3, g4, g5, g6, g7, g8⟩ := e3 h' rfl
    rw [if_pos hd] at g8
    rw [e1, ← n1, ← n2, ← n3, ← n4, ← n5, ← n6, ← n7, ← g1, ← g2, ← g3, ← g4, ← g5, ← g6, ← g7, ← g8]

/-- a stereo header at 44.1 kHz -/
example : FitsWav ⟨2, 44100, 176400, 4, 16, 731248, 44, 731414⟩ := by
  refine ⟨?_, ?_, ?_, ?_, ?_, ?_, ?_⟩ <;> norm_num

example : ∃ buf, writeWavHeader ⟨2, 44100, 176400, 4, 16, 731248, 44, 731414⟩ (List.replicate 50 7) = .ok (buf, .ok 44) ∧
    buf = [0x52, 0x49, 0x46, 0x46, 0x16, 0x29, 0x0B, 0x00, 0x57, 0x41, 0x56, 0x45, 0x66, 0x6D, 0x74, 0x20, 0x10, 0x00,
      0x00, 0x00, 0x01, 0x00, 0x02, 0x00, 0x44, 0xAC, 0x00, 0x00, 0x10, 0xB1, 0x02, 0x00, 0x04, 0x00, 0x10, 0x00,
      0x64, 0x61, 0x74, 0x61, 0x70, 0x28, 0x0B, 0x00, 7, 7, 7, 7, 7, 7] := ⟨_, rfl, rfl⟩

end Lc3
