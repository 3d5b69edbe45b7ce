import Verif.Lemmas.SafeRead
/-! `readFrame` on arbitrary bytes (C06). -/

namespace Lc3
open SamplingFrequency FrameDuration

/-- the frame lengths for which a one-bit field of the side information can be read beyond the start of the frame -/
def shortLens : SamplingFrequency → FrameDuration → List Nat
  | hz8000, sevenPointFiveMs => []
  | hz16000, sevenPointFiveMs => [7]
  | hz8000, tenMs => [2]
  | hz16000, tenMs => [1, 4]
  | _, _ => [4]

/-- proves `SideCond` for numeric widths -/
local macro "side_cond" : tactic =>
  `(tactic| (constructor <;> norm_num [bytesFor] <;> omega))

theorem safe_readSideInfo_config (f : SamplingFrequency) (d : FrameDuration) (buf : List Nat)
    (h : buf.length ∉ shortLens f d) :
    Safe (readSideInfo buf Reader.new (Lc3Config.new f d).fsInd (Lc3Config.new f d).ne)
      (fun p => SideBounds (Lc3Config.new f d) p.1 ∧ p.2.head = 0 ∧ 16 ≤ p.2.tail) := by
  obtain ⟨n, hn⟩ : ∃ n, n = buf.length := ⟨_, rfl⟩
  rw [← hn] at h
  cases f <;> cases d <;> simp only [shortLens, List.mem_cons, List.not_mem_nil, or_false, not_or] at h
  · exact safe_readSideInfo (cfg := Lc3Config.new hz8000 sevenPointFiveMs) (nb := 0) (L := 5) (by decide) (by decide) (by decide)
      (by decide) (by decide) (by rw [← hn]; side_cond) (by rw [← hn]; intro h3; exact absurd h3 (by decide))
  · exact safe_readSideInfo (cfg := Lc3Config.new hz8000 tenMs) (nb := 0) (L := 6) (by decide) (by decide) (by decide)
      (by decide) (by decide) (by rw [← hn]; side_cond) (by rw [← hn]; intro h3; exact absurd h3 (by decide))
  · exact safe_readSideInfo (cfg := Lc3Config.new hz16000 sevenPointFiveMs) (nb := 1) (L := 6) (by decide) (by decide) (by decide)
      (by decide) (by decide) (by rw [← hn]; side_cond) (by rw [← hn]; intro h3; exact absurd h3 (by decide))
  · exact safe_readSideInfo (cfg := Lc3Config.new hz16000 tenMs) (nb := 1) (L := 7) (by decide) (by decide) (by decide)
      (by decide) (by decide) (by rw [← hn]; side_cond) (by rw [← hn]; intro h3; exact absurd h3 (by decide))
  · exact safe_readSideInfo (cfg := Lc3Config.new hz24000 sevenPointFiveMs) (nb := 2) (L := 7) (by decide) (by decide) (by decide)
      (by decide) (by decide) (by rw [← hn]; side_cond) (by rw [← hn]; intro h3; exact absurd h3 (by decide))
  · exact safe_readSideInfo (cfg := Lc3Config.new hz24000 tenMs) (nb := 2) (L := 7) (by decide) (by decide) (by decide)
      (by decide) (by decide) (by rw [← hn]; side_cond) (by rw [← hn]; intro h3; exact absurd h3 (by decide))
  · exact safe_readSideInfo (cfg := Lc3Config.new hz32000 sevenPointFiveMs) (nb := 2) (L := 7) (by decide) (by decide) (by decide)
      (by decide) (by decide) (by rw [← hn]; side_cond) (by rw [← hn]; intro _; side_cond)
  · exact safe_readSideInfo (cfg := Lc3Config.new hz32000 tenMs) (nb := 2) (L := 8) (by decide) (by decide) (by decide)
      (by decide) (by decide) (by rw [← hn]; side_cond) (by rw [← hn]; intro _; side_cond)
  · exact safe_readSideInfo (cfg := Lc3Config.new hz44100 sevenPointFiveMs) (nb := 3) (L := 8) (by decide) (by decide) (by decide)
      (by decide) (by decide) (by rw [← hn]; side_cond) (by rw [← hn]; intro _; side_cond)
  · exact safe_readSideInfo (cfg := Lc3Config.new hz44100 tenMs) (nb := 3) (L := 8) (by decide) (by decide) (by decide)
      (by decide) (by decide) (by rw [← hn]; side_cond) (by rw [← hn]; intro _; side_cond)
  · exact safe_readSideInfo (cfg := Lc3Config.new hz48000 sevenPointFiveMs) (nb := 3) (L := 8) (by decide) (by decide) (by decide)
      (by decide) (by decide) (by rw [← hn]; side_cond) (by rw [← hn]; intro _; side_cond)
  · exact safe_readSideInfo (cfg := Lc3Config.new hz48000 tenMs) (nb := 3) (L := 8) (by decide) (by decide) (by decide)
      (by decide) (by decide) (by rw [← hn]; side_cond) (by rw [← hn]; intro _; side_cond)

theorem safe_readFrame (f : SamplingFrequency) (d : FrameDuration) (buf : List Nat)
    (h : buf.length ∉ shortLens f d) :
    Safe (readFrame false (Lc3Config.new f d) buf) (fun p =>
      SideBounds (Lc3Config.new f d) p.1 ∧
      DataBounds (Lc3Config.new f d) p.1 (buf.length * 8) p.2.1 p.2.2) := by
  have hside := safe_readSideInfo_config f d buf h
  have hne : (Lc3Config.new f d).ne ≤ 400 := by cases f <;> cases d <;> decide
  unfold readFrame
  refine hside.bind ?_
  rintro ⟨si, r⟩ ⟨h1, h2, h3⟩
  simp only at h1 h2 h3 ⊢
  refine (safe_arithDecode hne h1 (by omega)).bind ?_
  rintro ⟨⟨ad, x⟩, r'⟩ h4
  exact ⟨h1, h4⟩

end Lc3
