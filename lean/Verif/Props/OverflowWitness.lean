import Verif.Model.ReadFrame
/-!
# A frame whose noise seed overflows an `i32`

`decoder/arithmetic_codec.rs` 140 sums `|x_k| * k` over the quantised lines in an `i32`. The 900 bytes below are
accepted by the parser at 48 kHz, 10 ms and carry 242 lines of 32767: the sum passes 2^31 and a build with overflow checks
panics.
-/

namespace Lc3

set_option maxRecDepth 20000

/-- 900 bytes, written by the integer model of the encoder -/
def overflowFrame : List Nat :=
  [0, 0, 0, 0, 0, 0, 0, 0, 0, 0, 0, 0, 0, 10, 139, 248, 171, 119, 192, 73, 37, 114, 38, 184,
   229, 204, 207, 228, 148, 135, 50, 138, 54, 135, 101, 57, 37, 150, 162, 20, 164, 119, 111, 67, 103, 15, 37, 167,
   249, 250, 6, 237, 81, 199, 152, 171, 54, 208, 85, 168, 69, 126, 209, 17, 206, 184, 37, 202, 149, 57, 166, 120,
   254, 237, 188, 255, 172, 150, 134, 78, 24, 206, 44, 108, 202, 224, 58, 253, 153, 153, 0, 6, 88, 45, 14, 146,
   169, 163, 29, 38, 98, 87, 233, 184, 215, 197, 240, 184, 52, 99, 33, 112, 156, 226, 210, 227, 3, 34, 7, 223,
   144, 198, 14, 226, 233, 24, 132, 224, 68, 148, 244, 76, 156, 29, 107, 74, 90, 79, 114, 81, 42, 110, 163, 6,
   38, 148, 84, 119, 25, 109, 140, 182, 143, 35, 147, 187, 58, 70, 6, 112, 55, 34, 225, 148, 192, 69, 81, 5,
   182, 103, 195, 185, 1, 72, 51, 44, 1, 103, 14, 78, 98, 71, 128, 254, 22, 105, 240, 116, 88, 140, 199, 73,
   0, 217, 162, 109, 141, 252, 114, 192, 146, 146, 54, 4, 207, 33, 114, 7, 200, 180, 72, 223, 183, 4, 202, 35,
   215, 214, 6, 45, 86, 38, 135, 113, 149, 247, 195, 122, 39, 254, 75, 189, 208, 1, 45, 227, 198, 63, 54, 121,
   35, 65, 156, 211, 159, 68, 2, 84, 80, 71, 115, 205, 243, 139, 217, 71, 174, 132, 235, 175, 57, 221, 237, 42,
   21, 217, 206, 165, 218, 31, 64, 36, 106, 33, 165, 170, 178, 209, 189, 36, 82, 215, 253, 190, 86, 250, 75, 64,
   163, 59, 110, 193, 129, 176, 166, 155, 137, 147, 195, 53, 145, 181, 161, 13, 119, 215, 123, 173, 18, 230, 213, 143,
   168, 155, 74, 41, 173, 83, 115, 166, 142, 225, 45, 132, 153, 137, 162, 33, 217, 193, 13, 158, 193, 210, 199, 128,
   11, 61, 26, 120, 179, 30, 209, 21, 250, 148, 138, 241, 220, 250, 255, 143, 39, 182, 148, 135, 208, 83, 50, 112,
   45, 254, 231, 156, 239, 210, 83, 130, 55, 77, 94, 2, 55, 77, 94, 2, 55, 77, 94, 2, 55, 77, 94, 2,
   55, 77, 94, 2, 55, 77, 94, 2, 55, 77, 94, 2, 55, 77, 94, 2, 55, 77, 94, 2, 55, 77, 94, 2,
   55, 77, 94, 2, 55, 77, 94, 2, 55, 77, 94, 2, 55, 77, 94, 2, 55, 77, 94, 2, 55, 77, 94, 2,
   55, 77, 94, 2, 55, 77, 94, 2, 55, 77, 94, 2, 55, 77, 94, 2, 55, 77, 94, 2, 55, 77, 94, 2,
   55, 77, 94, 2, 55, 77, 94, 2, 55, 76, 128, 0, 3, 255, 255, 255, 63, 255, 255, 243, 255, 255, 255, 63,
   255, 255, 243, 255, 255, 255, 63, 255, 255, 243, 255, 255, 255, 63, 255, 255, 243, 255, 255, 255, 63, 255, 255, 243,
   255, 255, 255, 63, 255, 255, 243, 255, 255, 255, 63, 255, 255, 243, 255, 255, 255, 63, 255, 255, 243, 255, 255, 255,
   63, 255, 255, 243, 255, 255, 255, 63, 255, 255, 243, 255, 255, 255, 63, 255, 255, 243, 255, 255, 255, 63, 255, 255,
   243, 255, 255, 255, 63, 255, 255, 243, 255, 255, 255, 63, 255, 255, 243, 255, 255, 255, 63, 255, 255, 243, 255, 255,
   255, 63, 255, 255, 243, 255, 255, 255, 63, 255, 255, 243, 255, 255, 255, 63, 255, 255, 243, 255, 255, 255, 63, 255,
   255, 243, 255, 255, 255, 63, 255, 255, 243, 255, 255, 255, 63, 255, 255, 243, 255, 255, 255, 63, 255, 255, 243, 255,
   255, 255, 63, 255, 255, 243, 255, 255, 255, 63, 255, 255, 243, 255, 255, 255, 63, 255, 255, 243, 255, 255, 255, 63,
   255, 255, 243, 255, 255, 255, 63, 255, 255, 243, 255, 255, 255, 63, 255, 255, 243, 255, 255, 255, 63, 255, 255, 243,
   255, 255, 255, 63, 255, 255, 243, 255, 255, 255, 63, 255, 255, 243, 255, 255, 255, 63, 255, 255, 243, 255, 255, 255,
   63, 255, 255, 243, 255, 255, 255, 63, 255, 255, 243, 255, 255, 255, 63, 255, 255, 243, 255, 255, 255, 63, 255, 255,
   243, 255, 255, 255, 63, 255, 255, 243, 255, 255, 255, 63, 255, 255, 243, 255, 255, 255, 63, 255, 255, 243, 255, 255,
   255, 63, 255, 255, 243, 255, 255, 255, 63, 255, 255, 243, 255, 255, 255, 63, 255, 255, 243, 255, 255, 255, 63, 255,
   255, 243, 255, 255, 255, 63, 255, 255, 243, 255, 255, 255, 63, 255, 255, 243, 255, 255, 255, 63, 255, 255, 243, 255,
   255, 255, 63, 255, 255, 243, 255, 255, 255, 63, 255, 255, 243, 255, 255, 255, 63, 255, 255, 243, 255, 255, 255, 63,
   255, 255, 243, 255, 255, 255, 63, 255, 255, 243, 255, 255, 255, 63, 255, 255, 243, 255, 255, 255, 63, 255, 255, 243,
   255, 255, 255, 63, 255, 255, 243, 255, 255, 255, 63, 255, 255, 243, 255, 255, 255, 63, 255, 255, 243, 255, 255, 255,
   63, 255, 255, 243, 255, 255, 255, 63, 255, 255, 243, 255, 255, 255, 63, 255, 255, 243, 255, 255, 255, 63, 255, 255,
   243, 255, 255, 255, 96, 6, 7, 38, 113, 134, 70, 60]

/-- with overflow checks, reading the frame panics -/
theorem overflowFrame_panics :
    readFrame true (Lc3Config.new .hz48000 .tenMs) overflowFrame = .panic := by
  decide +kernel

theorem overflowFrame_length : overflowFrame.length = 900 := by decide +kernel

theorem overflowFrame_bytes : ∀ b ∈ overflowFrame, b < 256 := by decide +kernel

end Lc3
