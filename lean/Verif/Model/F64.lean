import Verif.Model.F32
/-!
# Integers computed with floating point

Some integers of the code take a detour over floating point: a quotient rounded in `f64`, the pitch lag in `f64`, integer parts of logarithms
and of a square root. The other files of the model have the integers directly. Here are the expressions of the code; C113 proves that they give the same. A
value of `f64` is a rational number; nothing here comes near the largest or the smallest one, so infinities and NaN are left out.
-/

namespace Lc3.F64

/-- exponent of the unit in the last place of the binade of `q` (53 bit significand, smallest exponent -1074) -/
def ulpExp (q : ℚ) : ℤ := max (Int.log 2 |q| - 52) (-1074)

/-- rounding of an exact result to IEEE binary64, to nearest, ties to even -/
def rnd (q : ℚ) : ℚ := (F32.roundEven (q / 2 ^ ulpExp q) : ℚ) * 2 ^ ulpExp q

/-- `f64::round` of a non-negative number followed by `as usize` -/
def roundUsize (q : ℚ) : ℕ := ⌊q + 1 / 2⌋.toNat

/-- decoder/long_term_post_filter.rs 145, encoder/long_term_post_filter.rs 143: `(nbits as f64 * 10. / 7.5).round() as usize` -/
def tNbits (nbits : ℕ) : ℕ := roundUsize (rnd (rnd (rnd nbits * 10) / (15 / 2)))

/-- decoder/long_term_post_filter.rs 182-184: `p_up` of `pitch_int` and `pitch_fr` (both converted to `f64`) -/
def pUp (fs p fr : ℕ) : ℕ :=
  let pitch := rnd (rnd p + rnd (rnd fr / 4))
  let factor := rnd (rnd (8000 * (⌈rnd (rnd fs / 8000)⌉ : ℚ)) / 12800)
  let pitchFs := rnd (pitch * factor)
  ⌊rnd (rnd (pitchFs * 4) + 1 / 2)⌋.toNat

/-- encoder/bitstream_encoding.rs 66, decoder/arithmetic_codec.rs 398: `(range as f64).log2().floor()`; `L` is `f64::log2` -/
def floorLog (L : ℚ → ℚ) (range : ℕ) : ℤ := ⌊L (rnd range)⌋

/-- encoder/buffer_writer.rs 61: `(self.mask_side as f64).log2() as i32` -/
def maskLog (L : ℚ → ℚ) (mask : ℕ) : ℤ := F32.truncQ (L (rnd mask))

/-- encoder/bitstream_encoding.rs 154: `(self.ne as f64 / 2.0).log2().ceil() as usize` -/
def pairBits (L : ℚ → ℚ) (ne : ℕ) : ℕ := ⌈L (rnd (rnd ne / 2))⌉.toNat

end Lc3.F64

namespace Lc3.F32

/-- decoder/side_info_reader.rs 50: `((ne / 2) as f32).log2().ceil() as usize` -/
def pairBitsDec (el : Elem) (ne : ℕ) : ℕ := toUsize (ceilF (el.log2 (rnd (ne / 2 : ℕ))))

/-- encoder/spectral_quantization.rs 123: `(self.ne as Scaler / 2.0).log2().ceil() as usize` -/
def pairBitsQuant (el : Elem) (ne : ℕ) : ℕ := toUsize (ceilF (el.log2 (div (rnd ne) (fin 2))))

/-- common/kissfft.rs 49 and 61: `p as Scaler > (n as Scaler).sqrt().floor()` -/
def aboveSqrt (el : Elem) (n p : ℕ) : Bool := lt (floorF (el.sqrt (rnd n))) (rnd p)

end Lc3.F32
