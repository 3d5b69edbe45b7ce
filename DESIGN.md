# Verification of lc3-codec: design

## 1. What is here

* `properties.jsonl`: the properties (generated by `tools/gen_properties.py`).
* `lean/`: a Lake project (Lean 4.33.0 + Mathlib) with a model of the code in `/repo/src`,
  independent specifications, helper lemmas, and the property theorems.
* `MANIFEST.json`: property -> theorem names and status.
* `seeded/LOG.jsonl`: mutation experiments on the model (each done in a scratch copy).
* `AXIOMS.md`: the axioms of every theorem in the manifest (`tools/axioms.py`).
* `tools/`: the script that copies the tables out of `/repo` into Lean, the generators of
  `properties.jsonl`, `MANIFEST.json` and `AXIOMS.md`.

Inside `lean/Verif/`: `Model/` (the code), `Tables/` (data), `Spec/` (what the properties mean, written without
the model), `Lemmas/` (helpers), `Props/` (property theorems, each with an `example` that meets its hypotheses).

## 2. Trusted base

* The Lean 4 kernel, and the axioms `propext`, `Classical.choice`, `Quot.sound` (the standard three;
  no theorem depends on any other one; see `AXIOMS.md`).
* No `sorry`, no `admit`, no own axioms, no `native_decide`, no `bv_decide`.
* The correspondence model <-> Rust text is by reading. Each definition cites file and lines.
* The tables in `lean/Verif/Tables/` are produced by `tools/gen_tables.py` from the text of
  `/repo/src/tables/*.rs`. They are data, and the theorems about them are proved by evaluation in the kernel.

## 3. Modelling conventions

* **Results.** `Res α = ok a | err | panic`: Rust `Result` plus panics. Slice accesses out of range, `usize`
  underflow, arithmetic overflow that matters, explicit `panic!`, `unwrap` on `None` are `panic`. Overflow is
  modelled as in a build with overflow checks (debug profile); where the release profile behaves
  differently (wrapping) a parameter or a note says so.
* **Integers.** `usize`/`u8`/`u16`/`u32` values are `Nat`, signed ones `Int`. Range side conditions are either
  proved as invariants or modelled by an explicit `panic` branch; for the accumulators of the entropy coder and the rate loop C104 proves that
  the types of the code hold every intermediate result, for the pitch analysis C112. `usize` has 64 bits.
* **Buffers** are `List Nat` (bytes, with hypotheses `< 256`) or `List α`. A function with a `&mut` buffer returns the
  new contents. Scratch buffers that are written before they are read are modelled by their length.
* **Loops** are structural recursions over the iteration list or over an explicit counter.
* **Floating point.** Code with floats is written once, over a class `Scalar α` (`Model/Scalar.lean`) that has the operations
  of the code but *no laws*. There are three uses of it:
  1. Structural theorems (which elements are touched, which indices occur, who reads what, no panic) hold for every
     instance, therefore for `f32` whatever its rounding. Comparisons have an arbitrary result, so every path of the code is
     covered.
  2. `F32` (`Model/F32.lean`) models IEEE 754 binary32 with rounding to nearest even, infinities, NaN, saturating casts. The
     elementary functions (square root, powers, logarithms, trigonometric functions) are a parameter `el : Elem` about which nothing is
     assumed. Theorems labelled "binary32" are about this instance. Zeros have no sign (a simplification: the
     code never divides by a zero that could be negative and looks at the sign).
     The theorems on rounding errors (C88 to C91) and C94 assume `F32.Accurate el` (`Spec/Rounding.lean`): sines and cosines with an
     absolute error up to `2^-24`, square roots with a relative error up to `2^-24`. The code computes sines and cosines
     of constant angles in `f64` and rounds to `f32` once, so this is what a working `libm` delivers.
     `F32.exists_accurate` shows that the assumption can be met. C93 also assumes `F32.Tame el` (`Spec/Finite.lean`): sines in
     `f32` up to `2^-20`, powers of ten up to one percent, the fast power of two of the noise shaping at most twice too large
     (`F32.exists_tame`). C97 assumes `F32.GainFunctions el` (`Spec/Gain32.lean`): the decimal logarithm and the power of ten with a
     relative error up to `2^-22` (`F32.exists_gainFunctions`). C98 assumes `F32.EncFunctions el` (`Spec/EncFunctions.lean`): both of these,
     `exp2` at most twice too large, `asin` up to `2^-20` inside of (-1, 1), at ±1 the binary32 number nearest to ±π/2 and NaN outside, and
     the nearest binary32 number for `π / 17` (`F32.exists_encFunctions`); nothing is assumed of `log2` and `powi`. C100 assumes
     `F32.LogFunctions el` (`Spec/Silence32.lean`) in addition: `log2` of a positive number with a relative error up to `2^-22`, and `2^-32` exact
     (`F32.exists_logFunctions`). C105, C107 and C108 assume `F32.Powers el δ δ'` (`Spec/Powers.lean`): powers of two with relative errors `δ` (decoder) and
     `δ'` (encoder) as parameters, and `10^-4` up to `2^-20` (`F32.exists_powers`).
     C113 assumes `F64.Log2 L` and `F32.ExactSquares el` (`Spec/F64.lean`): `f64::log2` exact for powers of two and with a relative error up to `2^-50`
     elsewhere, square roots of squares exact (both shown to be possible beside the theorems).
  3. `Scalar ℝ` (`Model/ScalarReal.lean`): "exact arithmetic". Identities of filters and transforms are proved here. How
     much rounding changes the result is proved for the transforms (C88 to C91) and the quantiser (C97) and is out of scope elsewhere.
* **Counterexamples** are proved in Lean, by evaluation in the kernel (`decide +kernel`) of the very definitions that
  the positive theorems are about. They are existence proofs, so one input is enough; no universal claim
  is proved by trying inputs, except over finite types that are enumerated completely (configurations, table entries).

## 4. Which code is modelled

| file in `/repo/src` | model | remarks |
|---|---|---|
| common/config.rs | `Config` | all |
| common/complex.rs, kissfft.rs | `Fft` | all; `floor(sqrt(n))` is the exact one (C113) |
| common/dct_iv.rs | `Fft` | all |
| common/wav.rs | `Wav` | all |
| decoder/buffer_reader.rs | `BufferReader` | all |
| decoder/side_info_reader.rs, side_info.rs | `SideInfo` | all |
| decoder/arithmetic_codec.rs | `ArithDecode` | all; overflow checks are a parameter |
| decoder/residual_spectrum.rs, noise_filling.rs, global_gain.rs, temporal_noise_shaping.rs | `DecSpectrum` | all |
| decoder/spectral_noise_shaping.rs | `SnsDec` | all |
| decoder/modified_dct.rs | `MdctDec` | all |
| decoder/long_term_post_filter.rs | `LtpfDec` | all but the buffer sizes that are only used to allocate; the lag arithmetic in `f64` is done in integers (C113) |
| decoder/packet_loss_concealment.rs | `Plc` | all |
| decoder/output_scaling.rs, lc3_decoder.rs | `Decoder` | all (alloc variant; the heapless one is in `NoAlloc`) |
| encoder/buffer_writer.rs, bitstream_encoding.rs | `BufferWriter`, `BitstreamEnc` | all |
| encoder/residual_spectrum.rs | `EncResidual` | all |
| encoder/bandwidth_detector.rs, attack_detector.rs, noise_level_estimation.rs | `EncDetect` | all |
| encoder/spectral_quantization.rs | `EncQuant` | all; some `u16`/`u32` counters unbounded (notes at the definitions) |
| encoder/long_term_post_filter.rs | `EncLtpf`, `LtpfMachine` | all (`LtpfMachine`: with the integer types of the code) |
| encoder/temporal_noise_shaping.rs | `EncTns` | all |
| encoder/spectral_noise_shaping.rs | `EncSns`, `SnsPack` | all |
| encoder/modified_dct.rs | `EncMdct` | all |
| encoder/lc3_encoder.rs | `Encoder`, `NoAlloc` | all (`Encoder`: alloc variant, `NoAlloc`: heapless variant) |
| tables/*.rs | `Tables/` | copied by script |
| ../examples/encode.rs, ../examples/decode.rs | `Files` | the two conversion functions, for files that can be opened, read and written |
| ../examples/compare.rs, ../examples/wav.rs | `Examples` | all but logging |
| ../examples/arm/src/main.rs (clock), ../examples/read_sideinfo.rs | `ExampleArm` | the timer registers are functions of the time; the calls of the codec in main.rs are those of C109 |
| expressions in `f64` and `f32` whose results are integers | `F64` | the rest of the model has the integers directly (C113) |

Not modelled: the other programs in `examples/`, `benches/`, `#[cfg(test)]` code, logging, timing, memory layout.
`Model/Traced.lean` holds copies of the coding loops that also log the probability models they use; `encodeBodyT_snd` and
`readFrameT_snd` prove that forgetting the log gives back the original functions.

## 5. Status per property

`MANIFEST.json` has the theorem names. "false" means: the statement as given does not hold for this code, the
negation is proved with a concrete witness, and the part that does hold is proved under the name `_partial`.

| id | how it is proved | status |
|----|------------------|--------|
| C01 | interval coder as specification, refinement by invariant, induction on the symbols | false (F10), partial |
| C02, C03 | bit view of the buffer, induction on the width; chained over the side information | proved |
| C04 | C01 + C02, lock step induction over pairs | false (F10), partial |
| C05 | same for the LSB mode | false (F5), partial |
| C06 | panic freedom of the whole decoder by invariants | false (F6), partial: all other frame lengths |
| C07, C08 | case analysis of the frame driver; induction over the loss run | proved |
| C09 | binary32 | rounding clause false (F12), partial; range proved |
| C10-C12 | projection of channel states; splitting of buffers | C12 false at 8 kHz (F1), partial |
| C13, C39 | noise filling and noise level: same predicate for contributing lines | proved |
| C14 | the two residual loops as a simulation, binary32 | proved |
| C15, C16 | lattice filters in exact arithmetic | C15 false (F3, F7), partial |
| C17-C19 | recurrence of the offset table, induction on the vector | proved |
| C20 | integer arithmetic of the pitch index | false (F4), partial |
| C21, C22 | ring buffer refines an infinite history | C21 false (F11), partial |
| C23, C24, C29 | evaluation over whole tables, general lemmas | proved |
| C25-C27, C33 | quantiser | proved (C25, C26 with the stated bounds, which are shown to be necessary) |
| C28 | context indices: logging copies of the loops, lock step | proved |
| C30 | bit budget: exact relation | false (F8), partial |
| C31, C32 | non interference, budget invariant | proved |
| C34, C38, C41 | detectors and pitch search for every scalar type | proved |
| C35-C37 | FFT, DCT-IV, MDCT in exact arithmetic; windows by evaluation of the tables as rationals | proved |
| C40 | byte model of the WAV header | proved |
| C42 | pulse search, exact and binary32 | false for shape 0 (F14), partial |
| C43, C44 | gain limiter in exact arithmetic; quantiser totality for every scalar type | proved |
| C45 | noise shaping of the encoder is undone by the decoder (exact arithmetic), with the index ranges | proved; `C45_returns` says when the encoder returns, `C45_silence` that silence is shaped |
| C46 | parameters of the whole analysis, stage by stage (exact arithmetic) | proved, for lines in the range of the quantiser |
| C47 | C46 with the frame round trip C04 | proved, under the conditions of C04 (structure `CodedFrame`) |
| C48 | refinement, noise filling and gain against the quantiser (exact arithmetic) | proved |
| C49 | linearity of the decoder's shaping, C15, C45 (exact arithmetic) | proved, except for the cases of F3 and F7 |
| C50, C51 | potential argument over the range coder's interval; evaluation of the tables against logarithms bounded by rational powers | proved |
| C52 | invariant of the bit consumption loop (exact arithmetic) | proved |
| C53 | C50 - C52 chained over the body of the frame | proved for frames with few symbols; without that limit false in binary32 (F17) |
| C54 | case analysis of one decoding step for every state | proved |
| C55 | totality of every stage of the analysis chained in the order of the code | proved under the conditions of `Regular` (F9, F14, F15) |
| C56 | zero is an invariant of every stage of both sides; induction over the frames | proved |
| C57 | bits used by the reader and the range decoder bound the magnitudes of each pair; prices per bit and per pair (a linear programming bound) keep the sum below 2^31 | proved |
| C58 | the decoder's transform is linear; Parseval's identity; largest window entry from the tables (exact arithmetic) | proved |
| C59 | C47, C58, C22, rounding (exact arithmetic) | proved |
| C60 | `decodeChannel` on two channels, any arithmetic: lines depend on the frame only, overlap memory on the last frame, circular memories are rewritten block by block | proved |
| C61 | `ltpfRunAll` over ℝ: sums of absolute coefficients at most 0.36 and 0.402 (kernel computation over the tables), invariants `\|x\| ≤ X`, `\|y\| ≤ 5 X` through all five transitions; the same proof for distances of two runs | proved |
| C62 | `attackRunAll` over ℝ: running maximum = fading maximum over the whole stretch, induction over the frames | proved |
| C63 | `bwRun` over ℝ against regions, limits and distances written down again | proved |
| C64 | C63, step shaped energies | false (F18), partial |
| C65 | C63, monotony of the logarithm | false (F19), partial |
| C66 | induction over the code book | proved |
| C67 | invariant of the scan; counterexample with a single entry | false (F16), partial |
| C68 | invariant of the choice; counterexample through surjectivity of the rotation | false (F16), partial |
| C69 | row sums of D Dᵀ - 1 and Dᵀ D - 1 by kernel evaluation, Schur test | proved |
| C70 | the expected cost is antitone in the gain; bisection of a monotone decision (exact arithmetic) | proved |
| C71 | invariant over the reachable states of the quantiser; counterexample with two faint frames | false (F13), partial |
| C72 | case analysis against a specification with the nodes written as linear functions of the rate index | proved |
| C73 | induction over the recursion with the normal equations as invariant, minimality by completing the square | proved |
| C74 | zeros of the predictor inside the unit circle, carried through every step up and down by the maximum principle | proved |
| C75 | Cholesky factor of the lag window with 24 digits and a bound on the remainder (the window itself is not positive semidefinite: a pivot is -1.2e-13) | proved |
| C76 | invariant: buffers before frame t = samples of signals on all integers (Spec/Pitch.lean); induction over frames | proved |
| C77 | the searches as first maxima, sums over taps reindexed; one frame, then induction | proved |
| C78, C79 | the specification determines its results and is invariant under scaling and delay | proved |
| C80 | the lines as read (`C05_error`) compared with the quantised ones, bound of the quantiser, synthesis linear as in C49 | proved |
| C81 | `snsTarget` over ℝ step by step against Spec/SnsTarget.lean (sequences continued at both ends) | proved |
| C82 | the logarithms span less than ½ log2 640000; differences of scaled energies; both from the specification | proved |
| C83 | `energyBands`, `isNearNyquist` over ℝ; telescoping sum over the band table | proved |
| C84 | `encodeFile`; invariant of the loop over the frames, `encodeFrame` keeps the length of the buffer (`EncLength`) | proved |
| C85 | `decodeFile`; loop over the calls, results independent of the output buffer (C09) | false (F20), partial |
| C86 | C40 for the header of `decodeFile` | false (F21), partial |
| C87 | C84, C85, `pcmAt` of `pcmBytes` | proved |
| C88 | error of each butterfly, `kapSum` over the stages, Parseval | proved for elementary functions with `F32.Accurate` |
| C89 | C88 with the twiddling before and after | proved for elementary functions with `F32.Accurate` |
| C90 | folding, C89, gain, in binary32 | proved for elementary functions with `F32.Accurate` |
| C91 | C90, error of the synthesis, C37 | proved for elementary functions with `F32.Accurate` |
| C92 | C24; `snsInterp_at`, sums of the code rows | proved (exact arithmetic) |
| C93 | bounds through all stages: dequantised 2^36, TNS 2^71, noise shaping and stored spectrum 1.3·2^91, overlap memory 2^101, synthesis 2^102, post filter 2^108 (contraction as in C61, with rounding); invariant `ChFin` over the calls | proved for elementary functions with `F32.Tame` |
| C94 | sums of magnitudes of the polyphase filter taps (kernel evaluation over all phases); quadratic form of the high pass (the feedback multiplies it by 0.966; invariant with rounding errors); smallest positive binary32 number bounds the divisor of the correlation from below; clamp of the bit offset also for NaN and infinities | proved for square roots with `F32.Accurate`; the whole encoder under the condition that the calls return |
| C95 | doubling of the affine map modulo 2^16: 32768 steps add 32768, so the minimal period divides 2^16 and not 2^15 | proved |
| C96 | residual of the first stage is zero or at least 2^-33, so that the pulse projection does not underflow; ranges of all parameters from the stages; C04 | proved for all elementary functions, under the conditions of C04 |
| C97 | error of the logarithm through the rounding up; 28 steps per decade; truncation of the rounded quotient | proved for elementary functions with `F32.GainFunctions` |
| C98 | sizes through MDCT (2^28), noise shaping (2^50), temporal noise shaping (2^76); the angle of a coefficient leaves the tables exactly for ±1; all other partial operations of the analysis succeed | proved for elementary functions with `F32.EncFunctions` |
| C99 | the refinement is exact in binary32; division, comparison and the product with the gain are rounded, each by less than 1/500 of a step | proved for `log10` and `10^x` with `F32.GainFunctions` |
| C100 | zero or NaN is an invariant of every stage of the decoder, whatever the elementary functions are; on the side of the encoder all lines are exactly zero, the scale factors are below 1/200, where the pulse search still finds a pulse in the last six entries; induction over the frames | proved for elementary functions with `F32.EncFunctions` and `F32.LogFunctions` |
| C101 | as C52 and C53; conversion and division are exact below 2^24, larger sums are at least 8192 bits after rounding; one pair of lines takes at most 168 bits | proved for frames up to 1023 bytes, with the limit on the symbols of C53 |
| C102 | factorisation ends with a radix of at least 7; the innermost stage then uses one of its inputs; an impulse at the last sample has the result of silence | proved for all sizes from 1 on |
| C103 | as C58 and C59, with the errors of both transforms (C89, C90) and of the overlap-add and the rounding to integers; spectra that are far apart need no argument, the output is clipped | proved |
| C104 | second version of the functions with the arithmetic of `u32` and `i32` (`Spec/MachineInt.lean`), equality by carrying bounds of the state: 24 bits for the range coder, 28672/2048 bits per escape for the estimate | proved |
| C105 | forward error analysis of the scale factors (absolute error 2^-16), of the interpolation (5/2 * 2^-16) and of the power, assuming `F32.Powers el δ δ'` | proved |
| C106 | independence of the stale state of the bit writer (`encodeBody_stale`) and unfolding of both pipelines | proved |
| C107 | the encoder's quantised scale factors within 2^-16 of the factors of the transmitted indices (`stage2_ab`), then the same analysis as C105 on both sides | proved |
| C108 | C99 (quantiser), C107 (noise shaping) and C103 (transforms) composed; frames with temporal noise shaping or the post filter are out of scope | proved |
| C109 | the heapless variants modelled separately (`NoAlloc`: push with capacity, test against `NUM_CHANNELS`) and shown equal to the alloc variants, over sequences of calls | proved |
| C110 | the binary32 filter and the exact filter in lock step (`LtpfPair`): coefficients, sums, fades and the lag change, error at most 5 (ε + X/2^16) kept over frames by the contraction of C61; composed with the rounding of the decoder | proved for elementary functions with `F32.Tame` (filter alone: any) |
| C111 | induction over the frames: the decoder's overlap memory stays within 1.0641 D + 52 A sqrt(nf) / 10^6 of the aliased tail of the encoder's time buffer; one frame by the lemmas of C103, the post filter by C110 | proved for elementary functions with `F32.Tame`, for streams of coded frames (`StreamOk`) |
| C112 | second version of the functions with `i8`, `i16` and `i32` conversions and overflow checks (`Model/LtpfMachine.lean`), equal to the first by bounds on lags (32 to 228), fractions and loop counters | proved |
| C113 | the expressions of the code in binary64 and binary32 (`Model/F64.lean`); exact products, distance of `4 n / 3` from ties, of logarithms of integers from integers (`log(1 + x) >= 2x / (x + 2)`), of square roots from integers | proved |
| C114 | induction over the frames; both buffers are equal at the start of every round, so old bytes cannot differ | proved |
| C115 | `i32` with overflow checks, equal to integers; a period adds `2 A` to the reduced quotient; the header by C40 | proved |
| C116 | arithmetic on quotient and remainder of the time; `a \| b ≤ a + b` and the value of the bitwise or in the second and third period | partial: full statement `C116_statement`, refuted by `C116_fails` (F25) |
| C117 | induction over the frames; C06 for the absence of panics inside a frame | proved |
| C118 | orthogonality of the roots of unity (Parseval, from the error analysis of C88) on top of C35; C36 for the cosine transform | proved |
| C119 | the quantisation of the level against its inverse in the decoder, on top of C39 (which lines), C13 (filled lines) and C25 (same gain); rounding error of the mean level for binary32 | proved |
| C120 | `Spec.ladder` from the reflection coefficients against the step down recursion and the lattice, on top of C73 (best predictor) and C75 (which spectra); the lag window against the exponential function | proved |
| C121 | `Spec.ladder` and `Spec.convolve` against the lattice of the decoder; energy balance of the lattice stages for the gain | proved |
| C122 | the literal limit 480 + 160 i and the quantised lines of the gain that is sent | proved |
| C123 | the edges of `Spec.tnsEdges` and the predictor of C120, for the orders and indices of a whole run; second filter with the first one off | proved |
| C124 | bits of `Spec.sideLength` and `Spec.filterInfo` (as in C53) against the budget of the quantiser, as an equation with a bounded reserve | proved |
| C125 | converse of C52: `Spec.symbolInfo` and `Spec.plainBits` of the prefix up to a dropped pair exceed the budget | proved |
| C126 | `Spec.convolve` and `Spec.ladder` of the second filter's indices; the lattice forgets its states line by line; the same for the decoder (`C126_decoder`) | proved |
| C127 | two runs compared: `ggInd` of the louder one is at least that of the other minus three, `C127_estimate` without the three | proved |
| C128 | two histories compared: the same decisions for all samples multiplied by an integer other than zero | proved |
| C129 | two spectra compared: the same parameters and the multiplied lines for a spectrum multiplied by a factor other than zero | proved |
| C130 | two runs compared: negated lines, everything else the same; lines exactly at the bound of 16 bits excluded | proved |
| C131 | every stream of good, lost and refused frames, every arithmetic; transparent from the second frame in a row without the filter on (`C131_good`: also a good frame after a lost one) | proved |

C37: the weights of overlapping windows are within 10⁻¹³ of one and the aliasing terms cancel exactly, so the output is the
input delayed by `nf - 2z` samples times these weights. At 44.1 and 48 kHz only the first `ne` of `nf` lines are transmitted; the
theorem therefore asks the others to be zero (`C37_all_lines`: below 44.1 kHz this is no condition, because `ne = nf`).

## 6. Findings

Deviations of the code from what the properties ask for. Each is proved in Lean unless marked "by reading".

* **F1** `Lc3Encoder::new` panics at 8 kHz: `BandwidthDetector::new` indexes a table at -1 (`C34_no_detector_8kHz`, `C12_8kHz`, `C12_fails`).
* **F2** The encoder's noise shaping with 60 bands writes behind the 64 entry array (padding, `C81_sixty`), and
  `reduce_scale_factors_for_narrow_band` reads a constant index in its second loop.
* **F3** TNS at bandwidth index 2 and 10 ms: encoder stops at line 200, decoder at 240 (`C15_fails`, `C15_prefix`).
* **F4** Pitch lags 127..156: the index subtracts 126 instead of adding it (`C20_wrong`, `C20_fails`, `C20_frames`, `C20_repaired`).
* **F5** LSB mode: the decoder looks up the saved escape level at the wrong index (`C05_fails`); the effect on the lines is bounded (`C05_error`, `C80`).
* **F6** Short frames panic (one or two lengths per configuration), and 900 byte frames with overflow checks (`C06_fails`, `C06_checks_fails`); frames of the standard's lengths are not affected (`C57_returns`).
* **F7** Decoder TNS replaces a coefficient with index 0 by the value 0 (`C15_index_fails`).
* **F8** The decoder's forecast of the used bits is 8 larger until the range coder has emitted a byte (`C30_partial`; `C30_fails` has a frame with 85 against 93 bits).
* **F9** Limits: the value -32768 needs 14 escape levels, which the encoder codes with 15 look-ups and the decoder reads at most 14; the
  bit budget is converted to `i16` in the encoder (`C25_limit`); a reflection coefficient of exactly ±1 gives an index outside its table
  (`C75_panics` has a spectrum of integers for which this happens in binary32; `C75` excludes it for spectra that are not extremely smooth).
* **F10** `ac_enc_finish` does not mask the final value to 24 bits (`C01_fails`, `C04_fails`).
* **F11** Post filter: for lag changes to the longest lags the history of the old filter is overwritten (`C21_fails`).
* **F12** `scale_and_round` adds 0.5 and truncates: the two binary32 values next below 1/2 round to 1 (`C09_round_fails`).
* **F13** `nbits_spec_old` is never updated after construction (`C71_fails`): the rate control settles 40 bits below the budget
  (`C71_drift`). `calc_bit_budget` underflows if the side information does not fit (`C44_underflow`; frames of a few bytes).
* **F14** Pulse search: if entries 10..15 of the target are zero shape 0 is not the sum of set A and B pulses (`C42_fails`), in binary32 it panics (`C42_stage2_panics`).
* **F15** The limiter's bound on the gain index can exceed 255 (`C26_limit`).
* **F16** The gain loop of the noise shaping quantiser tries all but the last gain of each shape; `add_unit_pulse` keeps correlation and
  energy of the last scanned position instead of the best one (`C67_fails`, `C68_fails`; quality only).
* **F17** The estimate rounds the cost of a symbol to 1/2048 bit and knows nothing of the range coder's rounding: a frame of 126 bytes
  (48 kHz, 10 ms, 140 symbols, all estimated within the budget of 932 bits) is written over the end of the range coder's part and the decoder
  rejects it (`C53_fails`).
* **F18** Bandwidth detector: the search for the energy drop ends one band early (`from..to`), and for index 3 with 10 ms frames, where the
  distance is one band, it is empty: at 48 kHz the bandwidth of 32 kHz is never reported (`C64_never`, `C64_fails`).
* **F19** Bandwidth detector: the limits of the drop are decibels, but are compared with the plain quotient; the comment that this has no
  effect is wrong (`C65_fails`).
* **F20** The decoding program ends as soon as a frame reaches the end of the file (`to_index >= len`): the last frame of every file is
  left out (`C85_fails`), so encoding and decoding a file loses its last frame (`C85_roundtrip_fails`). With 0 channels or 0 bytes per frame it does not end.
* **F21** The decoding program writes the header before the data and never again: every file states 0 bytes of data and a size of
  36 (`C86_fails`); the block size is 4 for all numbers of channels.
* **F22** The encoding program panics for an odd number of bytes behind the header (`C84_size`); in a file with a LIST section it encodes the
  section as samples.
* **F23** In binary32 the analysis of the encoder panics for exactly two kinds of spectra (`C98`): a reflection coefficient of the temporal noise
  shaping that is exactly ±1 (the index is then 17 or -1, see `C75_panics` for such a spectrum), and a residual of the noise shaping for which the
  first shape is chosen although its last six entries hold no pulse. A coefficient beyond ±1, where the filter is unstable, does not panic: `asin`
  gives NaN, the cast gives 0, and the filter is silently replaced by another one.
* **F24** `kf_bfly_generic` copies `m` instead of `p` entries (`scratch[..m]`, common/kissfft.rs 266). For every size with a prime factor above 5 the
  transform ignores at least six sevenths of its input (`C102_blind`) or reads out of bounds and panics (`C102_panics`). No size of the codec has
  such a factor (`C35_sizes`), but the module is public.
* **F25** `uptime` (examples/arm/src/main.rs 168) combines the parts of the time as `high * 0xffffff | low`; it should be `high * 0x1000000 + low`. From the
  first overflow of the timer on (1.4 s at 12 MHz) the clock is wrong: it stands still for a period, then goes back at every other tick, and `to - from` can panic
  (`C116_stands_still`, `C116_goes_back`).

## 7. Mutation testing

`seeded/LOG.jsonl` has one line per edit. `failed` are theorems whose proof no longer checks, `depending_on_failed` property
theorems that are proved from them. A failing lemma alone does not show that the property theorem has become false, so for
mutations of shared code the claim was compared with the statement by hand.
