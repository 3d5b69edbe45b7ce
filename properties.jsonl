{"id": "C01", "title": "Entropy-coded symbols survive a frame round trip", "statement": "Whatever sequence of symbols the encoder entropy-codes at the head of a frame, a decoder that asks for symbols from the same probability tables gets back exactly that sequence, no matter which bytes follow the coded data in the frame.", "quantifier": "all symbol sequences of any length, all probability models used by the codec (and any model with positive frequencies summing to 1024), all trailing bytes", "why_tests_cant": "carry propagation runs through arbitrarily long chains of 0xff bytes that are hit with vanishing probability by sample audio; the space of sequences is infinite", "anchors": ["encoder/bitstream_encoding.rs: ac_enc_init, ac_encode, ac_shift, ac_enc_finish", "decoder/arithmetic_codec.rs: ac_dec_init, ac_decode"]}
{"id": "C02", "title": "Backward bit fields read back what was written", "statement": "A value written as an n-bit field from the end of a frame is read back unchanged by a reader positioned at the same bit, for every field width the format uses, and writing it changes no other bit of the frame.", "quantifier": "all frame lengths, all starting bit positions, all values, all field widths used by the codec", "why_tests_cant": "the reader has four different byte-fetch cases depending on the alignment of the field; tests cover a handful of alignments", "anchors": ["encoder/buffer_writer.rs: BufferWriter", "decoder/buffer_reader.rs: BufferReader::read_tail_usize, read_tail_bool"]}
{"id": "C03", "title": "Side information survives a frame round trip", "statement": "Every valid combination of side information (bandwidth, last coded line, LSB mode, gain, noise-shaping flags, pitch data, scale-factor indices, noise level) written by the encoder into a frame is read back identically by the decoder, for every sample rate and frame duration.", "quantifier": "all sampling frequencies, durations, all in-range field values, all frames long enough to hold them", "why_tests_cant": "there are about 2^70 combinations and every optional field shifts the alignment of all later ones", "anchors": ["encoder/bitstream_encoding.rs: encode and its side-info writers", "decoder/side_info_reader.rs: read, read_sns_vq, read_long_term_post_filter_info"]}
{"id": "C04", "title": "Quantised spectrum survives a frame round trip (normal mode)", "statement": "When a frame is written in normal (non-LSB) mode and the data fits the frame, the decoder recovers from the bytes exactly the quantised spectrum, temporal-noise-shaping parameters and refinement bits that the encoder wrote.", "quantifier": "all quantised spectra with magnitudes at most 32767, all noise-shaping parameters, all refinement bits, all frame sizes in which the written data fits", "why_tests_cant": "the context model, the escape coding and the two opposite write cursors interact over hundreds of symbols", "anchors": ["encoder/bitstream_encoding.rs: tns_data, spectral_data, residual_data_and_finalization", "decoder/arithmetic_codec.rs: decode, decode_tns_data, decode_spectral_data, decode_residual_bits"]}
{"id": "C05", "title": "Quantised spectrum survives a frame round trip (LSB mode)", "statement": "When a frame is written in LSB mode, and all postponed bits fit, the decoder recovers exactly the quantised spectrum the encoder wrote.", "quantifier": "all quantised spectra with magnitudes at most 32767, frames in LSB mode", "why_tests_cant": "LSB mode is only entered at high bit rates on loud frames; the sample-based tests never enter it", "anchors": ["encoder/bitstream_encoding.rs: spectral_data", "decoder/arithmetic_codec.rs: decode_spectral_data, decode_residual_bits, read_res_bit"]}
{"id": "C06", "title": "Hostile frames never crash the decoder", "statement": "Decoding any byte string as a frame (random, truncated, malicious) returns normally; it never panics by an out-of-range access or an arithmetic overflow.", "quantifier": "all byte strings of all lengths, all sampling frequencies and durations", "why_tests_cant": "2^3200 possible frames; fuzzing cannot exhaust them", "anchors": ["decoder/lc3_decoder.rs: read_frame, DecoderChannel::decode", "decoder/buffer_reader.rs", "decoder/side_info_reader.rs", "decoder/arithmetic_codec.rs"]}
{"id": "C07", "title": "decode_frame succeeds unless asked for a sample width other than 16 bits", "statement": "decode_frame returns an error exactly when the requested sample width is not 16 bits, and in that case neither the decoder state nor the output buffer changes; corrupt frames are concealed, not reported.", "quantifier": "all decoder states, all frames, all output buffers, all sample widths", "why_tests_cant": "requires quantifying over all decoder states and all corrupt frames", "anchors": ["decoder/lc3_decoder.rs: DecoderChannel::decode, decode_frame"]}
{"id": "C08", "title": "Concealment fades out deterministically and resets on a good frame", "statement": "During a run of n consecutive corrupt frames, each concealed spectrum is the last good spectrum with each line multiplied by plus or minus one common factor: 1 for the first four losses, then times 0.9 for each of the next four, then times 0.85 for each further one; the signs depend only on a 16-bit pseudo random state and never leave its range; one good frame resets the fade.", "quantifier": "all last good spectra, all loss run lengths, all interleavings of good and lost frames", "why_tests_cant": "needs unbounded loss sequences and state carried across frames", "anchors": ["decoder/packet_loss_concealment.rs: save, load_into"]}
{"id": "C09", "title": "Decoded samples are always valid 16-bit samples and only the frame is written", "statement": "A decoded frame writes exactly min(frame length, output length) samples, each in -32768..32767 and equal to the filtered sample rounded half away from zero and saturated; any further samples in the caller's buffer are left untouched.", "quantifier": "all filtered sample values (including NaN and infinities), all output buffer lengths", "why_tests_cant": "saturation, rounding ties and short or long buffers form an infinite input space", "anchors": ["decoder/output_scaling.rs: scale_and_round"]}
{"id": "C10", "title": "Channels are independent", "statement": "Decoding or encoding a frame on one channel changes only the state of that channel: for any interleaving of calls, the output of a channel equals the output of a single-channel codec fed only with that channel's frames, and calling with a channel number outside the configured range is rejected by a panic.", "quantifier": "all interleavings of calls over any number of channels, all frames", "why_tests_cant": "interleavings are unbounded; tests use one fixed order", "anchors": ["decoder/lc3_decoder.rs: Lc3Decoder::decode_frame", "encoder/lc3_encoder.rs: Lc3Encoder::encode_frame"]}
{"id": "C11", "title": "Advertised decoder working-buffer lengths are exactly what construction needs", "statement": "For every channel count, sampling frequency and duration, constructing a decoder with buffers of the advertised lengths succeeds and uses them completely, and with any shorter buffer it panics.", "quantifier": "all channel counts, all configurations, all buffer lengths", "why_tests_cant": "channel count is unbounded; the split sequence and the length formula are written independently", "anchors": ["decoder/lc3_decoder.rs: new, calc_working_buffer_lengths", "decoder/modified_dct.rs", "decoder/long_term_post_filter.rs", "decoder/packet_loss_concealment.rs", "common/dct_iv.rs", "common/kissfft.rs"]}
{"id": "C12", "title": "Advertised encoder working-buffer lengths are exactly what construction needs", "statement": "For every channel count, sampling frequency and duration, constructing an encoder with buffers of the advertised lengths succeeds and uses them completely, and with any shorter buffer it panics.", "quantifier": "all channel counts, all configurations, all buffer lengths", "why_tests_cant": "channel count is unbounded; only one configuration is exercised by tests", "anchors": ["encoder/lc3_encoder.rs: new, calc_working_buffer_lengths", "encoder/bandwidth_detector.rs: BandwidthDetector::new"]}
{"id": "C13", "title": "Noise filling touches only provably empty spectrum", "statement": "Noise filling changes a spectral line only if it lies between the fixed start line and the bandwidth limit and all quantised lines within the frame-duration dependent distance are zero; the value it writes is plus or minus one common level; a zero frame is not changed at all; the noise is a function of the seed and the zero pattern only.", "quantifier": "all quantised spectra, seeds, bandwidths, durations and noise levels", "why_tests_cant": "2^(16*400) spectra; boundary lines near the bandwidth limit matter", "anchors": ["decoder/noise_filling.rs: apply_noise_filling"]}
{"id": "C14", "title": "Residual refinement hits the same lines on both sides", "statement": "The n-th refinement bit produced by the encoder describes the same spectral line that the decoder applies its n-th refinement bit to; zero lines are never changed, and a refined line never changes sign and moves by less than half a quantiser step, in the direction of the original value.", "quantifier": "all spectra, all numbers of available bits, both sides", "why_tests_cant": "requires relating two separately written loops over arbitrary spectra", "anchors": ["encoder/residual_spectrum.rs: ResidualBitsEncoder::encode", "decoder/residual_spectrum.rs: decode", "decoder/arithmetic_codec.rs: decode_residual_bits"]}
{"id": "C15", "title": "Decoder noise-shaping filter inverts the encoder's", "statement": "In exact arithmetic, the temporal noise shaping synthesis of the decoder, run with the transmitted parameters, restores exactly the spectrum the encoder fed into its analysis filter, for every bandwidth and duration.", "quantifier": "all spectra, all filter orders and coefficient indices, all bandwidths, both durations", "why_tests_cant": "band limits are tabulated twice; filter state is carried across bands; infinite inputs", "anchors": ["encoder/temporal_noise_shaping.rs: apply_filtering, get_tns_params, apply_quantization", "decoder/temporal_noise_shaping.rs: apply_temporal_noise_shaping, split_into_frequency_bands"]}
{"id": "C16", "title": "Noise-shaping filtering stays inside its band", "statement": "The decoder's temporal noise shaping changes no spectral line outside the bands assigned to the active filters, and leaves the spectrum unchanged when no filter is active.", "quantifier": "all spectra, orders, coefficients, bandwidths, durations", "why_tests_cant": "locality has to hold for every spectrum", "anchors": ["decoder/temporal_noise_shaping.rs"]}
{"id": "C17", "title": "Scale-factor pulse vectors survive enumeration", "statement": "Every pulse vector the encoder can select (per shape: the prescribed dimension and number of unit pulses, any signs) is mapped to an index below the size reserved for the shape, and the decoder maps index and sign back to exactly the same vector.", "quantifier": "all pulse vectors of each of the four shapes (up to 15 million per shape and sign)", "why_tests_cant": "tens of millions of vectors; tests check a few", "anchors": ["encoder/spectral_noise_shaping.rs: mvpq_enum, enc_push_sign", "decoder/spectral_noise_shaping.rs: mpvq_deenum"]}
{"id": "C18", "title": "Any accepted scale-factor index decodes to a valid pulse vector", "statement": "For every index the frame parser accepts, pulse decoding performs no out-of-range access or underflow, produces a vector with exactly the prescribed number of pulses, and the selected gain exists in the gain table of the shape.", "quantifier": "all frames accepted by the parser", "why_tests_cant": "the accepted index range has 33 million values per shape", "anchors": ["decoder/side_info_reader.rs: read_sns_vq", "decoder/spectral_noise_shaping.rs: decode, mpvq_deenum"]}
{"id": "C19", "title": "Shape, gain and pulse index are packed losslessly", "statement": "The shape number, gain number and pulse indices chosen by the encoder are recovered by the decoder from the packed 38-bit scale-factor field.", "quantifier": "all shapes, gain indices and pulse indices the encoder can produce", "why_tests_cant": "packing is arithmetic in mixed radix over tens of millions of values", "anchors": ["encoder/spectral_noise_shaping.rs: sns_quant_stage2 (index_joint_j)", "encoder/bitstream_encoding.rs: encode_scf_vq_2nd_stage", "decoder/side_info_reader.rs: read_sns_vq"]}
{"id": "C20", "title": "The decoder uses the pitch lag the encoder measured", "statement": "The pitch lag (integer part and quarter fraction) the decoder reconstructs from the transmitted pitch index equals the lag the encoder determined.", "quantifier": "all pitch lags the encoder can produce", "why_tests_cant": "the mapping is piecewise and only a few pieces are exercised by sample audio", "anchors": ["encoder/long_term_post_filter.rs: pitch_lag_parameter", "decoder/long_term_post_filter.rs: compute_filter_parameters"]}
{"id": "C21", "title": "Post-filter reads the right history and never leaves its buffers", "statement": "For every transmitted pitch value, sample rate and duration and after any number of frames, the decoder's long-term post filter accesses its circular memory only within bounds, and the value it reads for delay d is exactly the sample produced d samples earlier.", "quantifier": "all pitch indices, all configurations, all frame sequences", "why_tests_cant": "the circular buffer position depends on the whole frame history", "anchors": ["decoder/long_term_post_filter.rs: run, compute_filter, compute_filter_mem, wrap_if_negative, activate_first_2p5ms_from_mem"]}
{"id": "C22", "title": "An inactive post filter is transparent", "statement": "If the post filter is inactive in the current and the previous frame, the decoder's post-filter output equals its input bit for bit, for every frame history before that.", "quantifier": "all inputs, all previous histories", "why_tests_cant": "needs all states of the filter memory", "anchors": ["decoder/long_term_post_filter.rs: run"]}
{"id": "C23", "title": "Configuration constants are mutually consistent", "statement": "For every sampling frequency and duration: the number of coded lines does not exceed the frame length, both are even, the window offset is less than half the frame, the scale-factor bands form an ordered partition of exactly the coded lines, and the number of bands matches the band table.", "quantifier": "all 12 configurations and every spectral line", "why_tests_cant": "tests check a single configuration", "anchors": ["common/config.rs: Lc3Config::new", "tables/band_index_tables.rs"]}
{"id": "C24", "title": "Spectral shaping scales every coded line exactly once", "statement": "Spectral noise shaping in the decoder multiplies every coded line by the gain of its own band, exactly once, and touches nothing else.", "quantifier": "all spectra, all gains, all configurations", "why_tests_cant": "must hold for each line of each configuration and any spectrum", "anchors": ["decoder/spectral_noise_shaping.rs: decode", "encoder/spectral_noise_shaping.rs: run", "tables/band_index_tables.rs"]}
{"id": "C25", "title": "Encoder and decoder agree on the global gain", "statement": "For every frame size and sampling rate within the format's range, the gain exponent the decoder applies for a transmitted gain index is the one the encoder quantised with.", "quantifier": "all frame sizes, sampling rates and gain indices", "why_tests_cant": "the two sides compute in different integer widths; overflow shows up only for some sizes", "anchors": ["encoder/spectral_quantization.rs: get_global_gain_estimation_parameter, quantize_spectrum", "decoder/global_gain.rs: apply_global_gain"]}
{"id": "C26", "title": "The transmitted gain index is always a valid 8-bit value", "statement": "The gain index search never leaves 0..255 before the limitation step, and the final index, if the limiter bound is in range, fits the 8-bit field for every spectrum.", "quantifier": "all spectra (through all outcomes of the comparisons), all bit budgets", "why_tests_cant": "depends on every possible outcome of floating point comparisons", "anchors": ["encoder/spectral_quantization.rs: global_gain_estimation, global_gain_limitation, global_gain_adjustment"]}
{"id": "C27", "title": "Coded length is even, in range, and drops only zeros or truncated lines", "statement": "The number of coded lines chosen by the encoder is even, between 2 and the number of lines, never larger than needed for the last non-zero pair, is representable in its side-info field, and all quantised lines at or beyond it are zero after quantisation.", "quantifier": "all quantised spectra and bit budgets", "why_tests_cant": "quantifies over all spectra", "anchors": ["encoder/spectral_quantization.rs: compute_bit_consumption, quantize_spectrum", "encoder/bitstream_encoding.rs: last_non_zero_tuple"]}
{"id": "C28", "title": "Probability-model lookups stay in range on both sides", "statement": "While coding or decoding spectral data every lookup into the context, cumulative-frequency and frequency tables is in range, and encoder and decoder use the same model for the same pair.", "quantifier": "all spectra, all frame sizes, all configurations, all corrupt frames", "why_tests_cant": "contexts depend on the whole preceding spectrum", "anchors": ["encoder/bitstream_encoding.rs: spectral_data", "decoder/arithmetic_codec.rs: decode_spectral_data", "tables/spectral_data_tables.rs"]}
{"id": "C29", "title": "Probability tables are proper models", "statement": "Every cumulative frequency table starts at 0, increases by the matching frequency, has only positive frequencies and totals 1024.", "quantifier": "every entry of every table", "why_tests_cant": "no test looks at the tables", "anchors": ["tables/spectral_data_tables.rs", "tables/temporal_noise_shaping_tables.rs"]}
{"id": "C30", "title": "Encoder and decoder agree how many refinement bits a frame holds", "statement": "The number of bits available for refinement that the decoder derives from its read positions equals the number the encoder reserved, so the decoder never interprets other data as refinement bits.", "quantifier": "all symbol sequences and side-info sizes", "why_tests_cant": "depends on the internal state of the range coder at the end of the frame", "anchors": ["encoder/bitstream_encoding.rs: nbits_side_forcast, nbits_side_written, residual_data_and_finalization", "decoder/arithmetic_codec.rs: calc_num_residual_bits"]}
{"id": "C31", "title": "A frame's bytes depend only on its parameters", "statement": "The bytes written for a frame are a function of the frame's parameters and length alone: previous contents of the output buffer and frames encoded earlier by the same bitstream writer have no influence.", "quantifier": "all previous writer states, all previous buffer contents, all parameters", "why_tests_cant": "tests always start from a zeroed buffer and fresh writer", "anchors": ["encoder/bitstream_encoding.rs: encode, init, ac_enc_init"]}
{"id": "C32", "title": "Range-coder output never collides with the side information when the bit budget holds", "statement": "If the bits reserved by the encoder's own estimate do not exceed the frame size, finishing the range coder writes only head bits that no backward-written bit occupies, and the final flush needs no more bits than were reserved.", "quantifier": "all symbol sequences, all frames", "why_tests_cant": "the last partial byte is shared bit by bit between both ends of the frame", "anchors": ["encoder/bitstream_encoding.rs: ac_enc_finish, nbits_side_forcast", "encoder/buffer_writer.rs: write_uint_forward"]}
{"id": "C33", "title": "The postponed-bit buffer never overflows", "statement": "In LSB mode the encoder never stores more postponed bits than the buffer it sized from its own estimate, and the estimate fits the fixed capacity.", "quantifier": "all spectra and configurations", "why_tests_cant": "quantifies over all spectra", "anchors": ["encoder/bitstream_encoding.rs: spectral_data (lsbs)", "encoder/spectral_quantization.rs: compute_bit_consumption (nbits_lsb)"]}
{"id": "C34", "title": "Detected bandwidth is valid and transmittable", "statement": "The encoder's bandwidth index is at most the index of the sampling rate, fits the bits of its field and passes the decoder's range check, for all sampling rates and signals.", "quantifier": "all band energies, all configurations", "why_tests_cant": "depends on floating point comparisons for arbitrary signals", "anchors": ["encoder/bandwidth_detector.rs: run", "decoder/side_info_reader.rs: read"]}
{"id": "C35", "title": "The FFT computes the discrete Fourier transform", "statement": "In exact arithmetic the mixed-radix transform equals the defining sum of the discrete Fourier transform for every transform size the codec uses.", "quantifier": "all complex inputs, all sizes whose radices are 2, 3, 4, 5 (in particular all used sizes)", "why_tests_cant": "real-valued inputs, mathematical identity", "anchors": ["common/kissfft.rs: KissFastFourierTransform::new, kf_factor, kf_work, kf_bfly2, kf_bfly3, kf_bfly4, kf_bfly5"]}
{"id": "C36", "title": "The DCT-IV kernel computes the type-IV cosine transform and is its own inverse up to scale", "statement": "In exact arithmetic the transform kernel maps x to twice the DCT-IV of x, and applying it twice gives 2N times the input.", "quantifier": "all real inputs, all frame lengths used", "why_tests_cant": "real-valued inputs, mathematical identity", "anchors": ["common/dct_iv.rs: DiscreteCosTransformIv::run"]}
{"id": "C37", "title": "Analysis followed by synthesis reconstructs the signal", "statement": "In exact arithmetic, with quantisation and shaping switched off and all lines kept, the decoder's inverse transform with overlap-add returns the encoder's input delayed by a fixed number of samples, scaled by the window's overlap condition, for any sequence of frames.", "quantifier": "all input signals, all frame sequences, all configurations", "why_tests_cant": "infinite signals; aliasing terms must cancel identically", "anchors": ["encoder/modified_dct.rs: run, apply_mdct, update_time_buffer", "decoder/modified_dct.rs: run, apply_mdct_inverse, overlap_add", "tables/mdct_windows.rs"]}
{"id": "C38", "title": "The attack detector is inert outside its operating range", "statement": "Below 32 kHz or outside the bit-rate range given for the duration, attack detection reports no attack and clears its energy history, so that its next active decision does not depend on older frames except through the two remembered samples.", "quantifier": "all input frames, all byte counts, all states", "why_tests_cant": "state carried across frames", "anchors": ["encoder/attack_detector.rs: run, is_active"]}
{"id": "C39", "title": "The transmitted noise level is a valid 3-bit value", "statement": "For every spectrum (including degenerate gains) the encoder's noise level is between 0 and 7 and only lines whose quantised neighbourhood is zero contribute to it, using the same neighbourhood as the decoder's noise filling.", "quantifier": "all spectra, gains, bandwidths, durations", "why_tests_cant": "depends on arbitrary real values and neighbourhoods at the band edge", "anchors": ["encoder/noise_level_estimation.rs: calc_noise_factor", "decoder/noise_filling.rs"]}
{"id": "C40", "title": "WAV headers round trip and parsing never crashes", "statement": "A written WAV header is parsed back to the same fields whenever they fit their field widths, and parsing any byte string returns a header or an error without panicking.", "quantifier": "all headers, all byte strings", "why_tests_cant": "infinitely many byte strings", "anchors": ["common/wav.rs: write_header, read_header"]}
{"id": "C41", "title": "Encoder pitch analysis stays in bounds and in range", "statement": "For every signal the encoder's resampler, correlation search and interpolation access their buffers only in range, and the transmitted pitch index fits its 9-bit field.", "quantifier": "all signals (through all outcomes of the comparisons), all configurations, all previous states", "why_tests_cant": "index arithmetic depends on data-dependent maxima", "anchors": ["encoder/long_term_post_filter.rs: run, pitch_detection, pitch_lag_parameter, activation_bit, dot_product, interpolate"]}
{"id": "C42", "title": "Pulse search always produces the prescribed number of pulses", "statement": "For every target vector the encoder's greedy pulse search ends with exactly the prescribed number of unit pulses in each candidate shape, so that the selected candidate is enumerable.", "quantifier": "all target vectors (through all outcomes of the comparisons)", "why_tests_cant": "depends on floating point comparisons for arbitrary vectors", "anchors": ["encoder/spectral_noise_shaping.rs: add_unit_pulse, sns_quant_stage2"]}
{"id": "C43", "title": "The gain limiter keeps quantised lines in the 16-bit range", "statement": "In exact arithmetic the gain the encoder finally quantises with is large enough that no line, after division and rounding, leaves [-32768, 32768]: the saturation of the conversion to 16 bits changes a value by at most one unit.", "quantifier": "all spectra, all budgets, all quantiser states", "why_tests_cant": "real-valued spectra of any level, interplay of search, limiter and adjustment", "anchors": ["encoder/spectral_quantization.rs: global_gain_limitation, global_gain_adjustment, quantize_spectrum"]}
{"id": "C44", "title": "The quantiser always returns", "statement": "For every spectrum, every quantiser state and every outcome of the floating point operations the quantiser of the encoder returns without an index out of range and without integer overflow, provided the side information fits into the frame and the limiter bound fits comfortably in 16 bits.", "quantifier": "all spectra, states, budgets and configurations", "why_tests_cant": "table lookups depend on data through escape levels and contexts", "anchors": ["encoder/spectral_quantization.rs: run, compute_bit_consumption, global_gain_adjustment"]}
{"id": "C45", "title": "Spectral noise shaping is undone by the decoder", "statement": "In exact arithmetic, whenever the encoder's noise shaping returns, the codebook indices it transmits are in their ranges and the decoder, reading the side information built from them, reverses the shaping: from the encoder's shaped lines it obtains the original lines.", "quantifier": "all spectra, all band energies, all configurations", "why_tests_cant": "real-valued spectra; every codebook vector, pulse shape and gain has to be reproduced exactly on the other side", "anchors": ["encoder/spectral_noise_shaping.rs: run, sns_quant_stage1, sns_quant_stage2, enumerate_index, spectral_shaping", "decoder/spectral_noise_shaping.rs"]}
{"id": "C46", "title": "The parameters the encoder computes fit the bit stream", "statement": "In exact arithmetic, for every channel state and every signal: if the analysis stages of the encoder return, every parameter handed to the bit stream writer is within its field and within the alphabets of the range coder, and the gain the lines were divided by is the gain of the transmitted index, provided the lines are in the range of the quantiser.", "quantifier": "all signals, all channel states, all configurations, all frame lengths below 4096 bytes", "why_tests_cant": "real-valued signals; ten stages feed each other", "anchors": ["encoder/lc3_encoder.rs: EncoderChannel::encode", "encoder/spectral_quantization.rs: run", "encoder/temporal_noise_shaping.rs: run", "encoder/spectral_noise_shaping.rs: run"]}
{"id": "C47", "title": "What the encoder analysed is what the decoder reads", "statement": "In exact arithmetic, from the signal to the parsed frame: for every frame in normal mode whose body fits, the encoder returns a frame of the length of the buffer, its channel stays usable, and the decoder's parser returns the parameters, the quantised lines and the refinement bits of the analysis.", "quantifier": "all signals, all channel states, all configurations", "why_tests_cant": "composition of the analysis with the bit stream round trip", "anchors": ["encoder/lc3_encoder.rs: EncoderChannel::encode", "encoder/bitstream_encoding.rs: encode", "decoder/side_info_reader.rs: read", "decoder/arithmetic_codec.rs: decode"]}
{"id": "C48", "title": "The quantisation error of a decoded line is bounded by the step size", "statement": "In exact arithmetic, the line the decoder reconstructs (after refinement, noise filling and gain) differs from the line the encoder quantised by at most 5/16 of the step if its refinement bit was transmitted, 13/16 for any other non-zero line, and 9/8 for a line quantised to zero (5/8 if it is not noise filled).", "quantifier": "all signals, all channel states, all configurations", "why_tests_cant": "real-valued lines; involves the residual coder, noise filling and the gain of both sides", "anchors": ["encoder/spectral_quantization.rs: quantize_spectrum", "encoder/residual_spectrum.rs: encode", "encoder/noise_level_estimation.rs", "decoder/residual_spectrum.rs", "decoder/noise_filling.rs", "decoder/global_gain.rs"]}
{"id": "C49", "title": "The decoded spectrum is the analysed spectrum plus the shaped quantisation error", "statement": "In exact arithmetic, the spectrum the decoder passes to its inverse transform minus the spectrum of the encoder's transform equals the quantisation error sent through the decoder's temporal and spectral noise shaping.", "quantifier": "all signals, all channel states, all configurations, excluding the two cases in which temporal noise shaping is known not to be undone (C15)", "why_tests_cant": "composition of all stages of encoder and decoder over real-valued spectra", "anchors": ["encoder/lc3_encoder.rs: EncoderChannel::encode", "decoder/lc3_decoder.rs: decode_frame", "decoder/temporal_noise_shaping.rs", "decoder/spectral_noise_shaping.rs"]}
{"id": "C50", "title": "The range coder needs hardly more than the information of its symbols", "statement": "Whatever symbols are coded, the encoder's count of the bits of the range coder exceeds the information of the symbols (the binary logarithms of 1024 over their frequencies) by at most 0.0227 bits per symbol plus 2.0000001 bits (plus the eight bits it counts too many before the first byte is emitted).", "quantifier": "all symbol sequences over all proper models, all frame sizes", "why_tests_cant": "rounding of the range accumulates over arbitrarily long symbol sequences", "anchors": ["encoder/bitstream_encoding.rs: ac_encode, ac_shift, nbits_side_forcast"]}
{"id": "C51", "title": "The bit estimation tables match the probability tables", "statement": "Every entry of the three tables used to estimate bits is exactly 2048 times the information of the corresponding symbol of the range coder, rounded up.", "quantifier": "every entry of every table", "why_tests_cant": "the entries are rounded logarithms; a wrong entry only shifts an estimate", "anchors": ["tables/spectral_data_tables.rs: AC_SPEC_BITS, AC_SPEC_FREQ", "tables/temporal_noise_shaping_tables.rs: AC_TNS_ORDER_BITS, AC_TNS_COEF_BITS"]}
{"id": "C52", "title": "The quantiser's truncation keeps the spectrum within its budget", "statement": "In exact arithmetic, the spectrum the quantiser hands to the bit stream writer (after truncation, in the mode the writer uses) costs at most the bit budget of the spectrum, counting the information of its symbols and every bit written without entropy coding; only a spectrum of a single pair of lines may cost more.", "quantifier": "all spectra, gains, budgets, quantiser states and configurations", "why_tests_cant": "an estimate on one side is compared with the bits written by another module through contexts, escapes and the LSB mode", "anchors": ["encoder/spectral_quantization.rs: compute_bit_consumption, quantize_spectrum", "encoder/bitstream_encoding.rs: spectral_data"]}
{"id": "C53", "title": "The encoder's bit budget is sufficient", "statement": "In exact arithmetic, a frame analysed by the encoder with more than one pair of lines and at most 44, 88 or 132 range coded symbols (up to 160, up to 320, more bytes) is written without an error and by the encoder's own count it fits into the buffer. Without the limit on the number of symbols this is false.", "quantifier": "all signals, all channel states, all configurations, all frame lengths below 4096 bytes", "why_tests_cant": "a frame that overflows needs a spectrum whose estimate is tight and whose symbols make the range coder round unfavourably", "anchors": ["encoder/spectral_quantization.rs: calc_bit_budget", "encoder/bitstream_encoding.rs: encode", "encoder/temporal_noise_shaping.rs: calc_bit_budget"]}
{"id": "C54", "title": "A step of the range decoder returns the symbol that owns the code value", "statement": "For every proper model and every state with a range of 17 to 24 bits: a code value beyond all shares is rejected with an error; any other lies in the share of exactly one symbol, which is returned, and the new state is the position in the share and its size, extended by as many bytes as bring the range back to at least 17 bits; missing bytes are an error.", "quantifier": "all models, states, buffers and read positions", "why_tests_cant": "damaged frames reach states no encoder produces", "anchors": ["decoder/arithmetic_codec.rs: ac_decode", "decoder/buffer_reader.rs: read_head_byte"]}
{"id": "C55", "title": "The analysis of a frame returns", "statement": "In exact arithmetic, for every channel of a constructed encoder, every frame of samples and every frame size of 32 to 4095 bytes, all analysis stages of the encoder return without a panic, provided the signal is regular: the residual of the first stage of noise shaping does not vanish, no reflection coefficient reaches one, and the lines are in the range of the quantiser.", "quantifier": "all signals, channel states, configurations and frame sizes", "why_tests_cant": "ten stages with data dependent indices, slices, table lookups and integer conversions", "anchors": ["encoder/lc3_encoder.rs: EncoderChannel::encode", "encoder/temporal_noise_shaping.rs: run", "encoder/spectral_noise_shaping.rs: run", "encoder/spectral_quantization.rs: run"]}
{"id": "C56", "title": "Digital silence stays silence", "statement": "In exact arithmetic, a new encoder and a new decoder in zeroed buffers pass any number of frames of zeros without a panic and every decoded sample is zero, for any order of the channels, any frame sizes of 20 to 4095 bytes, with and without overflow checks, and also when frames are damaged on the way and concealed.", "quantifier": "all configurations except 8 kHz, all numbers of channels, all sequences of frames", "why_tests_cant": "unbounded sequences of frames through both state machines; zero energies and zero spectra are the edge cases of every stage", "anchors": ["encoder/lc3_encoder.rs: encode_frame", "decoder/lc3_decoder.rs: decode_frame", "decoder/packet_loss_concealment.rs", "decoder/long_term_post_filter.rs"]}
{"id": "C57", "title": "Frames of standard length never overflow the noise filling seed", "statement": "For every reachable decoder and every frame of at most 400 bytes, whatever its bytes, a build with overflow checks returns exactly what a build without them returns, including the decoder state; in particular every frame of 20 to 400 bytes is decoded without a panic in both builds. Without the bound on the length this is false (900 bytes).", "quantifier": "all configurations, reachable decoder states, channels and byte strings of at most 400 bytes", "why_tests_cant": "the sum is near its limit only for spectra of dozens of huge lines at the upper end, which random bytes do not produce", "anchors": ["decoder/arithmetic_codec.rs 139-144: noise_filling_seed", "decoder/arithmetic_codec.rs: decode_spectral_data, calc_num_residual_bits", "tables/spectral_data_tables.rs: AC_SPEC_FREQ, AC_SPEC_LOOKUP"]}
{"id": "C58", "title": "Errors in the spectrum stay bounded in time", "statement": "In exact arithmetic, two consecutive frames go through the encoder's transform and any two spectra are given to the decoder's transform. Every sample of the second frame is the input sample nf - 2z earlier, times its window weight (within 1e-13 of one), up to an error of at most 1.064 times the Euclidean distances of the spectra of this frame and, in the overlap, of the frame before. The energy of the error of a frame is at most five times the energy of both spectral errors.", "quantifier": "all configurations, initial buffers, frames and spectra", "why_tests_cant": "real valued inputs; aliasing terms and transform gain are only visible for adversarial spectra", "anchors": ["decoder/modified_dct.rs: run, apply_mdct_inverse", "encoder/modified_dct.rs: run", "common/dct_iv.rs: run", "tables/mdct_windows.rs"]}
{"id": "C59", "title": "The decoded samples are the encoded samples, delayed", "statement": "In exact arithmetic, from any states, two consecutive frames of 16 bit samples that are coded (lines in range, first coding mode, fitting frame) without the post filter are decoded, and every decoded sample of the second frame differs from the input sample nf - 2z earlier by at most one half plus 1e-8 plus 1.064 times the distances between the decoder's and the encoder's spectra of the two frames. The post filter is never used from 560 + 80 fs_ind bits per 10 ms on.", "quantifier": "all signals, configurations, encoder and decoder states, frame lengths below 4096 bytes", "why_tests_cant": "the whole chain of both programs, with real valued intermediate results", "anchors": ["encoder/lc3_encoder.rs: EncoderChannel::encode", "decoder/lc3_decoder.rs: DecoderChannel::decode", "decoder/output_scaling.rs", "decoder/long_term_post_filter.rs: run", "encoder/long_term_post_filter.rs: run"]}
{"id": "C60", "title": "The decoder resynchronises after damaged frames", "statement": "Two decoder channels made with any buffers decode any frames, damaged, lost or good, in numbers with equal remainder modulo the blocks of the post filter memory. Then both get the same good frames: at least 3 of 10 ms or 4 of 7.5 ms without the post filter, then any others. All calls return, from the second of these frames on all output samples of both are bit for bit equal, and the states at the end differ at most in the frame counter and the random number of the concealment. While the post filter stays off the outputs agree from the second frame on for histories of any lengths.", "quantifier": "all configurations, buffers, histories, frames; any arithmetic, with and without overflow checks", "why_tests_cant": "the histories are arbitrary byte strings of any number; equality of all later outputs needs the complete state", "anchors": ["decoder/lc3_decoder.rs: DecoderChannel::decode", "decoder/packet_loss_concealment.rs: save", "decoder/modified_dct.rs: overlap_add", "decoder/long_term_post_filter.rs: run"]}
{"id": "C61", "title": "The long term post filter is stable", "statement": "In exact arithmetic, from a filter whose initial memory and whose input samples are at most X in size, and for every sequence of frames with any pitch indices below 512, any number of bits and the filter switching on, off and between lags in any order, the filter returns and every output sample is at most 5 X in size, however long the sequence. It is also continuous: two runs with the same side information whose memories and input samples differ by at most e deliver output samples that differ by at most 5 e.", "quantifier": "all configurations, all sequences of frames of any length with any side information, all real samples", "why_tests_cant": "A recursive filter that is unstable only for some gain, rate, fractional lag and sequence of transitions blows up after thousands of frames; the bound is over all infinite inputs and includes the in-place transition that overwrites history.", "anchors": ["src/decoder/long_term_post_filter.rs:142-250", "src/decoder/long_term_post_filter.rs:252-430", "src/tables/long_term_post_filter_coef.rs"]}
{"id": "C62", "title": "The attack detector finds the attacks of the signal", "statement": "In exact arithmetic, from construction and after any frames the last of which was outside the operating range (or at the start), every frame of a stretch inside the operating range is processed, and frame m of the stretch is reported exactly if the signal of the whole stretch (summed down to 16 kHz, filtered with 3/8, -1/2, 1/8, cut into blocks of 40) has a block in this frame, or late in the frame before, whose energy is above 8.5 times the energy of every earlier block of the stretch faded by four per block.", "quantifier": "all sampling rates and durations with a detector, all sequences of frames of any length and contents, all frame sizes in and out of the range", "why_tests_cant": "The decision depends on the whole history through a running maximum; block and frame boundaries, the two remembered samples and the delayed report interact over arbitrarily many frames.", "anchors": ["src/encoder/attack_detector.rs:45-88", "src/encoder/attack_detector.rs:106-127"]}
{"id": "C63", "title": "The detected bandwidth is the one of the energies", "statement": "In exact arithmetic, for every sampling rate from 16 kHz on: let c be the smallest bandwidth such that the mean energy of every region above is below its limit. The detector reports c if c is the full bandwidth, or if one of the L - 1 bands below the region above c has an energy smaller than the energy L bands below by more than the factor of the limit; otherwise it reports the full bandwidth.", "quantifier": "all 64 real band energies, all rates and durations with a detector", "why_tests_cant": "The two stages read overlapping windows whose position depends on the first stage; an off by one in a window changes the result only for energies with a step at one place.", "anchors": ["src/encoder/bandwidth_detector.rs:5-18", "src/encoder/bandwidth_detector.rs:64-132"]}
{"id": "C64", "title": "Every bandwidth can be detected", "statement": "For every sampling rate with a detector and every bandwidth up to the full one there are positive band energies for which this bandwidth is reported. (False for the bandwidth of 32 kHz at 48 kHz with 10 ms frames: the search range for the drop is empty, so it is never reported.)", "quantifier": "all rates, durations and bandwidths; for the false case all energies", "why_tests_cant": "That a result never occurs cannot be seen from any finite number of runs.", "anchors": ["src/encoder/bandwidth_detector.rs:17-18", "src/encoder/bandwidth_detector.rs:107-132"]}
{"id": "C65", "title": "Leaving out the logarithm has no effect on the bandwidth", "statement": "A comment of the code says that adding epsilon and taking ten times the logarithm of the quotient does not seem to have any effect. Claim: for positive energies the reported bandwidth is the one with the drop in decibel compared with the same limit. (False: a drop by a factor of 20 is 13 dB, below the limit of 15, but the code finds it. One direction holds: a drop above the limit in decibel is found.)", "quantifier": "all positive band energies, all rates and durations with a detector", "why_tests_cant": "The two rules differ only for quotients between T and 10^(T/10); the test vectors have none.", "anchors": ["src/encoder/bandwidth_detector.rs:109-118"]}
{"id": "C66", "title": "The first stage of the scale factor quantiser finds the nearest code vectors", "statement": "For all 16 scale factors (exact arithmetic) the two transmitted indices name the first nearest vectors of the low and of the high code book in squared Euclidean distance; the first stage vector consists of these two and the residual is what is left.", "quantifier": "all vectors of 16 real scale factors, all 32 + 32 code vectors", "why_tests_cant": "The set of inputs is a continuum; a wrong index is still a valid stream and only changes the sound.", "anchors": ["src/encoder/spectral_noise_shaping.rs:318-361"]}
{"id": "C67", "title": "The pulse search is greedy", "statement": "For every target (exact arithmetic) the pulses of shapes 3, 2 and 1 are added one after the other, each at the first position that maximises squared correlation per energy; the pulse of shape 0 in the last six positions is at the first largest magnitude; all pulses have the signs of the target. (False for shapes 2 and 1: add_unit_pulse hands back the correlation and energy of the last position it scanned; for a target with a single entry one of the 8 pulses is put elsewhere.)", "quantifier": "all real targets of 16 entries", "why_tests_cant": "The vectors found are valid and close to the best ones; only a comparison with an independent search would show the difference.", "anchors": ["src/encoder/spectral_noise_shaping.rs:285-316", "src/encoder/spectral_noise_shaping.rs:386-479"]}
{"id": "C68", "title": "The best shape and gain are chosen", "statement": "For every residual (exact arithmetic) the candidate of the chosen shape with the chosen gain is at least as close to the rotated residual as each of the four candidates with each of its 2, 4, 4 and 8 gains. (False: the loop stops before the last gain of each shape; a residual that shape 3 represents exactly with its last gain is quantised with an error. It holds for all other gains.)", "quantifier": "all real residuals of 16 entries, all shapes and gains", "why_tests_cant": "The chosen pair is always a valid one; that a better one exists is not visible in the stream.", "anchors": ["src/encoder/spectral_noise_shaping.rs:487-518"]}
{"id": "C69", "title": "The rotation in front of the second stage keeps distances", "statement": "The table of the rotation is orthonormal up to its precision: the energy of a residual changes by less than 2e-15 of itself, and the squared distance between a residual and a vector rotated back differs from the one between the rotated residual and the vector by at most 2e-15 of their energies. Consequence: the squared error of the quantised scale factors is at most that of every shape with every gain tried, up to 4e-15 of the energies.", "quantifier": "all real residuals and vectors of 16 entries (exact arithmetic)", "why_tests_cant": "A wrong digit in one of the 256 table entries gives a slightly worse quantiser and no failing test.", "anchors": ["src/tables/spec_noise_shape_quant_tables.rs:310-412", "src/encoder/spectral_noise_shaping.rs:379-384", "src/encoder/spectral_noise_shaping.rs:520-568"]}
{"id": "C70", "title": "The gain search finds the boundary of the budget", "statement": "In exact arithmetic the expected cost of a spectrum falls with the gain, and the bisection over 256 gain indices returns the smallest index whose expected cost is within the budget (255 if there is none below). The transmitted index is at least this one minus one and at most this one plus two, except where a smaller index would leave the 16-bit range.", "quantifier": "all spectra, budgets, offsets and states of the quantiser", "why_tests_cant": "A bisection that is off by one, or that relies on a cost that is not monotone, still returns a valid index for every frame.", "anchors": ["src/encoder/spectral_quantization.rs:133-229", "src/encoder/spectral_quantization.rs:393-398"]}
{"id": "C71", "title": "The rate control follows its recursion", "statement": "Unless the offset was reset, the offset of the budget is 0.8 times the last one plus 0.2 times the last one plus the budget minus the estimate of the last frame, the latter limited to +-40. (False: the budget of the last frame is never stored. What holds: the recursion with zero instead of it, the offset is always between -40 and 0, and with frames of at least 40 bits it is exactly -40 (1 - 0.8^k): it settles at 40 bits below the budget.)", "quantifier": "all sequences of frames, all spectra and frame sizes", "why_tests_cant": "The feedback acts over many frames and only shifts the gain index by a little; every single frame is valid.", "anchors": ["src/encoder/spectral_quantization.rs:53-75", "src/encoder/spectral_quantization.rs:95-99", "src/encoder/spectral_quantization.rs:154-171"]}
{"id": "C72", "title": "The gain adjustment is the specified one", "statement": "In exact arithmetic: the index becomes smaller by one exactly when it is positive and the estimate is below the budget by more than the tolerance plus two bits, larger by one or two exactly when it is below 255 and the estimate exceeds the budget (by one if the excess is below the tolerance or the index is 254), and is never below the limiter's bound; the tolerance is a piecewise linear function of the estimate with nodes linear in the sampling rate, rounded.", "quantifier": "all indices, bounds, budgets and estimates, five sampling rates", "why_tests_cant": "Five times three table entries and four linear pieces with boundaries; wrong ones change only the rate.", "anchors": ["src/encoder/spectral_quantization.rs:350-391"]}
{"id": "C73", "title": "The Levinson recursion finds the best predictor", "statement": "In exact arithmetic, for an autocorrelation that no filter of order 8 can cancel: the coefficients of the recursion solve the normal equations, the returned error is the energy that remains, it is positive, and it is the smallest of all monic filters of order 8, reached by this filter only.", "quantifier": "all autocorrelations with a positive definite 9x9 Toeplitz matrix", "why_tests_cant": "A wrong index in the recursion gives a worse filter, not a wrong frame; a test sees only a little more noise.", "anchors": ["src/encoder/temporal_noise_shaping.rs:240-300"]}
{"id": "C74", "title": "The reflection coefficients are inside the unit interval", "statement": "In exact arithmetic, for an autocorrelation that no filter of order 8 can cancel, all reflection coefficients that the step-down recursion computes have a magnitude below one, with and without the weighting of the predictor; so none of them leaves the range of the quantiser.", "quantifier": "all such autocorrelations, both weightings, near Nyquist flag set or not", "why_tests_cant": "The bound holds by an argument on the zeros of the predictor; an index out of the tables needs extreme spectra.", "anchors": ["src/encoder/temporal_noise_shaping.rs:240-330"]}
{"id": "C75", "title": "Temporal noise shaping returns unless the spectrum is extremely smooth", "statement": "In exact arithmetic: if no filter of order 8 reduces the energy of the three parts of a filter range below 1e-15 of what white spectra would keep (or one part has no energy), the normalised and windowed autocorrelation is positive definite and the temporal noise shaping of the encoder returns with at most 180 bits; the whole analysis of the frame then returns under the other conditions of C55.", "quantifier": "all configurations, bandwidths, frame sizes and spectra", "why_tests_cant": "The lag window with its 16 digits is not positive definite; whether this can make a reflection coefficient leave the unit interval is not visible in tests.", "anchors": ["src/encoder/temporal_noise_shaping.rs:40-110", "src/encoder/temporal_noise_shaping.rs:200-330"]}
{"id": "C76", "title": "The pitch analysis works on one continuous signal", "statement": "In exact arithmetic, started with zeroed buffers: after any frames, the buffers of the pitch analysis hold the latest samples of the whole input resampled to 12.8 kHz (with the filter at 192 kHz), high passed at 50 Hz and delayed, and of this signal decimated to 6.4 kHz. No frame boundary leaves a trace.", "quantifier": "all configurations, numbers of frames and samples", "why_tests_cant": "An index that is off by one at a frame boundary changes a few samples of an analysis signal that no test looks at.", "anchors": ["src/encoder/long_term_post_filter.rs:139-245"]}
{"id": "C77", "title": "The pitch analysis gives the specified results", "statement": "In exact arithmetic, started with zeroed buffers: in every frame the open loop lag is the first maximum of the weighted correlation at 6.4 kHz, or the first maximum near the last lag if it is almost as good; a pitch is present exactly if the normalised correlation exceeds 0.6; the lag in quarters of a sample is the first maximum of the correlation at 12.8 kHz and of its interpolation (the lowest candidate if there is no positive value); the index is that of the lag; and the post filter is active exactly under the conditions on the correlations and pitches of this frame and the two before. These conditions determine the results.", "quantifier": "all configurations, numbers of frames, samples, near Nyquist flags and bit rates", "why_tests_cant": "Tests see one pitch index per frame of a few signals; a wrong weighting, range, tie or memory shows only for others.", "anchors": ["src/encoder/long_term_post_filter.rs:139-215", "src/encoder/long_term_post_filter.rs:232-469"]}
{"id": "C78", "title": "The pitch analysis does not depend on the loudness", "statement": "In exact arithmetic, started with zeroed buffers: multiplying all samples of all frames by the same positive integer changes none of the results.", "quantifier": "all configurations, frames and factors", "why_tests_cant": "A threshold that is not relative would only show for signals that are soft or loud enough.", "anchors": ["src/encoder/long_term_post_filter.rs:139-455"]}
{"id": "C79", "title": "Leading silence only delays the pitch analysis", "statement": "In exact arithmetic, started with zeroed buffers: a silent frame before all others gives no pitch and an inactive post filter, and all other frames give the results they give without it.", "quantifier": "all configurations and frames", "why_tests_cant": "State that a silent frame leaves behind (a lag, a correlation) influences later frames only under narrow conditions.", "anchors": ["src/encoder/long_term_post_filter.rs:139-455"]}
{"id": "C80", "title": "What frames in least significant bit mode lose", "statement": "In exact arithmetic: a frame coded in least significant bit mode is read back without error although the decoder mixes up the escape levels, and every decoded line differs from the line before quantisation by at most 21/8 steps; by at most 13/8 steps if its magnitude is at least 2; by at most 9/8 steps if neither its own pair of lines nor the pair the decoder looks at instead was escaped. The spectrum differs from the analysed one by this error sent through the decoder's noise shaping.", "quantifier": "all frames in this mode, all configurations and all states of the encoder", "why_tests_cant": "The size of the loss depends on which pairs are escaped; tests of one frame do not show a bound.", "anchors": ["src/decoder/arithmetic_codec.rs:160-212", "src/decoder/arithmetic_codec.rs:345-390", "src/encoder/bitstream_encoding.rs"]}
{"id": "C81", "title": "The scale factors follow from the band energies as specified", "statement": "In exact arithmetic, for 64 bands: smoothing with 1 2 1 and repeated edges, tilt of 14 to 30 dB, floor at 40 dB below the mean, half of the binary logarithm, groups with the weights 1 2 3 3 2 1 and repeated edges, removal of the mean and the factor 0.85, and in case of an attack the mean of up to five neighbours and the factor 0.5 or 0.3. With 60 bands (8 kHz, 7.5 ms) the computation panics for all energies.", "quantifier": "all configurations and all energies, with and without an attack", "why_tests_cant": "The first and last values of each step are special cases; a wrong weight there changes two of 16 scale factors a little.", "anchors": ["src/encoder/spectral_noise_shaping.rs:75-241"]}
{"id": "C82", "title": "The scale factors have mean zero, are bounded and do not depend on the loudness", "statement": "In exact arithmetic, for 64 bands and energies that are not negative: the scale factors add up to zero, each is below 7.7 in magnitude (3.85 or 2.31 in case of an attack), and multiplying all energies by a factor of at least one changes each by at most 0.425 log2(1 + 2^-23/m), where m is the mean tilted energy lowered by 40 dB.", "quantifier": "all configurations, energies and factors", "why_tests_cant": "A floor or constant that is not relative changes the shaping of soft recordings only.", "anchors": ["src/encoder/spectral_noise_shaping.rs:203-241"]}
{"id": "C83", "title": "The band energies are the mean squares of the lines", "statement": "In exact arithmetic: the band tables split the coded lines without gap and overlap, every energy is the mean square of the lines of its band, the energies weighted with the widths of the bands add up to the energy of the coded lines, and the near Nyquist flag is set exactly if the sampling frequency is at most 32 kHz and the last 2 or 4 bands have more than 30 times the energy of the others.", "quantifier": "all configurations, all samples and all states of the time buffer", "why_tests_cant": "A line counted twice or left out at a band edge changes one energy by a few per cent.", "anchors": ["src/encoder/modified_dct.rs:108-177", "src/tables/band_index_tables.rs"]}
{"id": "C84", "title": "The encoding program encodes the samples of the file", "statement": "For a valid WAV file with a whole number of 16 bit samples the program calls the encoder, frame by frame and in a frame channel by channel, with the samples of the file in their order, the last frame filled up with zeros; the new file consists of these frames in this order and has the stated number of bytes for each channel of each begun frame. A file without a valid header is refused, and a file with an odd number of data bytes is not encoded.", "quantifier": "all files, all configurations, all numbers of channels from 1 on and all frame sizes", "why_tests_cant": "A sample lost at the end of the data or two channels exchanged in the last, incomplete frame need files of particular lengths.", "anchors": ["examples/encode.rs:36-120"]}
{"id": "C85", "title": "The decoding program decodes all frames of the file", "statement": "The program calls the decoder with the pieces of the stated size in their order, cycling through the channels, for all of them, and writes the samples of all complete frames, interleaved, behind the header. (False: the last frame of every file is left out.)", "quantifier": "all files (also damaged ones), configurations, numbers of channels and frame sizes from 1 on", "why_tests_cant": "One frame of 10 ms missing at the end is not heard and not seen by a test that compares a prefix.", "anchors": ["examples/decode.rs:36-124"]}
{"id": "C86", "title": "The header written by the decoding program describes the data", "statement": "The new WAV file begins with a valid header which states the number of channels, the sampling frequency, 16 bits per sample, the byte rate and the amount of data, and the samples begin behind it. (False: the amount of data is stated as 0 in every file.)", "quantifier": "all files, configurations, frame sizes from 1 on and numbers of channels from 1 to 32767", "why_tests_cant": "Players that ignore the stated amount play the file.", "anchors": ["examples/decode.rs:66-81"]}
{"id": "C87", "title": "The encoding program reads what the decoding program wrote", "statement": "The file written by the decoding program is a valid input of the encoding program with the same configuration, which then encodes, frame by frame and channel by channel, exactly the samples that the decoder returned.", "quantifier": "all files, configurations, frame sizes from 1 on and numbers of channels from 1 to 32767", "why_tests_cant": "An error in the order of the samples that both programs share cannot be seen by encoding and decoding.", "anchors": ["examples/decode.rs:85-124", "examples/encode.rs:73-116"]}
{"id": "C88", "title": "Rounding error of the Fourier transform in binary32", "statement": "In binary32 the mixed radix Fourier transform returns finite values, and the norm of the error against the exact discrete Fourier transform is at most 24 log2(n) / 2^24 of the norm of the exact result (plus a term below 10^-20 for results that underflow).", "quantifier": "all inputs with finite parts up to 2^40, both directions, all lengths from 2 to 2^20 without prime factors above 5, all sines and cosines with an absolute error up to 2^-24", "why_tests_cant": "Tests compare a few transforms of the sizes used with stored results; they say nothing about the worst input.", "anchors": ["src/common/kissfft.rs:17-290"]}
{"id": "C89", "title": "Rounding error of the transform kernel in binary32", "statement": "In binary32 the cosine transform of type IV returns finite values, and the norm of the error against twice the exact transform is at most 146 / 2^24 (below 10^-5) of the norm of the exact result (plus a term below 10^-20 for results that underflow).", "quantifier": "all frames of finite values up to 2^40, all configurations, all sines and cosines with an absolute error up to 2^-24", "why_tests_cant": "The worst frame for the accumulation of rounding errors is not known and would have to be searched in a space of hundreds of dimensions.", "anchors": ["src/common/dct_iv.rs:22-67", "src/common/kissfft.rs:17-290"]}
{"id": "C90", "title": "Rounding error of the encoder's transform in binary32", "statement": "For samples up to the amplitude A the encoder's transform returns finite lines in binary32, and their root mean square error against the lines in exact arithmetic is at most A / 50000.", "quantifier": "all time buffers and frames of samples up to A <= 32768, all configurations, all sines, cosines and square roots with an error up to 2^-24", "why_tests_cant": "The exact lines are not available to a test; reference implementations round in their own way.", "anchors": ["src/encoder/modified_dct.rs:73-152", "src/common/dct_iv.rs:22-67"]}
{"id": "C91", "title": "Analysis and synthesis in binary32 reconstruct the signal up to a small error", "statement": "When frames of samples up to the amplitude A go through the encoder's and then the decoder's transform in binary32, both started from their initial state, all output samples are finite, and in every frame the root mean square difference to the delayed input is at most A / 8192, provided the exact lines that are not transmitted are zero.", "quantifier": "all sequences of frames of samples up to A <= 32768, all configurations, all sines, cosines and square roots with an error up to 2^-24", "why_tests_cant": "The claim is about the worst case over all signals of any length, including the accumulation of errors in the overlap memory.", "anchors": ["src/encoder/modified_dct.rs:73-152", "src/decoder/modified_dct.rs:76-151"]}
{"id": "C92", "title": "The decoder's noise shaping follows the interpolation rule", "statement": "In exact arithmetic, whenever the decoder's noise shaping returns, every line of band b was multiplied by 2 to the power of the scale factor of that band and the lines from ne on are unchanged. The sixteen transmitted scale factors are the two code vectors plus the gain times the transformed, normalised pulses; between them the factors are linear, with centres at 4n + 3/2, and constant outside; with fewer than 64 bands each of the first 64 - nb factors is the mean of two.", "quantifier": "all configurations, all transmitted indices, all spectra, exact arithmetic", "why_tests_cant": "The encoder uses the same interpolation, so an error in it cannot be seen by comparing encoder and decoder.", "anchors": ["src/decoder/spectral_noise_shaping.rs:21-151"]}
{"id": "C93", "title": "The decoder never holds a NaN or an infinity", "statement": "In binary32, when a decoder is made from working buffers of finite values up to 2^80, then after any sequence of calls that return every number it holds is finite: spectra, overlap memories, filter coefficients and memories, and the samples before their conversion to integers. Without overflow checks, and for frames whose length is not one of those of C06, the calls do return.", "quantifier": "all configurations, numbers of channels, sequences of calls on any channels, frame contents (valid, damaged, concealed) of fewer than 2^28 bytes; sines, square roots, powers of ten and powers of two with the accuracy stated in Spec/Finite.lean", "why_tests_cant": "One infinity in a filter memory would silence a channel for good; the frame that causes it, if there was one, would be one among 2^3200 contents in some state.", "anchors": ["src/decoder/lc3_decoder.rs:73-175", "src/decoder/temporal_noise_shaping.rs:24-110", "src/decoder/long_term_post_filter.rs:142-430"]}
{"id": "C94", "title": "The encoder carries no NaN and no infinity from frame to frame", "statement": "In binary32, when an encoder is made from buffers of samples and of finite values up to 2^18, then after any sequence of calls that return every number it keeps for later frames is finite: the energies of the attack detector, the resampled signals, filter state, pitch and correlations of the pitch analysis, and the bit offset of the quantiser. The filtered signal stays below 2^18, the state of the high pass filter below 2^28 and the bit offset within 41 bits. The pitch analysis returns for every sequence of frames of the right length.", "quantifier": "all configurations, numbers of channels (for the whole encoder under the condition that the calls return), sequences of calls with any 16 bit samples and frame sizes; square roots with an error up to 2^-24", "why_tests_cant": "The high pass filter is recursive with poles at a distance of 0.018 from the unit circle and runs on its own rounded output for as long as the encoder lives; no test runs long enough on every signal.", "anchors": ["src/encoder/long_term_post_filter.rs:139-424", "src/encoder/attack_detector.rs:45-127", "src/encoder/spectral_quantization.rs:155-163"]}
{"id": "C95", "title": "The pseudo random generators have full period and balanced signs", "statement": "The generators of the noise filling and of the concealment visit each of the 65536 states exactly once before they repeat, from any start. The sign drawn 32768 draws later is always the opposite, so that among any 65536 consecutive draws exactly half are positive.", "quantifier": "all states, all numbers of draws", "why_tests_cant": "A wrong constant still gives noise that sounds like noise; only the whole cycle shows a short period or a bias.", "anchors": ["src/decoder/noise_filling.rs:45-60", "src/decoder/packet_loss_concealment.rs:60-80"]}
{"id": "C96", "title": "From the signal to the parsed frame in binary32", "statement": "In binary32, whenever the analysis of a frame returns, the gain index has 8 bits and no coded line is -32768, every parameter of the frame is within the range of the format and the gain the encoder divided by is, bit for bit, the gain the decoder computes from the transmitted index. If the frame is in normal mode and its body fits, the encoder writes a frame of the length of the buffer, stays usable, and the decoder's parser returns exactly the parameters, quantised lines and refinement bits of the analysis.", "quantifier": "all signals, states of a channel, configurations and frame sizes below 4096 bytes, all functions in the place of sqrt, sin, log2, pow and the others", "why_tests_cant": "The vector quantiser of the noise shaping searches in rounded arithmetic; that its indices stay in range for every spectrum cannot be seen from examples, and a NaN from a library function may appear on one platform only.", "anchors": ["src/encoder/lc3_encoder.rs:63-112", "src/encoder/spectral_noise_shaping.rs:30-420", "src/encoder/bitstream_encoding.rs:77-330"]}
{"id": "C97", "title": "The quantiser in binary32", "statement": "In binary32, for finite lines within the range of the largest gain, the quantiser returns whenever the side information fits; the gain index is in 0..255, the gain is finite, positive and that of the index up to a relative error of 2^-19; no line is larger than 32768 steps, and every coded line of at most 32767.5 steps is approximated by an integer of at most 32767 with an error of at most 0.63 steps.", "quantifier": "all finite lines up to 32767 times the largest gain, all states, all configurations, frame sizes below 4096 bytes; log10 and powers of ten with a relative error up to 2^-22", "why_tests_cant": "The limiter rounds a logarithm up to an integer; an error of one unit in the last place at exactly the wrong line would give a 16 bit overflow that no random test hits.", "anchors": ["src/encoder/spectral_quantization.rs:77-116", "src/encoder/spectral_quantization.rs:205-260"]}
{"id": "C98", "title": "When the analysis of the encoder returns in binary32", "statement": "In binary32 the analysis of a frame returns if and only if two conditions hold: the shape chosen by the quantiser of the noise shaping is not the first one or the last six entries of the rotated residual hold a pulse, and no reflection coefficient of the temporal noise shaping is exactly 1 or -1. In all other cases it panics. When it returns, the lines that reach the quantiser are finite and at most 2^76. The requirements on the channel hold in a new encoder and survive every frame.", "quantifier": "all channels of an encoder, all frames of 16 bit samples, all configurations but 8 kHz (where no encoder can be made), frame sizes of 32 to 4095 bytes; elementary functions with the errors of EncFunctions", "why_tests_cant": "The panics need a coefficient that rounds to exactly 1 or a residual without a pulse; whether there are further panics can only be settled for all signals at once.", "anchors": ["src/encoder/lc3_encoder.rs:63-103", "src/encoder/temporal_noise_shaping.rs:204-311", "src/encoder/spectral_noise_shaping.rs:363-568"]}
{"id": "C99", "title": "The quantisation error of a decoded line in binary32", "statement": "In binary32, for a coded frame in normal mode whose lines are finite and at most 32767.5 steps, all lines the decoder reconstructs are finite, the gain is that of the transmitted index up to a relative error of 2^-19, and every line that was not cut off differs from the line the quantiser got by at most 0.33 steps if its refinement bit was transmitted, 0.82 steps if its value is not zero, and 1.14 steps (0.64 without noise filling) if it is zero.", "quantifier": "all signals, states of a channel, configurations and frame sizes below 4096 bytes; log10 and powers of ten with a relative error up to 2^-22", "why_tests_cant": "The comparison that makes the refinement bit is rounded; whether a rounding at the boundary can send the refinement the wrong way by a large amount needs all pairs of lines and gains.", "anchors": ["src/encoder/spectral_quantization.rs:205-260", "src/encoder/residual_spectrum.rs:33-63", "src/decoder/residual_spectrum.rs:13-42", "src/decoder/global_gain.rs:15-27"]}
{"id": "C100", "title": "Digital silence stays silence in binary32", "statement": "In binary32, an encoder and a decoder constructed in zeroed buffers pass any number of frames of zeros, in any order of the channels and with any mixture of frame sizes of 20 to 4095 bytes, without a panic, and every decoded sample is zero; also when some frames are damaged on the way and concealed, in builds with and without overflow checks.", "quantifier": "all numbers of channels, all configurations but 8 kHz (where no encoder can be made), all sequences of frames and sizes; elementary functions with the errors of EncFunctions and LogFunctions", "why_tests_cant": "Silence is the input on which divisions by zero, logarithms of zero and empty searches happen; the noise shaping sees rounding residues of about 2^-20 in the place of zeros, and every state of the long term predictor, the rate control and the concealment has to stay harmless for ever.", "anchors": ["src/encoder/lc3_encoder.rs:63-112", "src/encoder/spectral_noise_shaping.rs:30-420", "src/encoder/temporal_noise_shaping.rs:40-115", "src/encoder/spectral_quantization.rs:77-347", "src/decoder/lc3_decoder.rs:78-175"]}
{"id": "C101", "title": "The bit budget is kept in binary32", "statement": "In binary32 the quantised spectrum handed to the writer costs at most its budget: information of the range coded symbols plus the bits written without entropy coding, in the mode used, where a spectrum of one pair of lines needs a frame of at least 53 bytes. With the side information and the temporal noise shaping filters, at least two (up to 160 bytes), three (up to 320 bytes) or four bits of the frame are left for the range coder; with at most 44, 88 or 132 range coded symbols the body is written without an error and fits the frame by the encoder's own count (up to the eight bits of a first byte that is held back).", "quantifier": "all configurations, channel states, signals for which the analysis returns, and frame sizes up to 1023 bytes; all elementary functions for the cost, those of GainFunctions for the frame", "why_tests_cant": "The estimate adds table entries in 1/2048 bits, converts the sum to f32 and rounds up; one missing term, a rounding in the wrong direction or an estimate that is lower than the true cost in a rare context overflows the frame only for spectra that fill the budget to the last bit.", "anchors": ["src/encoder/spectral_quantization.rs:77-131", "src/encoder/spectral_quantization.rs:231-347", "src/encoder/temporal_noise_shaping.rs:294-311", "src/encoder/bitstream_encoding.rs:77-352"]}
{"id": "C102", "title": "The sizes for which the transform is right", "statement": "In exact arithmetic the mixed radix transform of size n returns the discrete Fourier transform of every input exactly if no prime above five divides n. For all other sizes the result depends only on the first seventh of the input, in every arithmetic; a transform of size 77 panics for every input.", "quantifier": "all sizes from one on, all inputs, both directions; blindness and panic for every scalar type", "why_tests_cant": "The codec only uses sizes without such factors, so its tests never run the generic butterfly; the failing sizes give plausible finite output.", "anchors": ["src/common/kissfft.rs:47-131", "src/common/kissfft.rs:258-289"]}
{"id": "C103", "title": "From samples to samples in binary32", "statement": "In binary32, when two consecutive frames are coded and decoded without the post filter, every decoded sample of the second frame is the input sample nf - 2z earlier, up to rounding to the nearest integer, A sqrt(nf)/8192, and 1.065 times the distance between the spectrum the decoder synthesised and the spectrum the encoder analysed (of this frame, and of the frame before where they overlap). For the transforms alone, with any finite spectra put in between, the root mean square error of the frame is at most A/8192 and 1.506 times the distances over sqrt(nf).", "quantifier": "all configurations, all frames of 16 bit samples of amplitude up to A, all encoder states, all finite decoder states, any spectra; elementary functions with the errors of Tame (Accurate for the transforms)", "why_tests_cant": "The bound relates the error of a sample to the error of a spectrum for all spectra at once; rounding errors of both transforms could accumulate or a sample near full scale could wrap only for particular signals.", "anchors": ["src/encoder/modified_dct.rs:73-152", "src/decoder/modified_dct.rs:76-150", "src/decoder/output_scaling.rs:13-30", "src/decoder/lc3_decoder.rs:78-175"]}
{"id": "C104", "title": "No accumulator overflows", "statement": "With the integer types of the code (u32 and i32, overflow checks, shifts that lose the upper bits) the frame writer, the range decoder, the rate estimation and the block sums of the attack detector give the same results as with unbounded integers: no intermediate result leaves its type.", "quantifier": "all frame parameters with at most two filters and 400 lines, all stale states and buffers; all byte strings and sequences of proper models for the decoder; all lines for the estimation; all frames of 16 bit samples and all configurations for the attack detector", "why_tests_cant": "Release builds wrap silently and debug builds panic only if the extreme value occurs; the largest sums need a spectrum that no natural signal has.", "anchors": ["src/encoder/bitstream_encoding.rs:77-429", "src/decoder/arithmetic_codec.rs:67-97", "src/encoder/spectral_quantization.rs:270-347", "src/encoder/attack_detector.rs:106-115"]}
{"id": "C105", "title": "Gains of the decoder's noise shaping in binary32", "statement": "In binary32 the decoder's noise shaping multiplies every line of band b by two to the power of the band's factor (code vectors, gain, normalised pulses, interpolation and band merging in exact arithmetic) up to a relative error of delta + 2^-14, where delta is the relative error of the fast power of two; lines behind the last band are unchanged.", "quantifier": "all configurations, all indices, all finite lines up to 2^71, all elementary functions with the stated accuracy", "why_tests_cant": "The error is a sum over the normalisation, a row of the synthesis matrix, two interpolations and a power; an implementation with a wrong factor in one band of one configuration is only seen with a reference for that band.", "anchors": ["src/decoder/spectral_noise_shaping.rs:21-239"]}
{"id": "C106", "title": "What carries over from frame to frame", "statement": "Every call of the encoder or decoder that returns counts one frame in its channel. Neither the frame counter, nor the state the bit writer kept of the frame before, nor the old contents of the output buffer, nor the decoder's old time signal influence the bytes, the samples or the rest of the new state. A decoder call with a wrong number of bits per sample changes nothing.", "quantifier": "all float behaviours, configurations, channel states, frames and buffers; runs of any number of frames", "why_tests_cant": "Stale data shows only if a value of the frame before is still in a buffer at the place that is read; a test that uses fresh buffers never has that, and one that compares two runs needs the right pair of frames.", "anchors": ["src/encoder/lc3_encoder.rs:42-112", "src/encoder/bitstream_encoding.rs:77-141", "src/decoder/lc3_decoder.rs:62-154"]}
{"id": "C107", "title": "Encoder and decoder noise shaping cancel in binary32", "statement": "In binary32, whenever the encoder's noise shaping returns, its indices fit their fields and there is one factor per band, positive and at most 2^20, by which the encoder divides and the decoder (run on the transmitted indices) multiplies every line of the band, each up to a relative error of 2^-14 plus the error of the power of two used. Hence for whatever lines the decoder is given, each output line is the encoder's input line up to the error of the given line scaled by the factor plus a relative error of delta + delta' + delta*delta' + 2^-12.", "quantifier": "all configurations, all finite spectra up to 2^28 and band energies up to 2^68, all finite lines given to the decoder up to 2^71, all elementary functions with the stated accuracy", "why_tests_cant": "The two sides compute the factor by different code (pulse search and unnormalised vectors against index decoding); a mismatch in one code vector, pulse shape or gain shows only for spectra that select it.", "anchors": ["src/encoder/spectral_noise_shaping.rs: run, sns_quant_stage1, sns_quant_stage2, enumerate_index, spectral_shaping", "src/decoder/spectral_noise_shaping.rs:21-239"]}
{"id": "C108", "title": "From samples to samples in binary32, with the error of the quantiser", "statement": "In binary32, for coded frames of 16 bit samples without temporal noise shaping, with all lines in the range of the quantiser and none but small lines cut off: there is one factor per band, at most 2^20, such that every line of the decoded spectrum differs from the line of the encoder's transform by at most the factor times 0.33 (refined), 0.82 (coded), 1.14 (noise filled) or 0.64 (zero) quantiser steps plus delta + delta' + delta*delta' + 2^-12 of the line. If the post filter is off, every decoded sample is the delayed input sample up to rounding, A*sqrt(nf)/8192 and 1.065 times the norm of these line errors over the two frames that overlap.", "quantifier": "all configurations, all encoder states and finite decoder states, all such pairs of consecutive frames, all elementary functions with the stated accuracy", "why_tests_cant": "It bounds the error of every sample for every signal by quantities of the transmitted frame; a listening or SNR test gives one number for one signal.", "anchors": ["src/encoder/lc3_encoder.rs:42-112", "src/decoder/lc3_decoder.rs:62-154", "src/encoder/spectral_noise_shaping.rs", "src/encoder/spectral_quantization.rs", "src/encoder/modified_dct.rs", "src/decoder/modified_dct.rs"]}
{"id": "C109", "title": "The crate without an allocator behaves like the crate with one", "statement": "The implementations selected by cfg(feature = \"alloc\") and cfg(not(feature = \"alloc\")) agree for the same number of channels: they ask for the same buffer lengths, the constructors make the same channels (no channel is lost to a full heapless vector, whose error the code drops) or panic together, and every sequence of encode_frame and decode_frame calls, for channel numbers in range or not, gives the same bytes, samples, errors and panics.", "quantifier": "all numbers of channels, configurations, buffers and sequences of calls, any arithmetic", "why_tests_cant": "One build of the crate contains only one of the two variants, so a test cannot compare them for all inputs, and the test suite is usually run with one feature set.", "anchors": ["src/encoder/lc3_encoder.rs:114-304", "src/decoder/lc3_decoder.rs:178-309"]}
{"id": "C110", "title": "The post filter in binary32 follows the exact post filter", "statement": "Run with binary32 arithmetic, the long term post filter gives the output of the same filter in exact arithmetic up to 5 \u03b5 + X / 8192, where X is the size of the samples and \u03b5 the distance of the two inputs; all outputs are finite. Rounding errors do not build up in the recursion, whatever the side information and however long the sequence of frames. For a new decoder and any bytes: the samples written are the exact post filter applied to the output of the inverse transform, clipped to 16 bits and rounded, up to X / 8192.", "quantifier": "all configurations, sequences of frames of any length, side information (lags, gains, switching and lag changes), memories and samples with 1 \u2264 X \u2264 2^104, \u03b5 \u2264 X / 1024; decoder: any bytes", "why_tests_cant": "The filter is recursive, so an error that builds up slowly shows only after a long run with particular lags; a test has no exact filter to compare with, and it covers few of the side informations.", "anchors": ["src/decoder/long_term_post_filter.rs:141-343", "src/decoder/output_scaling.rs:13-26", "src/decoder/lc3_decoder.rs:144-153"]}
{"id": "C111", "title": "A whole stream, post filter included, in binary32", "statement": "A new encoder and a new decoder carry a stream of any length: the decoder reads the pitch side information the encoder chose, its transform reproduces the input nf - 2 z samples later up to \u03b5 = 2.13 D + A sqrt(nf) / 8192 (D the distance between the decoded and the analysed spectra, A the amplitude), and the samples written are what the exact long term post filter makes of the delayed input, clipped to 16 bits and rounded, up to 6 \u03b5 + A / 8192. No error carried from frame to frame grows.", "quantifier": "all configurations with an encoder, streams of any length, amplitudes 1 \u2264 A \u2264 32768, distances D \u2264 2^37, any pitches and post filter switching, builds with and without overflow checks", "why_tests_cant": "Overlap memory, time buffer and filter memory are carried from frame to frame, so an error in what is carried shows only in sequences; a test compares with recorded output and cannot tell how far the output may drift.", "anchors": ["src/encoder/lc3_encoder.rs:63-112", "src/encoder/modified_dct.rs:73-152", "src/decoder/lc3_decoder.rs:73-154", "src/decoder/modified_dct.rs:76-151", "src/decoder/long_term_post_filter.rs:141-343"]}
{"id": "C112", "title": "No integer overflow in the pitch analysis", "statement": "The pitch analysis of the encoder computes the indices of the resampler, of the interpolations and of the normalised correlation, the fraction of the lag and the pitch index in i8, i16 and i32. No operation overflows, no conversion changes a value, no divisor is zero: with all checks the result is the one of unbounded integers.", "quantifier": "all configurations, states with the invariant (kept by every call, C41), frames, numbers of bits, all arithmetic and all outcomes of the comparisons", "why_tests_cant": "An overflow would need particular lags and fractions; debug builds panic and release builds wrap, so the builds would differ; a test sees few lags.", "anchors": ["src/encoder/long_term_post_filter.rs:149-166", "src/encoder/long_term_post_filter.rs:292-363", "src/encoder/long_term_post_filter.rs:376-382", "src/encoder/long_term_post_filter.rs:412-424", "src/encoder/long_term_post_filter.rs:457-469"]}
{"id": "C113", "title": "Integers computed with floating point are exact", "statement": "Some integers take a detour over floating point: the number of bits scaled from 7.5 to 10 ms (f64, rounded), the pitch lag at the output rate (f64, truncated), the integer part of the binary logarithm of the range of the coders and of the mask of the bit writer (f64), the number of bits of the field for the last pair (f64 in the bit stream writer, f32 in the reader and in the quantiser), and the bound of the search for factors of the transform size (f32 square root). Rounding never changes any of them: they are the exact integers, so the encoder and the decoder, which use different types, agree.", "quantifier": "all frames below 2^49 bits, all pitch indices, all ranges below 2^24, all configurations, all sizes below 2^22; every log2 in f64 that is exact for powers of two and has a relative error up to 2^-50 elsewhere, every log2 in f32 with a relative error up to 2^-22, every square root that is exact for squares with a relative error up to 2^-24", "why_tests_cant": "A single value for which the logarithm or the quotient falls on the wrong side of an integer shifts a bit count by one; there are 2^24 ranges and a frame uses a few hundred.", "anchors": ["src/decoder/long_term_post_filter.rs:145", "src/encoder/long_term_post_filter.rs:143", "src/decoder/long_term_post_filter.rs:182-186", "src/encoder/bitstream_encoding.rs:66", "src/decoder/arithmetic_codec.rs:398", "src/encoder/buffer_writer.rs:61", "src/encoder/bitstream_encoding.rs:154", "src/decoder/side_info_reader.rs:50", "src/encoder/spectral_quantization.rs:123", "src/common/kissfft.rs:49-63"]}
{"id": "C114", "title": "The comparison of two files reports the first difference", "statement": "The example program that compares two LC3 files ends and reports the first byte at which they differ, with the number of the frame and the position in it, among the bytes compared: all bytes if the files have the same length, otherwise those in whole frames present in both. It reports the end with equal lengths exactly if the files are equal. A rest of an earlier frame in the buffers never leads to a wrong report.", "quantifier": "all pairs of files", "why_tests_cant": "The buffers keep old bytes after a short read, so the claim depends on lengths, on multiples of the frame size and on the place of the difference at once.", "anchors": ["examples/compare.rs:6-36"]}
{"id": "C115", "title": "The demo program writes the wave it describes", "statement": "triangle_wave does not overflow when its largest product fits, its values lie within plus and minus half of the amplitude, it is the stated triangle and repeats after each period. The samples of the demo fit in 16 bits and its file has a readable header with the right amount of data; the block size (4 instead of 2) and the size of the rest of the file (8 bytes too large) are wrong.", "quantifier": "all positions, lengths, amplitudes, phases and numbers of periods for which the products fit", "why_tests_cant": "The function takes five integers; the demo uses one choice of four of them.", "anchors": ["examples/wav.rs:33-113"]}
{"id": "C116", "title": "The clock of the ARM example shows the elapsed time", "statement": "uptime reads the overflow counter and the timer consistently: an accepted round gives the number of timer periods and the ticks within the period at the time the timer was read. The duration it returns is the elapsed time, rounded down to nanoseconds. (True in the first period of the timer, 2^24 ticks; afterwards the combination of both parts is wrong: the clock stands still during the whole second period, goes back at every other tick of the third, so that the difference of two readings can panic, and is slow by up to one period plus one tick per period.)", "quantifier": "all times within the range of the counters, all calibration values of 3.9 MHz and above", "why_tests_cant": "The wrong branch is only reached 2^24 ticks after the start, and its error depends on the bits of two counters that a test does not control.", "anchors": ["examples/arm/src/main.rs:114-179"]}
{"id": "C117", "title": "The listing program lists the side information of every frame", "statement": "For a file of frames of 150 bytes the program prints the side information of all frames in order. It stops at the first frame with invalid side information and reports its position. If the file ends with an incomplete frame it panics after the complete ones. Reading the side information itself never panics.", "quantifier": "all files", "why_tests_cant": "The outcome depends on the length of the file and on the first invalid frame.", "anchors": ["examples/read_sideinfo.rs:24-50"]}
{"id": "C118", "title": "The transforms can be undone and keep the energy", "statement": "For every size without a prime factor above five the Fourier transform in one direction followed by the one in the other direction returns n times the input, and the energy of the transform is n times the energy of the input. With the factor 1/sqrt(2 nf) used by encoder and decoder the cosine transform keeps the energy and is its own inverse, so that the lines of the encoder have exactly the energy of the folded samples.", "quantifier": "all sizes, all inputs, both directions, all configurations, in exact arithmetic", "why_tests_cant": "The inverse direction of the transform is not used by the codec and not tested; a wrong scale factor or a wrong sign in one of the butterflies shows only in the combination of all lines.", "anchors": ["src/common/kissfft.rs:17-256", "src/common/dct_iv.rs:49-67", "src/encoder/modified_dct.rs:73-105"]}
{"id": "C119", "title": "The noise the decoder fills in has the level the encoder measured", "statement": "For every spectrum, every quantised spectrum and every gain index the encoder estimates a noise factor of at most 7, and each empty line that the decoder fills with noise has after the global gain a magnitude within 1/32 of the gain from the mean magnitude of the encoder's empty lines, moved into the range 1/16 to 1/2 of the gain. With the lines of the quantiser the mean magnitude is at most 5/8 of the gain, so the filled lines are never further than 5/32 of the gain from it. In binary32 the first bound grows by at most 1/4096 of the gain.", "quantifier": "all spectra, all quantised spectra, bandwidths, gain indices, seeds and frame durations; in exact arithmetic, and in binary32 for empty lines of at most the gain", "why_tests_cant": "The level is computed in the encoder and undone in the decoder by two formulas in two files; tests of each side compare with recorded numbers and cannot show that the two formulas belong together for every level.", "anchors": ["src/encoder/noise_level_estimation.rs:21-57", "src/decoder/noise_filling.rs:18-56", "src/decoder/global_gain.rs:15-25"]}
{"id": "C120", "title": "The encoder's temporal noise shaping filter is the specified predictor", "statement": "The encoder takes the autocorrelation of each range from its three parts, each divided by its energy, and multiplies it by a Gaussian lag window. It filters only if the best predictor of order 8 has a prediction gain above 1.5 and the spectrum is not near the Nyquist frequency; the coefficients of the predictor are weighted by the powers of a factor that rises from 0.85 to 1 between the gains 1.5 and 2 at low bit rates and is 1 otherwise. Each reflection coefficient gets the index with the nearest angle, the order drops trailing zero coefficients, and the lattice computes for every line of the first range the convolution with the filter of the quantised coefficients.", "quantifier": "all spectra that are not too smooth in a range (C75), all configurations, bandwidths and frame sizes, in exact arithmetic", "why_tests_cant": "Recursion, step down and lattice are three transformations of one filter; a wrong sign or weight still gives a stable filter which the decoder undoes, so round trip tests stay green while the noise is shaped wrongly.", "anchors": ["src/encoder/temporal_noise_shaping.rs:40-78", "src/encoder/temporal_noise_shaping.rs:80-118", "src/encoder/temporal_noise_shaping.rs:204-265", "src/encoder/temporal_noise_shaping.rs:267-292", "src/encoder/temporal_noise_shaping.rs:313-341"]}
{"id": "C121", "title": "The decoder's temporal noise shaping is the recursive filter of the received coefficients, with bounded gain", "statement": "For every frame the first active filter of the decoder returns in its band the lines whose convolution with the filter of the received reflection coefficients gives the received lines, and leaves the lines before the band alone. With one active filter the norm of an error of the spectrum grows at most by the inverse of the product of 1 - |c| over the received coefficients c, which is finite for every transmitted index.", "quantifier": "all spectra, bandwidths, orders up to 8 and coefficient indices up to 16, in exact arithmetic", "why_tests_cant": "A recursive filter is checked by tests on a few coefficient sets; whether it stays bounded for all 17^8 sets, and which filter it is without reference to the encoder, is not visible from recorded frames.", "anchors": ["src/decoder/temporal_noise_shaping.rs:24-74", "src/decoder/temporal_noise_shaping.rs:83-138"]}
{"id": "C122", "title": "The least significant bit mode is used exactly at the sizes where the specification allows it", "statement": "For every frame the encoder quantises: a frame of fewer than 480 + 160 i bits, i the index of the sampling frequency, is never in least significant bit mode; in a frame of that size or more that is not in this mode, no quantised line is lost to the truncation.", "quantifier": "all sampling frequencies, frame durations, states, spectra, frame sizes and side information lengths, in every arithmetic", "why_tests_cant": "A limit that is off by one only changes frames of exactly that size whose bit estimate exceeds the budget; a round trip of such a frame still succeeds, with a slightly worse spectrum.", "anchors": ["src/encoder/spectral_quantization.rs:230-263", "src/encoder/spectral_quantization.rs:265-270"]}
{"id": "C123", "title": "The temporal noise shaping parameters in a frame are those of the specified predictor for the specified ranges", "statement": "For every spectrum that is not extremely smooth: the number of filters is that of the bandwidth; for each filter the eight indices are the nearest ones to the reflection coefficients of the best predictor for the windowed autocorrelation of its range of lines, weighted below 480 bits (360 bits for 7.5 ms); the filter is off if the prediction gain is at most 1.5 or the spectrum is near the Nyquist frequency; the order sent is that of the last coefficient that is not zero. If only the second filter is on, only its range is changed, by its own coefficients.", "quantifier": "all sampling frequencies, frame durations, bandwidths, frame sizes and spectra, in exact arithmetic", "why_tests_cant": "A wrong range, limit or order gives a frame that still decodes to the same lines, because the decoder undoes whatever filter is sent; only the bit rate and the shape of the quantisation noise suffer.", "anchors": ["src/encoder/temporal_noise_shaping.rs:40-78", "src/encoder/temporal_noise_shaping.rs:80-202", "src/encoder/temporal_noise_shaping.rs:204-341"]}
{"id": "C124", "title": "The quantiser gets all bits the side information leaves", "statement": "For every analysed frame the budget of the quantiser, the side information, the information of the filters of temporal noise shaping and a reserve add up to the frame size. The reserve is 2, 3 or 4 bits by frame size, plus less than 1 + 9/2048 bit for every filter of temporal noise shaping.", "quantifier": "all states, samples, sampling frequencies, frame durations and frame sizes, in exact arithmetic", "why_tests_cant": "An encoder that reserves too many bits produces valid frames of lower quality; tests of round trips and of overflow do not fail.", "anchors": ["src/encoder/spectral_quantization.rs:122-134", "src/encoder/temporal_noise_shaping.rs:294-311"]}
{"id": "C125", "title": "The truncation drops no line that fits", "statement": "For every frame of fewer than 480 + 160 i bits whose lines are in range: if the quantiser drops a pair of lines that is not zero, then the lines up to this pair need more bits than the budget, up to 1/2048 bit for every symbol. For larger frames the same holds with the cost of the least significant bit mode, where the estimate also counts the signs that this mode postpones.", "quantifier": "all spectra, budgets, states and frames of less than 32768 bits, in exact arithmetic", "why_tests_cant": "An encoder that drops lines too early produces valid frames of lower quality, visible only by a comparison with the ideal code length of every prefix of the spectrum.", "anchors": ["src/encoder/spectral_quantization.rs:230-263", "src/encoder/spectral_quantization.rs:265-357"]}
{"id": "C126", "title": "Two filters of temporal noise shaping in a frame do not mix beyond the memory of the second", "statement": "In every frame with two filters of temporal noise shaping, the lines of the range of the second filter are, from as many lines as its order on, the convolution of the spectrum of that range with the filter of its own transmitted coefficients, whatever the first filter is. In the decoder, the same convolution of the decoded lines gives the received lines back.", "quantifier": "all spectra, bandwidths with two filters, frame sizes and durations, in exact arithmetic", "why_tests_cant": "The encoder carries the states of the first filter into the second. Whether they die out or disturb the whole range depends on the structure of the lattice and shows only for spectra that switch both filters on.", "anchors": ["src/encoder/temporal_noise_shaping.rs:313-341", "src/decoder/temporal_noise_shaping.rs:24-81"]}
{"id": "C127", "title": "A louder spectrum or a smaller budget never makes the gain finer by more than three steps", "statement": "For any two runs of the quantiser with the same frame size: when no spectral line of the second run is smaller in magnitude than that of the first and its bit budget is not larger, the estimated gain index of the second run is not smaller, and its transmitted index, after limiter and adjustment, is smaller by at most three. The quantiser step therefore never shrinks by more than a factor of 10^(3/28) when the signal gets louder or bits are taken away.", "quantifier": "all pairs of spectra, states of the rate control, side information lengths and frame sizes below 4096 bytes, in exact arithmetic", "why_tests_cant": "A statement about pairs of runs. A search that is not monotone gives plausible gains for every single spectrum and shows only as pumping between similar frames.", "anchors": ["src/encoder/spectral_quantization.rs:174-228", "src/encoder/spectral_quantization.rs:350-400"]}
{"id": "C128", "title": "The attack detector does not depend on loudness and polarity", "statement": "For every sequence of frames and every integer factor other than zero, the attack detector, from construction, reports the same frames for the samples multiplied by the factor as for the samples themselves, and panics for the one exactly if it panics for the other.", "quantifier": "all sequences of frames with all frame sizes, all factors, all configurations, in exact arithmetic", "why_tests_cant": "A statement about pairs of histories of any length. A threshold that is not relative, or a state that is not updated with the energy of the same frame, breaks it only for particular levels.", "anchors": ["src/encoder/attack_detector.rs:45-127"]}
{"id": "C129", "title": "Temporal noise shaping does not depend on loudness and polarity", "statement": "For every spectrum and every factor other than zero, the encoder's temporal noise shaping of the multiplied spectrum gives the same bit count, weighting, filter orders and coefficient indices as for the spectrum itself, and the multiplied filtered lines. It panics for the one exactly if it panics for the other.", "quantifier": "all spectra, factors, bandwidths, frame sizes and configurations, in exact arithmetic", "why_tests_cant": "A statement about pairs of spectra. An absolute threshold or a missing normalisation changes the decision only for particular levels.", "anchors": ["src/encoder/temporal_noise_shaping.rs:40-341"]}
{"id": "C130", "title": "The quantiser does not depend on the polarity of the spectrum", "statement": "For every run of the quantiser in which no line is exactly at the bound of 16 bits of any gain, the run on the negated spectrum leaves the same state of the rate control and gives the same gain, flags and bit counts, and the negated quantised lines.", "quantifier": "all spectra, states, side information lengths and frame sizes below 4096 bytes, in exact arithmetic", "why_tests_cant": "A statement about pairs of runs. A rounding, a limit or a cost that treats positive and negative lines differently changes single lines and shows as a small distortion only. The excluded case is real: the 16-bit range is not symmetric.", "anchors": ["src/encoder/spectral_quantization.rs:75-400"]}
{"id": "C131", "title": "A lost frame switches the post filter off", "statement": "After every lost frame of every stream the post filter is switched off, and when the frame before was lost too, the samples of the lost frame are exactly those of the inverse transform of the concealed spectrum, unchanged by the post filter. The same holds for a good frame after a lost one if its post filter is not active.", "quantifier": "all streams of good, lost and refused frames, every sampling frequency and frame duration, every arithmetic", "why_tests_cant": "A concealed frame that keeps the filter of the last good frame running sounds plausible, and the wrong pitch is audible only over long losses. Tests of concealment compare the spectrum or a single frame.", "anchors": ["src/decoder/packet_loss_concealment.rs:63-86", "src/decoder/long_term_post_filter.rs:252-343", "src/decoder/lc3_decoder.rs:91-154"]}
