{
 "claims": [
  {
   "property": "C01",
   "status": "partial",
   "theorems": [
    "Lc3.C01_partial",
    "Lc3.C01_fails"
   ],
   "note": "The full statement is false (C01_fails): ac_enc_finish does not mask the final value to 24 bits. C01_partial proves it for all symbol sequences and all trailing bytes when the final value does not wrap, and for frames with free bits after the coded data when it does."
  },
  {
   "property": "C02",
   "status": "proved",
   "theorems": [
    "Lc3.C02_field",
    "Lc3.C02_flag",
    "Lc3.C02_full_frame_panics"
   ],
   "note": ""
  },
  {
   "property": "C03",
   "status": "proved",
   "theorems": [
    "Lc3.C03"
   ],
   "note": ""
  },
  {
   "property": "C04",
   "status": "partial",
   "theorems": [
    "Lc3.C04_partial",
    "Lc3.C04_fails"
   ],
   "note": "False in full (C04_fails: 20 byte frame whose last pair is decoded wrongly, same cause as C01). C04_partial covers every frame whose final range coder value does not wrap or that leaves 22 bits unused."
  },
  {
   "property": "C05",
   "status": "partial",
   "theorems": [
    "Lc3.C05_partial",
    "Lc3.C05_error",
    "Lc3.C05_fails"
   ],
   "note": "False in full (C05_fails: the decoder looks up the escape levels with the wrong index). C05_partial proves it when only pair 0 is escaped. C05_error says for all frames of this mode what is read instead: all parameters are exact and each line is off by at most one or is a one with the wrong sign."
  },
  {
   "property": "C06",
   "status": "partial",
   "theorems": [
    "Lc3.C06_partial",
    "Lc3.C06_fails",
    "Lc3.C06_checks_fails",
    "Lc3.C06_statement_false"
   ],
   "note": "False in full: one or two short frame lengths per configuration panic (C06_fails, for every such length) and so does a 900 byte frame when overflow checks are on (C06_checks_fails). C06_partial proves it for all other lengths without overflow checks; with overflow checks C57 proves it for all frames of 20 to 400 bytes."
  },
  {
   "property": "C07",
   "status": "proved",
   "theorems": [
    "Lc3.C07",
    "Lc3.C07_concealed"
   ],
   "note": "In the model a return with an error is a value; whether a call returns at all is C06."
  },
  {
   "property": "C08",
   "status": "proved",
   "theorems": [
    "Lc3.C08",
    "Lc3.C08_state_range",
    "Lc3.C08_fade"
   ],
   "note": ""
  },
  {
   "property": "C09",
   "status": "partial",
   "theorems": [
    "Lc3.C09",
    "Lc3.C09_round_partial",
    "Lc3.C09_round_fails",
    "Lc3.C09_special"
   ],
   "note": "C09 and C09_special hold in full. The rounding clause is false for the two f32 values next below 1/2 in magnitude (C09_round_fails) and proved for all other f32 values (C09_round_partial)."
  },
  {
   "property": "C10",
   "status": "proved",
   "theorems": [
    "Lc3.C10_decoder",
    "Lc3.C10_decoder_range",
    "Lc3.C10_encoder",
    "Lc3.C10_encoder_range"
   ],
   "note": "For every sequence of calls that returns; a call that panics ends the sequence."
  },
  {
   "property": "C11",
   "status": "proved",
   "theorems": [
    "Lc3.C11"
   ],
   "note": ""
  },
  {
   "property": "C12",
   "status": "partial",
   "theorems": [
    "Lc3.C12_partial",
    "Lc3.C12_short",
    "Lc3.C12_8kHz",
    "Lc3.C12_fails"
   ],
   "note": "The full statement C12_statement is false: at 8 kHz construction with any channel panics for all buffers (C12_8kHz, C12_fails). C12_partial proves it for all other sampling frequencies; the part about short buffers holds for all (C12_short)."
  },
  {
   "property": "C13",
   "status": "proved",
   "theorems": [
    "Lc3.C13",
    "Lc3.C13_unchanged",
    "Lc3.C13_level"
   ],
   "note": ""
  },
  {
   "property": "C14",
   "status": "proved",
   "theorems": [
    "Lc3.C14",
    "Lc3.C14_step",
    "Lc3.C14_direction"
   ],
   "note": "in IEEE binary32"
  },
  {
   "property": "C15",
   "status": "partial",
   "theorems": [
    "Lc3.C15_partial",
    "Lc3.C15_prefix",
    "Lc3.C15_fails",
    "Lc3.C15_index_fails"
   ],
   "note": "The full statement C15_statement is false: for 10 ms frames with bandwidth index 2 the encoder filters lines 12-199 and the decoder lines 12-239 (C15_fails; C15_prefix says which lines survive), and the decoder replaces a coefficient with index 0 by 0 (C15_index_fails). C15_partial proves the whole run in exact arithmetic for every other bandwidth and duration, every order and both filters."
  },
  {
   "property": "C16",
   "status": "proved",
   "theorems": [
    "Lc3.C16",
    "Lc3.C16_inactive"
   ],
   "note": ""
  },
  {
   "property": "C17",
   "status": "proved",
   "theorems": [
    "Lc3.C17",
    "Lc3.C17_injective"
   ],
   "note": ""
  },
  {
   "property": "C18",
   "status": "proved",
   "theorems": [
    "Lc3.C18"
   ],
   "note": ""
  },
  {
   "property": "C19",
   "status": "proved",
   "theorems": [
    "Lc3.C19",
    "Lc3.C19_frame"
   ],
   "note": ""
  },
  {
   "property": "C20",
   "status": "partial",
   "theorems": [
    "Lc3.C20_partial",
    "Lc3.C20_wrong",
    "Lc3.C20_fails",
    "Lc3.C20_frames",
    "Lc3.C20_decoder",
    "Lc3.C20_codable",
    "Lc3.C20_repaired"
   ],
   "note": "Proved for every arithmetic outside the lags 127..156; for these lags the encoder sends a wrong index (C20_wrong for all of them, C20_fails and C20_frames are f32 witnesses). Missing: nothing can be proved there, the code subtracts 126 where it has to add it."
  },
  {
   "property": "C21",
   "status": "partial",
   "theorems": [
    "Lc3.C21_partial",
    "Lc3.C21_short_frames",
    "Lc3.C21_fails"
   ],
   "note": "bounds hold for every sequence of frames and the history is exact except for lag changes to the six longest pitch indices with 10 ms frames, for which the property is false (C21_fails)"
  },
  {
   "property": "C22",
   "status": "proved",
   "theorems": [
    "Lc3.C22"
   ],
   "note": ""
  },
  {
   "property": "C23",
   "status": "proved",
   "theorems": [
    "Lc3.C23"
   ],
   "note": ""
  },
  {
   "property": "C24",
   "status": "proved",
   "theorems": [
    "Lc3.C24"
   ],
   "note": ""
  },
  {
   "property": "C25",
   "status": "proved",
   "theorems": [
    "Lc3.C25",
    "Lc3.C25_run",
    "Lc3.C25_limit"
   ],
   "note": "gain offset and gain value of encoder and decoder agree for every frame below 32768 bits; C25_limit shows that the bound is needed (the encoder converts to i16, the decoder to i32)"
  },
  {
   "property": "C26",
   "status": "proved",
   "theorems": [
    "Lc3.C26",
    "Lc3.C26_search",
    "Lc3.C26_limit"
   ],
   "note": "in binary32, for every run of the quantiser whose limiter bound gg_min is at most 255; C26_limit shows that the condition is needed (gg_min can exceed 255 for loud spectra at high rates)"
  },
  {
   "property": "C27",
   "status": "proved",
   "theorems": [
    "Lc3.C27",
    "Lc3.C27_spectrum"
   ],
   "note": "the transmitted length is the coded length of the returned lines and fits its field"
  },
  {
   "property": "C28",
   "status": "proved",
   "theorems": [
    "Lc3.C28",
    "Lc3.C28_encoder",
    "Lc3.C28_decoder",
    "Lc3.encodeBodyT_snd",
    "Lc3.readFrameT_snd"
   ],
   "note": "logging copies of the coding loops; the frame theorem excludes the case of C04_fails where the range coder itself is spoilt"
  },
  {
   "property": "C29",
   "status": "proved",
   "theorems": [
    "Lc3.C29"
   ],
   "note": ""
  },
  {
   "property": "C30",
   "status": "partial",
   "theorems": [
    "Lc3.C30_partial",
    "Lc3.C30_fails"
   ],
   "note": "The decoder's count equals the encoder's except that it is 8 larger when the range coder has not emitted a byte; C30_partial gives the exact relation, C30_fails a frame with 85 against 93 bits."
  },
  {
   "property": "C31",
   "status": "proved",
   "theorems": [
    "Lc3.C31"
   ],
   "note": ""
  },
  {
   "property": "C32",
   "status": "proved",
   "theorems": [
    "Lc3.C32"
   ],
   "note": ""
  },
  {
   "property": "C33",
   "status": "proved",
   "theorems": [
    "Lc3.C33"
   ],
   "note": "the number of postponed bits never exceeds the estimate used by the arithmetic encoder, so raising it changes nothing"
  },
  {
   "property": "C34",
   "status": "proved",
   "theorems": [
    "Lc3.C34",
    "Lc3.C34_accepted",
    "Lc3.C34_no_detector_8kHz"
   ],
   "note": "Index at most the rate index, equal field widths on both sides, index fits, decoder accepts; any scalar type. At 8 kHz no detector can be constructed (finding F1)."
  },
  {
   "property": "C35",
   "status": "proved",
   "theorems": [
    "Lc3.C35",
    "Lc3.C35_sizes"
   ],
   "note": "exact arithmetic (the real numbers); radices 2, 3, 4, 5; all sizes from two on without prime factors above five, in both directions"
  },
  {
   "property": "C36",
   "status": "proved",
   "theorems": [
    "Lc3.C36"
   ],
   "note": "exact arithmetic; all configurations"
  },
  {
   "property": "C37",
   "status": "proved",
   "theorems": [
    "Lc3.C37",
    "Lc3.C37_start",
    "Lc3.C37_analysis",
    "Lc3.C37_all_lines"
   ],
   "note": "exact arithmetic; delay nf - 2z; weights of the table windows within 10^-13 of one; at 44.1 and 48 kHz the lines from ne on, which the bit stream does not carry, have to be zero"
  },
  {
   "property": "C38",
   "status": "proved",
   "theorems": [
    "Lc3.C38",
    "Lc3.C38_history",
    "Lc3.C38_active"
   ],
   "note": "Any scalar type."
  },
  {
   "property": "C39",
   "status": "proved",
   "theorems": [
    "Lc3.C39",
    "Lc3.C39_lines",
    "Lc3.C39_range"
   ],
   "note": "Range in binary32 for every level; contributing lines for every scalar type, with the same predicate as C13."
  },
  {
   "property": "C40",
   "status": "proved",
   "theorems": [
    "Lc3.C40_read",
    "Lc3.C40_write"
   ],
   "note": ""
  },
  {
   "property": "C41",
   "status": "proved",
   "theorems": [
    "Lc3.C41_run",
    "Lc3.C41_new",
    "Lc3.C41_history"
   ],
   "note": "For every arithmetic, every configuration and every sequence of frames: no access out of range, pitch index below 512, invariant kept."
  },
  {
   "property": "C42",
   "status": "partial",
   "theorems": [
    "Lc3.C42_partial",
    "Lc3.C42_fails",
    "Lc3.C42_f32_partial",
    "Lc3.C42_stage2_panics"
   ],
   "note": "Shape 0 is wrong when the last six entries of the target are zero: C42_fails, and a panic in f32: C42_stage2_panics. Shapes 1-3 proved for all targets in exact arithmetic and in binary32 (sum of magnitudes not a positive number below 2^-125)."
  },
  {
   "property": "C43",
   "status": "proved",
   "theorems": [
    "Lc3.C43"
   ],
   "note": "exact arithmetic (real numbers)"
  },
  {
   "property": "C44",
   "status": "proved",
   "theorems": [
    "Lc3.C44",
    "Lc3.C44_underflow"
   ],
   "note": "any arithmetic; hypotheses: the side information fits and the limiter bound is within 32000"
  },
  {
   "property": "C45",
   "status": "proved",
   "theorems": [
    "Lc3.C45",
    "Lc3.C45_returns",
    "Lc3.C45_silence"
   ],
   "note": "Exact arithmetic. C45: indices in range and inversion for every run that returns. C45_returns: a condition under which it returns; C45_silence: it holds for silence."
  },
  {
   "property": "C46",
   "status": "proved",
   "theorems": [
    "Lc3.C46"
   ],
   "note": "Exact arithmetic, every state and signal. Conditions: no line above the largest step times 32767.6 and none exactly on the lower end of the last interval."
  },
  {
   "property": "C47",
   "status": "proved",
   "theorems": [
    "Lc3.C47"
   ],
   "note": "Exact arithmetic. The conditions of C04 (normal mode, body fits, final value, seed) are the structure CodedFrame."
  },
  {
   "property": "C48",
   "status": "proved",
   "theorems": [
    "Lc3.C48"
   ],
   "note": "Exact arithmetic, same conditions."
  },
  {
   "property": "C49",
   "status": "proved",
   "theorems": [
    "Lc3.C49"
   ],
   "note": "Exact arithmetic, same conditions; bandwidth index 2 at 10 ms and coefficient index 0 are excluded (C15)."
  },
  {
   "property": "C50",
   "status": "proved",
   "theorems": [
    "Lc3.C50",
    "Lc3.C50_whole"
   ],
   "note": "For the count nbits_side_forcast/nbits_ari of the encoder; the correction of eight bits for a first byte that is held back is explicit."
  },
  {
   "property": "C51",
   "status": "proved",
   "theorems": [
    "Lc3.C51"
   ],
   "note": "All 64 spectral models, both order models, all eight coefficient models."
  },
  {
   "property": "C52",
   "status": "proved",
   "theorems": [
    "Lc3.C52"
   ],
   "note": "Exact arithmetic (real numbers). The lines must not lie exactly on the lower end of the last quantiser interval (value -32768, C43)."
  },
  {
   "property": "C53",
   "status": "proved",
   "theorems": [
    "Lc3.C53",
    "Lc3.C53_writer",
    "Lc3.C53_budget",
    "Lc3.C53_fails"
   ],
   "note": "Exact arithmetic. C53_writer is independent of the arithmetic; C53_fails shows (in f32) that the limit on the number of symbols is needed: the decoder rejects a frame whose estimate is within the budget."
  },
  {
   "property": "C54",
   "status": "proved",
   "theorems": [
    "Lc3.C54"
   ],
   "note": "Complete description of ac_decode."
  },
  {
   "property": "C55",
   "status": "proved",
   "theorems": [
    "Lc3.C55"
   ],
   "note": "In exact arithmetic and for regular signals (Regular, Lemmas/EncReturns.lean); the exceptions are the findings F9, F14 and F15."
  },
  {
   "property": "C56",
   "status": "proved",
   "theorems": [
    "Lc3.C56"
   ],
   "note": "In exact arithmetic."
  },
  {
   "property": "C57",
   "status": "proved",
   "theorems": [
    "Lc3.C57",
    "Lc3.C57_returns",
    "Lc3.C57_bound_needed"
   ],
   "note": "Scalar arithmetic arbitrary."
  },
  {
   "property": "C58",
   "status": "proved",
   "theorems": [
    "Lc3.C58"
   ],
   "note": "Exact arithmetic. Lines above ne, which are never transmitted, count as errors."
  },
  {
   "property": "C59",
   "status": "proved",
   "theorems": [
    "Lc3.C59",
    "Lc3.filterOff_of_rate"
   ],
   "note": "Exact arithmetic, conditions of C47 (CodedFrame) for both frames; the distance of the spectra is described by C48 and C49."
  },
  {
   "property": "C60",
   "status": "proved",
   "theorems": [
    "Lc3.C60",
    "Lc3.C60_tune_in"
   ],
   "note": "Channels from the constructor with any buffers; histories by decodeRun (arbitrary byte strings). Any arithmetic."
  },
  {
   "property": "C61",
   "status": "proved",
   "theorems": [
    "Lc3.C61",
    "Lc3.C61_lipschitz"
   ],
   "note": "exact arithmetic; the gain 5 is not sharp"
  },
  {
   "property": "C62",
   "status": "proved",
   "theorems": [
    "Lc3.C62"
   ],
   "note": "exact arithmetic"
  },
  {
   "property": "C63",
   "status": "proved",
   "theorems": [
    "Lc3.C63"
   ],
   "note": "exact arithmetic"
  },
  {
   "property": "C64",
   "status": "partial",
   "theorems": [
    "Lc3.C64_partial",
    "Lc3.C64_fails",
    "Lc3.C64_never"
   ],
   "note": "false for index 3 at 48 kHz with 10 ms frames (F18); all other cases proved"
  },
  {
   "property": "C65",
   "status": "partial",
   "theorems": [
    "Lc3.C65_partial",
    "Lc3.C65_fails"
   ],
   "note": "false (F19); one direction holds"
  },
  {
   "property": "C66",
   "status": "proved",
   "theorems": [
    "Lc3.C66"
   ],
   "note": ""
  },
  {
   "property": "C67",
   "status": "partial",
   "theorems": [
    "Lc3.C67_partial",
    "Lc3.C67_fails"
   ],
   "note": "false (F16): shape 3, the pulse of set B and the signs hold; shapes 2 and 1 are searched with a stale correlation and energy"
  },
  {
   "property": "C68",
   "status": "partial",
   "theorems": [
    "Lc3.C68_partial",
    "Lc3.C68_fails"
   ],
   "note": "false (F16): best among all gains but the last one of each shape"
  },
  {
   "property": "C69",
   "status": "proved",
   "theorems": [
    "Lc3.C69",
    "Lc3.C69_error"
   ],
   "note": ""
  },
  {
   "property": "C70",
   "status": "proved",
   "theorems": [
    "Lc3.C70",
    "Lc3.C70_run"
   ],
   "note": "Exact arithmetic; C70 for arbitrary energies, C70_run for the complete quantiser."
  },
  {
   "property": "C71",
   "status": "partial",
   "theorems": [
    "Lc3.C71_partial",
    "Lc3.C71_fails",
    "Lc3.C71_drift"
   ],
   "note": "C71_statement is false (F13): nbits_spec_old is never written. C71_partial describes the recursion of the code."
  },
  {
   "property": "C72",
   "status": "proved",
   "theorems": [
    "Lc3.C72"
   ],
   "note": "Exact arithmetic."
  },
  {
   "property": "C73",
   "status": "proved",
   "theorems": [
    "Lc3.C73"
   ],
   "note": ""
  },
  {
   "property": "C74",
   "status": "proved",
   "theorems": [
    "Lc3.C74"
   ],
   "note": ""
  },
  {
   "property": "C75",
   "status": "proved",
   "theorems": [
    "Lc3.C75",
    "Lc3.C75_frame",
    "Lc3.C75_panics"
   ],
   "note": "C75_panics: in binary32 a smooth spectrum of integers makes the stage panic (index 17)."
  },
  {
   "property": "C76",
   "status": "proved",
   "theorems": [
    "Lc3.C76"
   ],
   "note": "the buffers after any frames are the analysed signals; from zeroed buffers, exact arithmetic"
  },
  {
   "property": "C77",
   "status": "proved",
   "theorems": [
    "Lc3.C77",
    "Lc3.Spec.PitchFrame.unique"
   ],
   "note": "every frame gives the results of the specification, and the specification determines them; exact arithmetic"
  },
  {
   "property": "C78",
   "status": "proved",
   "theorems": [
    "Lc3.C78"
   ],
   "note": "consequence of C77 and the uniqueness of its results"
  },
  {
   "property": "C79",
   "status": "proved",
   "theorems": [
    "Lc3.C79"
   ],
   "note": "consequence of C77 and the uniqueness of its results"
  },
  {
   "property": "C80",
   "status": "proved",
   "theorems": [
    "Lc3.C80",
    "Lc3.C80_encoder",
    "Lc3.C80_spectrum"
   ],
   "note": "hypotheses as in C05_error and C49 (the two cases in which temporal noise shaping is not undone are excluded in C80_spectrum only)"
  },
  {
   "property": "C81",
   "status": "proved",
   "theorems": [
    "Lc3.C81",
    "Lc3.C81_sixty"
   ],
   "note": "real arithmetic; C81_sixty in every arithmetic"
  },
  {
   "property": "C82",
   "status": "proved",
   "theorems": [
    "Lc3.C82",
    "Lc3.C82_loudness"
   ],
   "note": "real arithmetic; consequences of C81"
  },
  {
   "property": "C83",
   "status": "proved",
   "theorems": [
    "Lc3.C83"
   ],
   "note": "real arithmetic"
  },
  {
   "property": "C84",
   "status": "proved",
   "theorems": [
    "Lc3.C84",
    "Lc3.C84_size"
   ],
   "note": "every scalar type"
  },
  {
   "property": "C85",
   "status": "partial",
   "theorems": [
    "Lc3.C85_partial",
    "Lc3.C85_fails",
    "Lc3.C85_statement_false",
    "Lc3.C85_returns",
    "Lc3.C85_padded",
    "Lc3.C85_roundtrip_fails"
   ],
   "note": "false: the last frame of the file is left out; everything else of the claim is proved"
  },
  {
   "property": "C86",
   "status": "partial",
   "theorems": [
    "Lc3.C86_partial",
    "Lc3.C86_fails"
   ],
   "note": "false: the amount of data is stated as 0; all other fields but the block size are right"
  },
  {
   "property": "C87",
   "status": "proved",
   "theorems": [
    "Lc3.C87"
   ],
   "note": "every scalar type"
  },
  {
   "property": "C88",
   "status": "proved",
   "theorems": [
    "Lc3.C88",
    "Lc3.F32.kapSum_log",
    "Lc3.F32.exists_accurate"
   ],
   "note": "elementary functions with F32.Accurate"
  },
  {
   "property": "C89",
   "status": "proved",
   "theorems": [
    "Lc3.C89"
   ],
   "note": "elementary functions with F32.Accurate"
  },
  {
   "property": "C90",
   "status": "proved",
   "theorems": [
    "Lc3.C90"
   ],
   "note": "elementary functions with F32.Accurate"
  },
  {
   "property": "C91",
   "status": "proved",
   "theorems": [
    "Lc3.C91"
   ],
   "note": "elementary functions with F32.Accurate; the lines beyond ne are assumed zero, as in C37"
  },
  {
   "property": "C92",
   "status": "proved",
   "theorems": [
    "Lc3.C92"
   ],
   "note": "Exact arithmetic. Says what the scale factor of every band is, for all numbers of bands."
  },
  {
   "property": "C93",
   "status": "proved",
   "theorems": [
    "Lc3.C93",
    "Lc3.C93_returns",
    "Lc3.F32.exists_tame"
   ],
   "note": "elementary functions with F32.Tame"
  },
  {
   "property": "C94",
   "status": "proved",
   "theorems": [
    "Lc3.F32.C94",
    "Lc3.F32.C94_pitch"
   ],
   "note": "in binary32 for every accurate square root; C94 for calls that return (a few can panic, see C42), C94_pitch for all calls"
  },
  {
   "property": "C95",
   "status": "proved",
   "theorems": [
    "Lc3.C95_noise",
    "Lc3.C95_plc",
    "Lc3.C95_states"
   ],
   "note": "The generator of the noise filling is started from a seed computed from the frame (C57); the statement holds for every seed below 65536."
  },
  {
   "property": "C96",
   "status": "proved",
   "theorems": [
    "Lc3.F32.C96",
    "Lc3.F32.C96_params",
    "Lc3.F32.C96_range"
   ],
   "note": "C46 and C47 in the arithmetic of the code, for all elementary functions; the conditions of C04 stay (`CodedFrame32`); `F32.C96_range` gives the two conditions on gain and lines for elementary functions with `F32.GainFunctions`"
  },
  {
   "property": "C97",
   "status": "proved",
   "theorems": [
    "Lc3.F32.C97",
    "Lc3.F32.C97_returns"
   ],
   "note": "for elementary functions with `F32.GainFunctions` (Spec/Gain32.lean)"
  },
  {
   "property": "C98",
   "status": "proved",
   "theorems": [
    "Lc3.F32.C98",
    "Lc3.F32.C98_lines",
    "Lc3.F32.C98_panics",
    "Lc3.F32.C98_next",
    "Lc3.F32.C98_new"
   ],
   "note": "for elementary functions of the accuracy F32.EncFunctions; the analysis only, the writing of the bit stream is C04 and C96"
  },
  {
   "property": "C99",
   "status": "proved",
   "theorems": [
    "Lc3.F32.C99"
   ],
   "note": "C48 in binary32; log10 and powers of ten with F32.GainFunctions"
  },
  {
   "property": "C100",
   "status": "proved",
   "theorems": [
    "Lc3.F32.C100"
   ],
   "note": "C56 in binary32; elementary functions with F32.EncFunctions and F32.LogFunctions"
  },
  {
   "property": "C101",
   "status": "proved",
   "theorems": [
    "Lc3.F32.C101_quantiser",
    "Lc3.F32.C101_budget",
    "Lc3.F32.C101",
    "Lc3.F32.C101_frame"
   ],
   "note": "frames up to 1023 bytes; the limit on the number of symbols is needed (C53_fails)"
  },
  {
   "property": "C102",
   "status": "proved",
   "theorems": [
    "Lc3.C102",
    "Lc3.C102_blind",
    "Lc3.C102_panics"
   ],
   "note": "All sizes from 1 on, exact arithmetic; blindness and panic for any scalar type. Finding F24."
  },
  {
   "property": "C103",
   "status": "proved",
   "theorems": [
    "Lc3.C103",
    "Lc3.C103_frames"
   ],
   "note": "All spectra and amplitudes up to 32768; frames in normal mode as in C96; without the post filter."
  },
  {
   "property": "C104",
   "status": "proved",
   "theorems": [
    "Lc3.C104_frame",
    "Lc3.C104_decoder",
    "Lc3.C104_estimate",
    "Lc3.C104_attack"
   ],
   "note": "Machine versions of the functions in Spec/MachineInt.lean; usize is only assumed to have 32 bits there."
  },
  {
   "property": "C105",
   "status": "proved",
   "theorems": [
    "Lc3.F32.C105"
   ],
   "note": "binary32, assuming the accuracy of the elementary functions (F32.Tame, F32.Powers)"
  },
  {
   "property": "C106",
   "status": "proved",
   "theorems": [
    "Lc3.C106_encoder",
    "Lc3.C106_decoder",
    "Lc3.C106_run",
    "Lc3.C106_new"
   ],
   "note": ""
  },
  {
   "property": "C107",
   "status": "proved",
   "theorems": [
    "Lc3.F32.C107"
   ],
   "note": "binary32 twin of C45; the example is a flat spectrum with nonzero lines"
  },
  {
   "property": "C108",
   "status": "proved",
   "theorems": [
    "Lc3.F32.C108",
    "Lc3.C108_frames"
   ],
   "note": "composition of C99, C107 and C103; the example is two silent frames"
  },
  {
   "property": "C109",
   "status": "proved",
   "theorems": [
    "Lc3.C109",
    "Lc3.C109_new",
    "Lc3.C109_frame"
   ],
   "note": ""
  },
  {
   "property": "C110",
   "status": "proved",
   "theorems": [
    "Lc3.F32.C110",
    "Lc3.F32.C110_decoder",
    "Lc3.F32.C110_new"
   ],
   "note": "binary32; the exact filter it is compared with is the subject of C21 and C61"
  },
  {
   "property": "C111",
   "status": "proved",
   "theorems": [
    "Lc3.C111"
   ],
   "note": "for streams of coded frames (StreamOk), elementary functions with F32.Tame"
  },
  {
   "property": "C112",
   "status": "proved",
   "theorems": [
    "Lc3.C112"
   ],
   "note": ""
  },
  {
   "property": "C113",
   "status": "proved",
   "theorems": [
    "Lc3.C113_nbits",
    "Lc3.C113_nearest",
    "Lc3.C113_lag",
    "Lc3.C113_log",
    "Lc3.C113_log32",
    "Lc3.C113_sqrt"
   ],
   "note": "For the accuracy of logarithm and square root that IEEE 754 or a working libm gives (Spec/F64.lean)."
  },
  {
   "property": "C114",
   "status": "proved",
   "theorems": [
    "Lc3.C114",
    "Lc3.C114_equal"
   ],
   "note": "A read of a file is assumed to return as many bytes as fit and are left."
  },
  {
   "property": "C115",
   "status": "proved",
   "theorems": [
    "Lc3.C115_wave",
    "Lc3.C115_period",
    "Lc3.C115_signal",
    "Lc3.C115_file"
   ],
   "note": ""
  },
  {
   "property": "C116",
   "status": "partial",
   "theorems": [
    "Lc3.C116_partial",
    "Lc3.C116_first",
    "Lc3.C116_read",
    "Lc3.C116_read_ends",
    "Lc3.C116_no_overflow",
    "Lc3.C116_stands_still",
    "Lc3.C116_goes_back",
    "Lc3.C116_fails",
    "Lc3.C116_slow_timer_fails"
   ],
   "note": "the full statement (C116_statement) is false, see C116_fails; proved: the reading of the counters, the time in the first period, and bounds later on"
  },
  {
   "property": "C117",
   "status": "proved",
   "theorems": [
    "Lc3.C117",
    "Lc3.C117_invalid",
    "Lc3.C117_incomplete",
    "Lc3.C117_cases",
    "Lc3.C117_frames"
   ],
   "note": ""
  },
  {
   "property": "C118",
   "status": "proved",
   "theorems": [
    "Lc3.C118",
    "Lc3.C118_kernel",
    "Lc3.C118_lines"
   ],
   "note": ""
  },
  {
   "property": "C119",
   "status": "proved",
   "theorems": [
    "Lc3.C119",
    "Lc3.C119_quantised",
    "Lc3.C119_f32",
    "Lc3.noiseQuant_err",
    "Lc3.noiseQuant_err_f32"
   ],
   "note": ""
  },
  {
   "property": "C120",
   "status": "proved",
   "theorems": [
    "Lc3.C120",
    "Lc3.C120_window",
    "Lc3.C120_corr",
    "Lc3.C120_index",
    "Lc3.C120_order",
    "Lc3.C120_filter",
    "Lc3.C120_analysis",
    "Lc3.C120_lines"
   ],
   "note": "exact arithmetic; the lines of a second range are filtered by the same lattice with the states the first one left (C15)"
  },
  {
   "property": "C121",
   "status": "proved",
   "theorems": [
    "Lc3.C121",
    "Lc3.C121_lattice",
    "Lc3.C121_gain",
    "Lc3.C121_error"
   ],
   "note": "exact arithmetic; a second active filter starts with the states of the first one and is covered by C15 only"
  },
  {
   "property": "C122",
   "status": "proved",
   "theorems": [
    "Lc3.C122"
   ],
   "note": "Every arithmetic; the limit is written out in the statement."
  },
  {
   "property": "C123",
   "status": "proved",
   "theorems": [
    "Lc3.C123",
    "Lc3.C123_second"
   ],
   "note": "Exact arithmetic. The spectra excluded are those of C75. When both filters are on, the lines of the second range are covered by C15 and C121 only."
  },
  {
   "property": "C124",
   "status": "proved",
   "theorems": [
    "Lc3.C124",
    "Lc3.C124_tns"
   ],
   "note": "exact arithmetic"
  },
  {
   "property": "C125",
   "status": "proved",
   "theorems": [
    "Lc3.C125",
    "Lc3.C125_lsb"
   ],
   "note": "exact arithmetic"
  },
  {
   "property": "C126",
   "status": "proved",
   "theorems": [
    "Lc3.C126",
    "Lc3.C126_decoder"
   ],
   "note": "exact arithmetic"
  },
  {
   "property": "C127",
   "status": "proved",
   "theorems": [
    "Lc3.C127",
    "Lc3.C127_estimate"
   ],
   "note": "exact arithmetic"
  },
  {
   "property": "C128",
   "status": "proved",
   "theorems": [
    "Lc3.C128"
   ],
   "note": "exact arithmetic"
  },
  {
   "property": "C129",
   "status": "proved",
   "theorems": [
    "Lc3.C129"
   ],
   "note": "exact arithmetic"
  },
  {
   "property": "C130",
   "status": "proved",
   "theorems": [
    "Lc3.C130"
   ],
   "note": "exact arithmetic"
  },
  {
   "property": "C131",
   "status": "proved",
   "theorems": [
    "Lc3.C131",
    "Lc3.C131_good"
   ],
   "note": "all streams and arithmetics; the first lost frame after an active one still fades the old filter out"
  }
 ]
}
