#!/usr/bin/env python3
"""Write /verif/MANIFEST.json from the table below (theorem names without the namespace)."""
import json, os
CLAIMS = [
 ("C01", "partial", ["C01_partial", "C01_fails"],
  "The full statement is false (C01_fails): ac_enc_finish does not mask the final value to 24 bits. C01_partial proves it for all symbol sequences and all trailing bytes when the final value does not wrap, and for frames with free bits after the coded data when it does."),
 ("C02", "proved", ["C02_field", "C02_flag", "C02_full_frame_panics"], ""),
 ("C03", "proved", ["C03"], ""),
 ("C04", "partial", ["C04_partial", "C04_fails"],
  "False in full (C04_fails: 20 byte frame whose last pair is decoded wrongly, same cause as C01). C04_partial covers every frame whose final range coder value does not wrap or that leaves 22 bits unused."),
 ("C05", "partial", ["C05_partial", "C05_error", "C05_fails"],
  "False in full (C05_fails: the decoder looks up the escape levels with the wrong index). C05_partial proves it when only pair 0 is escaped. C05_error says for all frames of this mode what is read instead: all parameters are exact and each line is off by at most one or is a one with the wrong sign."),
 ("C06", "partial", ["C06_partial", "C06_fails", "C06_checks_fails", "C06_statement_false"],
  "False in full: one or two short frame lengths per configuration panic (C06_fails, for every such length) and so does a 900 byte frame when overflow checks are on (C06_checks_fails). C06_partial proves it for all other lengths without overflow checks; with overflow checks C57 proves it for all frames of 20 to 400 bytes."),
 ("C07", "proved", ["C07", "C07_concealed"], "In the model a return with an error is a value; whether a call returns at all is C06."),
 ("C08", "proved", ["C08", "C08_state_range", "C08_fade"], ""),
 ("C09", "partial", ["C09", "C09_round_partial", "C09_round_fails", "C09_special"],
  "C09 and C09_special hold in full. The rounding clause is false for the two f32 values next below 1/2 in magnitude (C09_round_fails) and proved for all other f32 values (C09_round_partial)."),
 ("C10", "proved", ["C10_decoder", "C10_decoder_range", "C10_encoder", "C10_encoder_range"], "For every sequence of calls that returns; a call that panics ends the sequence."),
 ("C11", "proved", ["C11"], ""),
 ("C12", "partial", ["C12_partial", "C12_short", "C12_8kHz", "C12_fails"], "The full statement C12_statement is false: at 8 kHz construction with any channel panics for all buffers (C12_8kHz, C12_fails). C12_partial proves it for all other sampling frequencies; the part about short buffers holds for all (C12_short)."),
 ("C13", "proved", ["C13", "C13_unchanged", "C13_level"], ""),
 ("C14", "proved", ["C14", "C14_step", "C14_direction"], "in IEEE binary32"),
 ("C15", "partial", ["C15_partial", "C15_prefix", "C15_fails", "C15_index_fails"], "The full statement C15_statement is false: for 10 ms frames with bandwidth index 2 the encoder filters lines 12-199 and the decoder lines 12-239 (C15_fails; C15_prefix says which lines survive), and the decoder replaces a coefficient with index 0 by 0 (C15_index_fails). C15_partial proves the whole run in exact arithmetic for every other bandwidth and duration, every order and both filters."),
 ("C16", "proved", ["C16", "C16_inactive"], ""),
 ("C17", "proved", ["C17", "C17_injective"], ""),
 ("C18", "proved", ["C18"], ""),
 ("C19", "proved", ["C19", "C19_frame"], ""),
 ("C20", "partial", ["C20_partial", "C20_wrong", "C20_fails", "C20_frames", "C20_decoder", "C20_codable", "C20_repaired"], "Proved for every arithmetic outside the lags 127..156; for these lags the encoder sends a wrong index (C20_wrong for all of them, C20_fails and C20_frames are f32 witnesses). Missing: nothing can be proved there, the code subtracts 126 where it has to add it."),
 ("C21", "partial", ["C21_partial", "C21_short_frames", "C21_fails"], "bounds hold for every sequence of frames and the history is exact except for lag changes to the six longest pitch indices with 10 ms frames, for which the property is false (C21_fails)"),
 ("C22", "proved", ["C22"], ""),
 ("C23", "proved", ["C23"], ""),
 ("C24", "proved", ["C24"], ""),
 ("C25", "proved", ["C25", "C25_run", "C25_limit"], "gain offset and gain value of encoder and decoder agree for every frame below 32768 bits; C25_limit shows that the bound is needed (the encoder converts to i16, the decoder to i32)"),
 ("C26", "proved", ["C26", "C26_search", "C26_limit"], "in binary32, for every run of the quantiser whose limiter bound gg_min is at most 255; C26_limit shows that the condition is needed (gg_min can exceed 255 for loud spectra at high rates)"),
 ("C27", "proved", ["C27", "C27_spectrum"], "the transmitted length is the coded length of the returned lines and fits its field"),
 ("C28", "proved", ["C28", "C28_encoder", "C28_decoder", "encodeBodyT_snd", "readFrameT_snd"], "logging copies of the coding loops; the frame theorem excludes the case of C04_fails where the range coder itself is spoilt"),
 ("C29", "proved", ["C29"], ""),
 ("C30", "partial", ["C30_partial", "C30_fails"], "The decoder's count equals the encoder's except that it is 8 larger when the range coder has not emitted a byte; C30_partial gives the exact relation, C30_fails a frame with 85 against 93 bits."),
 ("C31", "proved", ["C31"], ""),
 ("C32", "proved", ["C32"], ""),
 ("C33", "proved", ["C33"], "the number of postponed bits never exceeds the estimate used by the arithmetic encoder, so raising it changes nothing"),
 ("C34", "proved", ["C34", "C34_accepted", "C34_no_detector_8kHz"], "Index at most the rate index, equal field widths on both sides, index fits, decoder accepts; any scalar type. At 8 kHz no detector can be constructed (finding F1)."),
 ("C35", "proved", ["C35", "C35_sizes"], "exact arithmetic (the real numbers); radices 2, 3, 4, 5; all sizes from two on without prime factors above five, in both directions"),
 ("C36", "proved", ["C36"], "exact arithmetic; all configurations"),
 ("C37", "proved", ["C37", "C37_start", "C37_analysis", "C37_all_lines"], "exact arithmetic; delay nf - 2z; weights of the table windows within 10^-13 of one; at 44.1 and 48 kHz the lines from ne on, which the bit stream does not carry, have to be zero"),
 ("C38", "proved", ["C38", "C38_history", "C38_active"], "Any scalar type."),
 ("C39", "proved", ["C39", "C39_lines", "C39_range"], "Range in binary32 for every level; contributing lines for every scalar type, with the same predicate as C13."),
 ("C40", "proved", ["C40_read", "C40_write"], ""),
 ("C41", "proved", ["C41_run", "C41_new", "C41_history"], "For every arithmetic, every configuration and every sequence of frames: no access out of range, pitch index below 512, invariant kept."),
 ("C42", "partial", ["C42_partial", "C42_fails", "C42_f32_partial", "C42_stage2_panics"], "Shape 0 is wrong when the last six entries of the target are zero: C42_fails, and a panic in f32: C42_stage2_panics. Shapes 1-3 proved for all targets in exact arithmetic and in binary32 (sum of magnitudes not a positive number below 2^-125)."),
 ("C43", "proved", ["C43"], "exact arithmetic (real numbers)"),
 ("C44", "proved", ["C44", "C44_underflow"], "any arithmetic; hypotheses: the side information fits and the limiter bound is within 32000"),
 ("C45", "proved", ["C45", "C45_returns", "C45_silence"], "Exact arithmetic. C45: indices in range and inversion for every run that returns. C45_returns: a condition under which it returns; C45_silence: it holds for silence."),
 ("C46", "proved", ["C46"], "Exact arithmetic, every state and signal. Conditions: no line above the largest step times 32767.6 and none exactly on the lower end of the last interval."),
 ("C47", "proved", ["C47"], "Exact arithmetic. The conditions of C04 (normal mode, body fits, final value, seed) are the structure CodedFrame."),
 ("C48", "proved", ["C48"], "Exact arithmetic, same conditions."),
 ("C49", "proved", ["C49"], "Exact arithmetic, same conditions; bandwidth index 2 at 10 ms and coefficient index 0 are excluded (C15)."),
 ("C50", "proved", ["C50", "C50_whole"], "For the count nbits_side_forcast/nbits_ari of the encoder; the correction of eight bits for a first byte that is held back is explicit."),
 ("C51", "proved", ["C51"], "All 64 spectral models, both order models, all eight coefficient models."),
 ("C52", "proved", ["C52"], "Exact arithmetic (real numbers). The lines must not lie exactly on the lower end of the last quantiser interval (value -32768, C43)."),
 ("C53", "proved", ["C53", "C53_writer", "C53_budget", "C53_fails"], "Exact arithmetic. C53_writer is independent of the arithmetic; C53_fails shows (in f32) that the limit on the number of symbols is needed: the decoder rejects a frame whose estimate is within the budget."),
 ("C54", "proved", ["C54"], "Complete description of ac_decode."),
 ("C55", "proved", ["C55"], "In exact arithmetic and for regular signals (Regular, Lemmas/EncReturns.lean); the exceptions are the findings F9, F14 and F15."),
 ("C56", "proved", ["C56"], "In exact arithmetic."),
 ("C57", "proved", ["C57", "C57_returns", "C57_bound_needed"], "Scalar arithmetic arbitrary."),
 ("C58", "proved", ["C58"], "Exact arithmetic. Lines above ne, which are never transmitted, count as errors."),
 ("C59", "proved", ["C59", "filterOff_of_rate"], "Exact arithmetic, conditions of C47 (CodedFrame) for both frames; the distance of the spectra is described by C48 and C49."),
 ("C60", "proved", ["C60", "C60_tune_in"], "Channels from the constructor with any buffers; histories by decodeRun (arbitrary byte strings). Any arithmetic."),
 ("C61", "proved", ["C61", "C61_lipschitz"], "exact arithmetic; the gain 5 is not sharp"),
 ("C62", "proved", ["C62"], "exact arithmetic"),
 ("C63", "proved", ["C63"], "exact arithmetic"),
 ("C64", "partial", ["C64_partial", "C64_fails", "C64_never"], "false for index 3 at 48 kHz with 10 ms frames (F18); all other cases proved"),
 ("C65", "partial", ["C65_partial", "C65_fails"], "false (F19); one direction holds"),
 ("C66", "proved", ["C66"], ""),
 ("C67", "partial", ["C67_partial", "C67_fails"], "false (F16): shape 3, the pulse of set B and the signs hold; shapes 2 and 1 are searched with a stale correlation and energy"),
 ("C68", "partial", ["C68_partial", "C68_fails"], "false (F16): best among all gains but the last one of each shape"),
 ("C69", "proved", ["C69", "C69_error"], ""),
 ("C70", "proved", ["C70", "C70_run"], "Exact arithmetic; C70 for arbitrary energies, C70_run for the complete quantiser."),
 ("C71", "partial", ["C71_partial", "C71_fails", "C71_drift"], "C71_statement is false (F13): nbits_spec_old is never written. C71_partial describes the recursion of the code."),
 ("C72", "proved", ["C72"], "Exact arithmetic."),
 ("C73", "proved", ["C73"], ""),
 ("C74", "proved", ["C74"], ""),
 ("C75", "proved", ["C75", "C75_frame", "C75_panics"], "C75_panics: in binary32 a smooth spectrum of integers makes the stage panic (index 17)."),
 ("C76", "proved", ["C76"], "the buffers after any frames are the analysed signals; from zeroed buffers, exact arithmetic"),
 ("C77", "proved", ["C77", "Spec.PitchFrame.unique"], "every frame gives the results of the specification, and the specification determines them; exact arithmetic"),
 ("C78", "proved", ["C78"], "consequence of C77 and the uniqueness of its results"),
 ("C79", "proved", ["C79"], "consequence of C77 and the uniqueness of its results"),
 ("C80", "proved", ["C80", "C80_encoder", "C80_spectrum"], "hypotheses as in C05_error and C49 (the two cases in which temporal noise shaping is not undone are excluded in C80_spectrum only)"),
 ("C81", "proved", ["C81", "C81_sixty"], "real arithmetic; C81_sixty in every arithmetic"),
 ("C82", "proved", ["C82", "C82_loudness"], "real arithmetic; consequences of C81"),
 ("C83", "proved", ["C83"], "real arithmetic"),
 ("C84", "proved", ["C84", "C84_size"], "every scalar type"),
 ("C85", "partial", ["C85_partial", "C85_fails", "C85_statement_false", "C85_returns", "C85_padded", "C85_roundtrip_fails"], "false: the last frame of the file is left out; everything else of the claim is proved"),
 ("C86", "partial", ["C86_partial", "C86_fails"], "false: the amount of data is stated as 0; all other fields but the block size are right"),
 ("C87", "proved", ["C87"], "every scalar type"),
 ("C88", "proved", ["C88", "F32.kapSum_log", "F32.exists_accurate"], "elementary functions with F32.Accurate"),
 ("C89", "proved", ["C89"], "elementary functions with F32.Accurate"),
 ("C90", "proved", ["C90"], "elementary functions with F32.Accurate"),
 ("C91", "proved", ["C91"], "elementary functions with F32.Accurate; the lines beyond ne are assumed zero, as in C37"),
 ("C92", "proved", ["C92"], "Exact arithmetic. Says what the scale factor of every band is, for all numbers of bands."),
 ("C93", "proved", ["C93", "C93_returns", "F32.exists_tame"], "elementary functions with F32.Tame"),
 ("C94", "proved", ["F32.C94", "F32.C94_pitch"], "in binary32 for every accurate square root; C94 for calls that return (a few can panic, see C42), C94_pitch for all calls"),
 ("C95", "proved", ["C95_noise", "C95_plc", "C95_states"], "The generator of the noise filling is started from a seed computed from the frame (C57); the statement holds for every seed below 65536."),
 ("C96", "proved", ["F32.C96", "F32.C96_params", "F32.C96_range"], "C46 and C47 in the arithmetic of the code, for all elementary functions; the conditions of C04 stay (`CodedFrame32`); `F32.C96_range` gives the two conditions on gain and lines for elementary functions with `F32.GainFunctions`"),
 ("C97", "proved", ["F32.C97", "F32.C97_returns"], "for elementary functions with `F32.GainFunctions` (Spec/Gain32.lean)"),
 ("C98", "proved", ["F32.C98", "F32.C98_lines", "F32.C98_panics", "F32.C98_next", "F32.C98_new"], "for elementary functions of the accuracy F32.EncFunctions; the analysis only, the writing of the bit stream is C04 and C96"),
 ("C99", "proved", ["F32.C99"], "C48 in binary32; log10 and powers of ten with F32.GainFunctions"),
 ("C100", "proved", ["F32.C100"], "C56 in binary32; elementary functions with F32.EncFunctions and F32.LogFunctions"),
 ("C101", "proved", ["F32.C101_quantiser", "F32.C101_budget", "F32.C101", "F32.C101_frame"], "frames up to 1023 bytes; the limit on the number of symbols is needed (C53_fails)"),
 ("C102", "proved", ["C102", "C102_blind", "C102_panics"], "All sizes from 1 on, exact arithmetic; blindness and panic for any scalar type. Finding F24."),
 ("C103", "proved", ["C103", "C103_frames"], "All spectra and amplitudes up to 32768; frames in normal mode as in C96; without the post filter."),
 ("C104", "proved", ["C104_frame", "C104_decoder", "C104_estimate", "C104_attack"], "Machine versions of the functions in Spec/MachineInt.lean; usize is only assumed to have 32 bits there."),
 ("C105", "proved", ["F32.C105"], "binary32, assuming the accuracy of the elementary functions (F32.Tame, F32.Powers)"),
 ("C106", "proved", ["C106_encoder", "C106_decoder", "C106_run", "C106_new"], ""),
 ("C107", "proved", ["F32.C107"], "binary32 twin of C45; the example is a flat spectrum with nonzero lines"),
 ("C108", "proved", ["F32.C108", "C108_frames"], "composition of C99, C107 and C103; the example is two silent frames"),
 ("C109", "proved", ["C109", "C109_new", "C109_frame"], ""),
 ("C110", "proved", ["F32.C110", "F32.C110_decoder", "F32.C110_new"], "binary32; the exact filter it is compared with is the subject of C21 and C61"),
 ("C111", "proved", ["C111"], "for streams of coded frames (StreamOk), elementary functions with F32.Tame"),
 ("C112", "proved", ["C112"], ""),
 ("C113", "proved", ["C113_nbits", "C113_nearest", "C113_lag", "C113_log", "C113_log32", "C113_sqrt"], "For the accuracy of logarithm and square root that IEEE 754 or a working libm gives (Spec/F64.lean)."),
 ("C114", "proved", ["C114", "C114_equal"], "A read of a file is assumed to return as many bytes as fit and are left."),
 ("C115", "proved", ["C115_wave", "C115_period", "C115_signal", "C115_file"], ""),
 ("C116", "partial", ["C116_partial", "C116_first", "C116_read", "C116_read_ends", "C116_no_overflow", "C116_stands_still", "C116_goes_back", "C116_fails", "C116_slow_timer_fails"], "the full statement (C116_statement) is false, see C116_fails; proved: the reading of the counters, the time in the first period, and bounds later on"),
 ("C117", "proved", ["C117", "C117_invalid", "C117_incomplete", "C117_cases", "C117_frames"], ""),
 ("C118", "proved", ["C118", "C118_kernel", "C118_lines"], ""),
 ("C119", "proved", ["C119", "C119_quantised", "C119_f32", "noiseQuant_err", "noiseQuant_err_f32"], ""),
 ("C120", "proved", ["C120", "C120_window", "C120_corr", "C120_index", "C120_order", "C120_filter", "C120_analysis", "C120_lines"], "exact arithmetic; the lines of a second range are filtered by the same lattice with the states the first one left (C15)"),
 ("C121", "proved", ["C121", "C121_lattice", "C121_gain", "C121_error"], "exact arithmetic; a second active filter starts with the states of the first one and is covered by C15 only"),
 ("C122", "proved", ["C122"], "Every arithmetic; the limit is written out in the statement."),
 ("C123", "proved", ["C123", "C123_second"], "Exact arithmetic. The spectra excluded are those of C75. When both filters are on, the lines of the second range are covered by C15 and C121 only."),
 ("C124", "proved", ["C124", "C124_tns"], "exact arithmetic"),
 ("C125", "proved", ["C125", "C125_lsb"], "exact arithmetic"),
 ("C126", "proved", ["C126", "C126_decoder"], "exact arithmetic"),
 ("C127", "proved", ["C127", "C127_estimate"], "exact arithmetic"),
 ("C128", "proved", ["C128"], "exact arithmetic"),
 ("C129", "proved", ["C129"], "exact arithmetic"),
 ("C130", "proved", ["C130"], "exact arithmetic"),
 ("C131", "proved", ["C131", "C131_good"], "all streams and arithmetics; the first lost frame after an active one still fades the old filter out"),
]
out = {"claims": [{"property": p, "status": s, "theorems": ["Lc3." + t for t in ts], "note": n} for p, s, ts, n in CLAIMS]}
with open(os.path.join(os.path.dirname(__file__), "..", "MANIFEST.json"), "w") as f:
    json.dump(out, f, indent=1); f.write("\n")
