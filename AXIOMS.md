# Axioms per theorem

Output of `#print axioms` (written by `tools/axioms.py`).

| property | theorem | axioms |
|---|---|---|
| C01 | `Lc3.C01_partial` | Classical.choice, Quot.sound, propext |
| C01 | `Lc3.C01_fails` | Quot.sound, propext |
| C02 | `Lc3.C02_field` | Classical.choice, Quot.sound, propext |
| C02 | `Lc3.C02_flag` | Classical.choice, Quot.sound, propext |
| C02 | `Lc3.C02_full_frame_panics` | Quot.sound, propext |
| C03 | `Lc3.C03` | Classical.choice, Quot.sound, propext |
| C04 | `Lc3.C04_partial` | Classical.choice, Quot.sound, propext |
| C04 | `Lc3.C04_fails` | Quot.sound, propext |
| C05 | `Lc3.C05_partial` | Classical.choice, Quot.sound, propext |
| C05 | `Lc3.C05_error` | Classical.choice, Quot.sound, propext |
| C05 | `Lc3.C05_fails` | Quot.sound, propext |
| C06 | `Lc3.C06_partial` | Classical.choice, Quot.sound, propext |
| C06 | `Lc3.C06_fails` | Classical.choice, Quot.sound, propext |
| C06 | `Lc3.C06_checks_fails` | Classical.choice, Quot.sound, propext |
| C06 | `Lc3.C06_statement_false` | Classical.choice, Quot.sound, propext |
| C07 | `Lc3.C07` | Classical.choice, Quot.sound, propext |
| C07 | `Lc3.C07_concealed` | Classical.choice, Quot.sound, propext |
| C08 | `Lc3.C08` | Classical.choice, Quot.sound, propext |
| C08 | `Lc3.C08_state_range` | Classical.choice, Quot.sound, propext |
| C08 | `Lc3.C08_fade` | Classical.choice, Quot.sound, propext |
| C09 | `Lc3.C09` | Classical.choice, Quot.sound, propext |
| C09 | `Lc3.C09_round_partial` | Classical.choice, Quot.sound, propext |
| C09 | `Lc3.C09_round_fails` | Classical.choice, Quot.sound, propext |
| C09 | `Lc3.C09_special` | Classical.choice, Quot.sound, propext |
| C10 | `Lc3.C10_decoder` | Classical.choice, Quot.sound, propext |
| C10 | `Lc3.C10_decoder_range` | Classical.choice, Quot.sound, propext |
| C10 | `Lc3.C10_encoder` | Classical.choice, Quot.sound, propext |
| C10 | `Lc3.C10_encoder_range` | Classical.choice, Quot.sound, propext |
| C11 | `Lc3.C11` | Classical.choice, Quot.sound, propext |
| C12 | `Lc3.C12_partial` | Classical.choice, Quot.sound, propext |
| C12 | `Lc3.C12_short` | Classical.choice, Quot.sound, propext |
| C12 | `Lc3.C12_8kHz` | Classical.choice, Quot.sound, propext |
| C12 | `Lc3.C12_fails` | Classical.choice, Quot.sound, propext |
| C13 | `Lc3.C13` | Classical.choice, Quot.sound, propext |
| C13 | `Lc3.C13_unchanged` | Classical.choice, Quot.sound, propext |
| C13 | `Lc3.C13_level` | Classical.choice, Quot.sound, propext |
| C14 | `Lc3.C14` | Classical.choice, Quot.sound, propext |
| C14 | `Lc3.C14_step` | Classical.choice, Quot.sound, propext |
| C14 | `Lc3.C14_direction` | Classical.choice, Quot.sound, propext |
| C15 | `Lc3.C15_partial` | Classical.choice, Quot.sound, propext |
| C15 | `Lc3.C15_prefix` | Classical.choice, Quot.sound, propext |
| C15 | `Lc3.C15_fails` | Classical.choice, Quot.sound, propext |
| C15 | `Lc3.C15_index_fails` | Classical.choice, Quot.sound, propext |
| C16 | `Lc3.C16` | Classical.choice, Quot.sound, propext |
| C16 | `Lc3.C16_inactive` | Classical.choice, Quot.sound, propext |
| C17 | `Lc3.C17` | Classical.choice, Quot.sound, propext |
| C17 | `Lc3.C17_injective` | Classical.choice, Quot.sound, propext |
| C18 | `Lc3.C18` | Classical.choice, Quot.sound, propext |
| C19 | `Lc3.C19` | Classical.choice, Quot.sound, propext |
| C19 | `Lc3.C19_frame` | Classical.choice, Quot.sound, propext |
| C20 | `Lc3.C20_partial` | Classical.choice, Quot.sound, propext |
| C20 | `Lc3.C20_wrong` | Classical.choice, Quot.sound, propext |
| C20 | `Lc3.C20_fails` | Classical.choice, Quot.sound, propext |
| C20 | `Lc3.C20_frames` | Classical.choice, Quot.sound, propext |
| C20 | `Lc3.C20_decoder` | Quot.sound, propext |
| C20 | `Lc3.C20_codable` | Classical.choice, Quot.sound, propext |
| C20 | `Lc3.C20_repaired` | Quot.sound, propext |
| C21 | `Lc3.C21_partial` | Classical.choice, Quot.sound, propext |
| C21 | `Lc3.C21_short_frames` | Classical.choice, Quot.sound, propext |
| C21 | `Lc3.C21_fails` | Classical.choice, Quot.sound, propext |
| C22 | `Lc3.C22` | Classical.choice, Quot.sound, propext |
| C23 | `Lc3.C23` | Classical.choice, Quot.sound, propext |
| C24 | `Lc3.C24` | Classical.choice, Quot.sound, propext |
| C25 | `Lc3.C25` | Quot.sound, propext |
| C25 | `Lc3.C25_run` | Classical.choice, Quot.sound, propext |
| C25 | `Lc3.C25_limit` | none |
| C26 | `Lc3.C26` | Classical.choice, Quot.sound, propext |
| C26 | `Lc3.C26_search` | Classical.choice, Quot.sound, propext |
| C26 | `Lc3.C26_limit` | Classical.choice, Quot.sound, propext |
| C27 | `Lc3.C27` | Classical.choice, Quot.sound, propext |
| C27 | `Lc3.C27_spectrum` | Classical.choice, Quot.sound, propext |
| C28 | `Lc3.C28` | Classical.choice, Quot.sound, propext |
| C28 | `Lc3.C28_encoder` | Classical.choice, Quot.sound, propext |
| C28 | `Lc3.C28_decoder` | Classical.choice, Quot.sound, propext |
| C28 | `Lc3.encodeBodyT_snd` | Classical.choice, Quot.sound, propext |
| C28 | `Lc3.readFrameT_snd` | Quot.sound, propext |
| C29 | `Lc3.C29` | Quot.sound, propext |
| C30 | `Lc3.C30_partial` | Classical.choice, Quot.sound, propext |
| C30 | `Lc3.C30_fails` | Classical.choice, Quot.sound, propext |
| C31 | `Lc3.C31` | Quot.sound, propext |
| C32 | `Lc3.C32` | Classical.choice, Quot.sound, propext |
| C33 | `Lc3.C33` | Classical.choice, Quot.sound, propext |
| C34 | `Lc3.C34` | Classical.choice, Quot.sound, propext |
| C34 | `Lc3.C34_accepted` | Quot.sound, propext |
| C34 | `Lc3.C34_no_detector_8kHz` | propext |
| C35 | `Lc3.C35` | Classical.choice, Quot.sound, propext |
| C35 | `Lc3.C35_sizes` | Classical.choice, Quot.sound, propext |
| C36 | `Lc3.C36` | Classical.choice, Quot.sound, propext |
| C37 | `Lc3.C37` | Classical.choice, Quot.sound, propext |
| C37 | `Lc3.C37_start` | Classical.choice, Quot.sound, propext |
| C37 | `Lc3.C37_analysis` | Classical.choice, Quot.sound, propext |
| C37 | `Lc3.C37_all_lines` | Classical.choice, Quot.sound, propext |
| C38 | `Lc3.C38` | Classical.choice, Quot.sound, propext |
| C38 | `Lc3.C38_history` | Classical.choice, Quot.sound, propext |
| C38 | `Lc3.C38_active` | Classical.choice, Quot.sound, propext |
| C39 | `Lc3.C39` | Classical.choice, Quot.sound, propext |
| C39 | `Lc3.C39_lines` | Classical.choice, Quot.sound, propext |
| C39 | `Lc3.C39_range` | Classical.choice, Quot.sound, propext |
| C40 | `Lc3.C40_read` | Classical.choice, Quot.sound, propext |
| C40 | `Lc3.C40_write` | Classical.choice, Quot.sound, propext |
| C41 | `Lc3.C41_run` | Classical.choice, Quot.sound, propext |
| C41 | `Lc3.C41_new` | Classical.choice, Quot.sound, propext |
| C41 | `Lc3.C41_history` | Classical.choice, Quot.sound, propext |
| C42 | `Lc3.C42_partial` | Classical.choice, Quot.sound, propext |
| C42 | `Lc3.C42_fails` | Classical.choice, Quot.sound, propext |
| C42 | `Lc3.C42_f32_partial` | Classical.choice, Quot.sound, propext |
| C42 | `Lc3.C42_stage2_panics` | Classical.choice, Quot.sound, propext |
| C43 | `Lc3.C43` | Classical.choice, Quot.sound, propext |
| C44 | `Lc3.C44` | Classical.choice, Quot.sound, propext |
| C44 | `Lc3.C44_underflow` | Classical.choice, Quot.sound, propext |
| C45 | `Lc3.C45` | Classical.choice, Quot.sound, propext |
| C45 | `Lc3.C45_returns` | Classical.choice, Quot.sound, propext |
| C45 | `Lc3.C45_silence` | Classical.choice, Quot.sound, propext |
| C46 | `Lc3.C46` | Classical.choice, Quot.sound, propext |
| C47 | `Lc3.C47` | Classical.choice, Quot.sound, propext |
| C48 | `Lc3.C48` | Classical.choice, Quot.sound, propext |
| C49 | `Lc3.C49` | Classical.choice, Quot.sound, propext |
| C50 | `Lc3.C50` | Classical.choice, Quot.sound, propext |
| C50 | `Lc3.C50_whole` | Classical.choice, Quot.sound, propext |
| C51 | `Lc3.C51` | Classical.choice, Quot.sound, propext |
| C52 | `Lc3.C52` | Classical.choice, Quot.sound, propext |
| C53 | `Lc3.C53` | Classical.choice, Quot.sound, propext |
| C53 | `Lc3.C53_writer` | Classical.choice, Quot.sound, propext |
| C53 | `Lc3.C53_budget` | Classical.choice, Quot.sound, propext |
| C53 | `Lc3.C53_fails` | Classical.choice, Quot.sound, propext |
| C54 | `Lc3.C54` | Classical.choice, Quot.sound, propext |
| C55 | `Lc3.C55` | Classical.choice, Quot.sound, propext |
| C56 | `Lc3.C56` | Classical.choice, Quot.sound, propext |
| C57 | `Lc3.C57` | Classical.choice, Quot.sound, propext |
| C57 | `Lc3.C57_returns` | Classical.choice, Quot.sound, propext |
| C57 | `Lc3.C57_bound_needed` | Classical.choice, Quot.sound, propext |
| C58 | `Lc3.C58` | Classical.choice, Quot.sound, propext |
| C59 | `Lc3.C59` | Classical.choice, Quot.sound, propext |
| C59 | `Lc3.filterOff_of_rate` | Classical.choice, Quot.sound, propext |
| C60 | `Lc3.C60` | Classical.choice, Quot.sound, propext |
| C60 | `Lc3.C60_tune_in` | Classical.choice, Quot.sound, propext |
| C61 | `Lc3.C61` | Classical.choice, Quot.sound, propext |
| C61 | `Lc3.C61_lipschitz` | Classical.choice, Quot.sound, propext |
| C62 | `Lc3.C62` | Classical.choice, Quot.sound, propext |
| C63 | `Lc3.C63` | Classical.choice, Quot.sound, propext |
| C64 | `Lc3.C64_partial` | Classical.choice, Quot.sound, propext |
| C64 | `Lc3.C64_fails` | Classical.choice, Quot.sound, propext |
| C64 | `Lc3.C64_never` | Classical.choice, Quot.sound, propext |
| C65 | `Lc3.C65_partial` | Classical.choice, Quot.sound, propext |
| C65 | `Lc3.C65_fails` | Classical.choice, Quot.sound, propext |
| C66 | `Lc3.C66` | Classical.choice, Quot.sound, propext |
| C67 | `Lc3.C67_partial` | Classical.choice, Quot.sound, propext |
| C67 | `Lc3.C67_fails` | Classical.choice, Quot.sound, propext |
| C68 | `Lc3.C68_partial` | Classical.choice, Quot.sound, propext |
| C68 | `Lc3.C68_fails` | Classical.choice, Quot.sound, propext |
| C69 | `Lc3.C69` | Classical.choice, Quot.sound, propext |
| C69 | `Lc3.C69_error` | Classical.choice, Quot.sound, propext |
| C70 | `Lc3.C70` | Classical.choice, Quot.sound, propext |
| C70 | `Lc3.C70_run` | Classical.choice, Quot.sound, propext |
| C71 | `Lc3.C71_partial` | Classical.choice, Quot.sound, propext |
| C71 | `Lc3.C71_fails` | Classical.choice, Quot.sound, propext |
| C71 | `Lc3.C71_drift` | Classical.choice, Quot.sound, propext |
| C72 | `Lc3.C72` | Classical.choice, Quot.sound, propext |
| C73 | `Lc3.C73` | Classical.choice, Quot.sound, propext |
| C74 | `Lc3.C74` | Classical.choice, Quot.sound, propext |
| C75 | `Lc3.C75` | Classical.choice, Quot.sound, propext |
| C75 | `Lc3.C75_frame` | Classical.choice, Quot.sound, propext |
| C75 | `Lc3.C75_panics` | Classical.choice, Quot.sound, propext |
| C76 | `Lc3.C76` | Classical.choice, Quot.sound, propext |
| C77 | `Lc3.C77` | Classical.choice, Quot.sound, propext |
| C77 | `Lc3.Spec.PitchFrame.unique` | Classical.choice, Quot.sound, propext |
| C78 | `Lc3.C78` | Classical.choice, Quot.sound, propext |
| C79 | `Lc3.C79` | Classical.choice, Quot.sound, propext |
| C80 | `Lc3.C80` | Classical.choice, Quot.sound, propext |
| C80 | `Lc3.C80_encoder` | Classical.choice, Quot.sound, propext |
| C80 | `Lc3.C80_spectrum` | Classical.choice, Quot.sound, propext |
| C81 | `Lc3.C81` | Classical.choice, Quot.sound, propext |
| C81 | `Lc3.C81_sixty` | Classical.choice, Quot.sound, propext |
| C82 | `Lc3.C82` | Classical.choice, Quot.sound, propext |
| C82 | `Lc3.C82_loudness` | Classical.choice, Quot.sound, propext |
| C83 | `Lc3.C83` | Classical.choice, Quot.sound, propext |
| C84 | `Lc3.C84` | Classical.choice, Quot.sound, propext |
| C84 | `Lc3.C84_size` | Classical.choice, Quot.sound, propext |
| C85 | `Lc3.C85_partial` | Classical.choice, Quot.sound, propext |
| C85 | `Lc3.C85_fails` | Classical.choice, Quot.sound, propext |
| C85 | `Lc3.C85_statement_false` | Classical.choice, Quot.sound, propext |
| C85 | `Lc3.C85_returns` | Classical.choice, Quot.sound, propext |
| C85 | `Lc3.C85_padded` | Classical.choice, Quot.sound, propext |
| C85 | `Lc3.C85_roundtrip_fails` | Classical.choice, Quot.sound, propext |
| C86 | `Lc3.C86_partial` | Classical.choice, Quot.sound, propext |
| C86 | `Lc3.C86_fails` | Classical.choice, Quot.sound, propext |
| C87 | `Lc3.C87` | Classical.choice, Quot.sound, propext |
| C88 | `Lc3.C88` | Classical.choice, Quot.sound, propext |
| C88 | `Lc3.F32.kapSum_log` | Classical.choice, Quot.sound, propext |
| C88 | `Lc3.F32.exists_accurate` | Classical.choice, Quot.sound, propext |
| C89 | `Lc3.C89` | Classical.choice, Quot.sound, propext |
| C90 | `Lc3.C90` | Classical.choice, Quot.sound, propext |
| C91 | `Lc3.C91` | Classical.choice, Quot.sound, propext |
| C92 | `Lc3.C92` | Classical.choice, Quot.sound, propext |
| C93 | `Lc3.C93` | Classical.choice, Quot.sound, propext |
| C93 | `Lc3.C93_returns` | Classical.choice, Quot.sound, propext |
| C93 | `Lc3.F32.exists_tame` | Classical.choice, Quot.sound, propext |
| C94 | `Lc3.F32.C94` | Classical.choice, Quot.sound, propext |
| C94 | `Lc3.F32.C94_pitch` | Classical.choice, Quot.sound, propext |
| C95 | `Lc3.C95_noise` | Classical.choice, Quot.sound, propext |
| C95 | `Lc3.C95_plc` | Classical.choice, Quot.sound, propext |
| C95 | `Lc3.C95_states` | Classical.choice, Quot.sound, propext |
| C96 | `Lc3.F32.C96` | Classical.choice, Quot.sound, propext |
| C96 | `Lc3.F32.C96_params` | Classical.choice, Quot.sound, propext |
| C96 | `Lc3.F32.C96_range` | Classical.choice, Quot.sound, propext |
| C97 | `Lc3.F32.C97` | Classical.choice, Quot.sound, propext |
| C97 | `Lc3.F32.C97_returns` | Classical.choice, Quot.sound, propext |
| C98 | `Lc3.F32.C98` | Classical.choice, Quot.sound, propext |
| C98 | `Lc3.F32.C98_lines` | Classical.choice, Quot.sound, propext |
| C98 | `Lc3.F32.C98_panics` | Classical.choice, Quot.sound, propext |
| C98 | `Lc3.F32.C98_next` | Classical.choice, Quot.sound, propext |
| C98 | `Lc3.F32.C98_new` | Classical.choice, Quot.sound, propext |
| C99 | `Lc3.F32.C99` | Classical.choice, Quot.sound, propext |
| C100 | `Lc3.F32.C100` | Classical.choice, Quot.sound, propext |
| C101 | `Lc3.F32.C101_quantiser` | Classical.choice, Quot.sound, propext |
| C101 | `Lc3.F32.C101_budget` | Classical.choice, Quot.sound, propext |
| C101 | `Lc3.F32.C101` | Classical.choice, Quot.sound, propext |
| C101 | `Lc3.F32.C101_frame` | Classical.choice, Quot.sound, propext |
| C102 | `Lc3.C102` | Classical.choice, Quot.sound, propext |
| C102 | `Lc3.C102_blind` | Classical.choice, Quot.sound, propext |
| C102 | `Lc3.C102_panics` | Classical.choice, Quot.sound, propext |
| C103 | `Lc3.C103` | Classical.choice, Quot.sound, propext |
| C103 | `Lc3.C103_frames` | Classical.choice, Quot.sound, propext |
| C104 | `Lc3.C104_frame` | Classical.choice, Quot.sound, propext |
| C104 | `Lc3.C104_decoder` | Classical.choice, Quot.sound, propext |
| C104 | `Lc3.C104_estimate` | Classical.choice, Quot.sound, propext |
| C104 | `Lc3.C104_attack` | Quot.sound, propext |
| C105 | `Lc3.F32.C105` | Classical.choice, Quot.sound, propext |
| C106 | `Lc3.C106_encoder` | Classical.choice, Quot.sound, propext |
| C106 | `Lc3.C106_decoder` | Classical.choice, Quot.sound, propext |
| C106 | `Lc3.C106_run` | Classical.choice, Quot.sound, propext |
| C106 | `Lc3.C106_new` | Classical.choice, Quot.sound, propext |
| C107 | `Lc3.F32.C107` | Classical.choice, Quot.sound, propext |
| C108 | `Lc3.F32.C108` | Classical.choice, Quot.sound, propext |
| C108 | `Lc3.C108_frames` | Classical.choice, Quot.sound, propext |
| C109 | `Lc3.C109` | Classical.choice, Quot.sound, propext |
| C109 | `Lc3.C109_new` | Classical.choice, Quot.sound, propext |
| C109 | `Lc3.C109_frame` | Classical.choice, Quot.sound, propext |
| C110 | `Lc3.F32.C110` | Classical.choice, Quot.sound, propext |
| C110 | `Lc3.F32.C110_decoder` | Classical.choice, Quot.sound, propext |
| C110 | `Lc3.F32.C110_new` | Classical.choice, Quot.sound, propext |
| C111 | `Lc3.C111` | Classical.choice, Quot.sound, propext |
| C112 | `Lc3.C112` | Classical.choice, Quot.sound, propext |
| C113 | `Lc3.C113_nbits` | Classical.choice, Quot.sound, propext |
| C113 | `Lc3.C113_nearest` | Classical.choice, Quot.sound, propext |
| C113 | `Lc3.C113_lag` | Classical.choice, Quot.sound, propext |
| C113 | `Lc3.C113_log` | Classical.choice, Quot.sound, propext |
| C113 | `Lc3.C113_log32` | Classical.choice, Quot.sound, propext |
| C113 | `Lc3.C113_sqrt` | Classical.choice, Quot.sound, propext |
| C114 | `Lc3.C114` | Classical.choice, Quot.sound, propext |
| C114 | `Lc3.C114_equal` | Classical.choice, Quot.sound, propext |
| C115 | `Lc3.C115_wave` | Classical.choice, Quot.sound, propext |
| C115 | `Lc3.C115_period` | Classical.choice, Quot.sound, propext |
| C115 | `Lc3.C115_signal` | Classical.choice, Quot.sound, propext |
| C115 | `Lc3.C115_file` | Classical.choice, Quot.sound, propext |
| C116 | `Lc3.C116_partial` | Classical.choice, Quot.sound, propext |
| C116 | `Lc3.C116_first` | Classical.choice, Quot.sound, propext |
| C116 | `Lc3.C116_read` | Classical.choice, Quot.sound, propext |
| C116 | `Lc3.C116_read_ends` | propext |
| C116 | `Lc3.C116_no_overflow` | Classical.choice, Quot.sound, propext |
| C116 | `Lc3.C116_stands_still` | Classical.choice, Quot.sound, propext |
| C116 | `Lc3.C116_goes_back` | Classical.choice, Quot.sound, propext |
| C116 | `Lc3.C116_fails` | Classical.choice, Quot.sound, propext |
| C116 | `Lc3.C116_slow_timer_fails` | propext |
| C117 | `Lc3.C117` | Classical.choice, Quot.sound, propext |
| C117 | `Lc3.C117_invalid` | Classical.choice, Quot.sound, propext |
| C117 | `Lc3.C117_incomplete` | Classical.choice, Quot.sound, propext |
| C117 | `Lc3.C117_cases` | Classical.choice, Quot.sound, propext |
| C117 | `Lc3.C117_frames` | Classical.choice, Quot.sound, propext |
| C118 | `Lc3.C118` | Classical.choice, Quot.sound, propext |
| C118 | `Lc3.C118_kernel` | Classical.choice, Quot.sound, propext |
| C118 | `Lc3.C118_lines` | Classical.choice, Quot.sound, propext |
| C119 | `Lc3.C119` | Classical.choice, Quot.sound, propext |
| C119 | `Lc3.C119_quantised` | Classical.choice, Quot.sound, propext |
| C119 | `Lc3.C119_f32` | Classical.choice, Quot.sound, propext |
| C119 | `Lc3.noiseQuant_err` | Classical.choice, Quot.sound, propext |
| C119 | `Lc3.noiseQuant_err_f32` | Classical.choice, Quot.sound, propext |
| C120 | `Lc3.C120` | Classical.choice, Quot.sound, propext |
| C120 | `Lc3.C120_window` | Classical.choice, Quot.sound, propext |
| C120 | `Lc3.C120_corr` | Classical.choice, Quot.sound, propext |
| C120 | `Lc3.C120_index` | Classical.choice, Quot.sound, propext |
| C120 | `Lc3.C120_order` | Classical.choice, Quot.sound, propext |
| C120 | `Lc3.C120_filter` | Classical.choice, Quot.sound, propext |
| C120 | `Lc3.C120_analysis` | Classical.choice, Quot.sound, propext |
| C120 | `Lc3.C120_lines` | Classical.choice, Quot.sound, propext |
| C121 | `Lc3.C121` | Classical.choice, Quot.sound, propext |
| C121 | `Lc3.C121_lattice` | Classical.choice, Quot.sound, propext |
| C121 | `Lc3.C121_gain` | Classical.choice, Quot.sound, propext |
| C121 | `Lc3.C121_error` | Classical.choice, Quot.sound, propext |
| C122 | `Lc3.C122` | Classical.choice, Quot.sound, propext |
| C123 | `Lc3.C123` | Classical.choice, Quot.sound, propext |
| C123 | `Lc3.C123_second` | Classical.choice, Quot.sound, propext |
| C124 | `Lc3.C124` | Classical.choice, Quot.sound, propext |
| C124 | `Lc3.C124_tns` | Classical.choice, Quot.sound, propext |
| C125 | `Lc3.C125` | Classical.choice, Quot.sound, propext |
| C125 | `Lc3.C125_lsb` | Classical.choice, Quot.sound, propext |
| C126 | `Lc3.C126` | Classical.choice, Quot.sound, propext |
| C126 | `Lc3.C126_decoder` | Classical.choice, Quot.sound, propext |
| C127 | `Lc3.C127` | Classical.choice, Quot.sound, propext |
| C127 | `Lc3.C127_estimate` | Classical.choice, Quot.sound, propext |
| C128 | `Lc3.C128` | Classical.choice, Quot.sound, propext |
| C129 | `Lc3.C129` | Classical.choice, Quot.sound, propext |
| C130 | `Lc3.C130` | Classical.choice, Quot.sound, propext |
| C131 | `Lc3.C131` | Classical.choice, Quot.sound, propext |
| C131 | `Lc3.C131_good` | Classical.choice, Quot.sound, propext |

All axioms used: Classical.choice, Quot.sound, propext.
