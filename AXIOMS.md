# Axioms of the theorems in MANIFEST.json

Output of `#print axioms`. p = `propext`, q = `Quot.sound`, c = `Classical.choice`.

| Property | Theorem | Axioms |
|---|---|---|
| C01 | `RR32.C01_fields` | p c q |
| C01 | `RR32.C01_setters` | p c q |
| C01 | `RR32.C01_readback` | p c q |
| C01 | `RR32.C01_construct` | p c q |
| C01 | `RR32.C01_raw` | p c q |
| C02 | `RR32.C02_get` | p c q |
| C02 | `RR32.C02_roundtrip` | p c q |
| C02 | `RR32.C02_injective` | p c q |
| C03 | `RR32.C03_payload_eq` | p c q |
| C03 | `RR32.C03_payload_equivalence` | p c q |
| C03 | `RR32.C03_payload_overrun` | p q |
| C03 | `RR32.C03_frame_eq` | p c q |
| C04 | `RR32.C04_squeeze` | p c q |
| C04 | `RR32.C04_general` | p c q |
| C04 | `RR32.C04_begin` | p c q |
| C04 | `RR32.C04_formula` | p c q |
| C04 | `RR32.C04_collision` | p c q |
| C04 | `RR32.C04_distinct` | p c q |
| C05 | `RR32.C05_roundtrip` | p |
| C05 | `RR32.C05_offset` | p c q |
| C05 | `RR32.C05_packet` | p c q |
| C06 | `RR32.C06_tagging_partial` | p c q |
| C06 | `RR32.C06_unknown` | p c q |
| C06 | `RR32.C06_unknown_leaks` | p c q |
| C07 | `RR32.C07_tagging_partial` | p c q |
| C07 | `RR32.C07_in_range` | p c q |
| C07 | `RR32.C07_unknown` | p c q |
| C07 | `RR32.C07_sx2` | p c q |
| C07 | `RR32.C07_ranges` | none |
| C07 | `RR32.C07_masked` | p c q |
| C07 | `RR32.C07_map` | p q |
| C08 | `RR32.C08_fields` | p c q |
| C08 | `RR32.C08_init` | none |
| C08 | `RR32.C08_raw` | p c q |
| C08 | `RR32.C08_eq` | p c q |
| C08 | `RR32.C08_protocol` | p q |
| C09 | `RR32.C09_get` | p c q |
| C09 | `RR32.C09_fields` | p c q |
| C09 | `RR32.C09_subtype` | p |
| C09 | `RR32.C09_builder` | p c q |
| C09 | `RR32.C09_short` | p q |
| C10 | `RR32.C10_loco` | p c q |
| C10 | `RR32.C10_turnout` | p c q |
| C10 | `RR32.C10_system` | p c q |
| C10 | `RR32.C10_stream_first` | p c q |
| C10 | `RR32.C10_stream_data` | p c q |
| C10 | `RR32.C10_request_partial` | p c q |
| C10 | `RR32.C10_request_len` | p q |
| C11 | `RR32.C11_decision_table` | p c q |
| C11 | `RR32.C11_at_most_one` | p c q |
| C11 | `RR32.C11_rows` | p c q |
| C12 | `RR32.C12_null_callback_partial` | p c q |
| C12 | `RR32.C12_missing_ignored` | p c q |
| C12 | `RR32.C12_negation` | p q |
| C13 | `RR32.C13_equal_frames_partial` | p c q |
| C13 | `RR32.C13_accessory_decoded` | p c q |
| C13 | `RR32.C13_negation` | p q |
| C13 | `RR32.C13_stream` | p c q |
| C14 | `RR32.C14_no_tx` | p c q |
| C14 | `RR32.C14_receive_is_passive` | p c q |
| C15 | `RR32.C15_bounds` | p c q |
| C15 | `RR32.C15_faults` | p c q |
| C16 | `RR32.C16_requests_passive` | p c q |
| C16 | `RR32.C16_get_status` | p c q |
| C17 | `RR32.C17_transmissions` | p c q |
| C18 | `RR32.C18_velocity` | p c q |
| C18 | `RR32.C18_direction` | p c q |
| C18 | `RR32.C18_function` | p c q |
| C18 | `RR32.C18_system` | p c q |
| C18 | `RR32.C18_emergency_stop` | p c q |
| C18 | `RR32.C18_accessory` | p c q |
| C19 | `RR32.C19_accessory_partial` | p c q |
| C19 | `RR32.C19_unknown` | p c q |
| C19 | `RR32.C19_negation` | p q |
| C20 | `RR32.C20_request_engine_list` | p c q |
| C21 | `RR32.C21_request_engine` | p c q |
| C21 | `RR32.C21_request_refused` | p c q |
| C21 | `RR32.C21_name_seen` | p q |
| C21 | `RR32.C21_long_name_cut` | p q |
| C22 | `RR32.C22_all_functions` | p c q |
| C23 | `RR32.C23_detach` | p q |
| C23 | `RR32.C23_second_finish` | p |
| C23 | `RR32.C23_request_list` | p c q |
| C23 | `RR32.C23_request_engine` | p c q |
| C23 | `RR32.C23_delivery` | p c q |
| C23 | `RR32.C23_detached` | p c q |
| C24 | `RR32.C24_bounds` | p c q |
| C24 | `RR32.C24_empty_index` | p q |
| C24 | `RR32.C24_set_capacity` | p |
| C24 | `RR32.C25_read` | p q |
| C24 | `RR32.C25_write` | p c q |
| C25 | `RR32.C25_programs` | p c q |
| C25 | `RR32.C25_push` | p c q |
| C25 | `RR32.C25_append` | p c q |
| C25 | `RR32.C25_pop` | p c q |
| C25 | `RR32.C25_erase` | p c q |
| C25 | `RR32.C25_set` | p c q |
| C25 | `RR32.C25_move` | p c q |
| C25 | `RR32.C25_write` | p c q |
| C25 | `RR32.C25_read` | p q |
| C26 | `RR32.C26_terminated` | p c q |
| C26 | `RR32.C26_erase_needed` | none |
| C27 | `RR32.C27_char` | p q |
| C27 | `RR32.C27_chars` | p q |
| C27 | `RR32.C27_long_set` | p q |
| C28 | `RR32.C28_view` | p c q |
| C28 | `RR32.C28_empty` | p c q |
| C28 | `RR32.C28_content` | p c q |
| C28 | `RR32.C28_from` | p c q |
| C29 | `RR32.C29_crc` | p c q |
| C29 | `RR32.C29_valid` | p c q |
| C29 | `RR32.C29_getters` | p c q |
| C30 | `RR32.C30_burst` | p c q |
| C30 | `RR32.C30_byte` | p c q |
| C30 | `RR32.C30_bytes` | p c q |
| C31 | `RR32.C31_odd` | p c q |
| C32 | `RR32.C32_two_bits` | p c q |
| C32 | `RR32.C32_two_bits_iff` | p c q |
| C32 | `RR32.xr_order` | p c q |
| C33 | `RR32.C33_total` | p c q |
| C33 | `RR32.C33_construct` | p c q |
| C34 | `RR32.C34_chunking` | p c q |
| C34 | `RR32.C35_case` | p c q |
| C35 | `RR32.C35_round_trip` | p c q |
| C35 | `RR32.C35_fresh` | p c q |
| C35 | `RR32.C35_case` | p c q |
| C36 | `RR32.C36_all_streams` | p q |
| C36 | `RR32.C36_exactly` | p c q |
| C36 | `RR32.C36_reported` | p c q |
| C36 | `RR32.C36_reported_tail` | p c q |
| C36 | `RR32.C36_oversized` | p c q |
| C36 | `RR32.C36_sticky` | p c q |
| C36 | `RR32.C39_text` | p c q |
| C36 | `RR32.C36_case` | p c q |
| C37 | `RR32.C37_clean` | p c q |
| C37 | `RR32.C35_case` | p c q |
| C38 | `RR32.C38_false` | p c q |
| C38 | `RR32.C38_exactly` | p c q |
| C38 | `RR32.C38_terminated_partial` | p c q |
| C39 | `RR32.C39_text` | p c q |
| C39 | `RR32.C39_stream` | p c q |
| C40 | `RR32.C40_download` | p c q |
| C40 | `RR32.C40_document` | p c q |
| C40 | `RR32.C40_not_earlier` | p c q |
| C40 | `RR32.C40_case` | p c q |
| C41 | `RR32.C41_false` | p c q |
| C41 | `RR32.C41_never` | p c q |
| C41 | `RR32.C41_terminates_partial` | p c q |
| C42 | `RR32.C42_burst` | p c q |
| C42 | `RR32.C42_odd` | p c q |
| C42 | `RR32.C42_case` | p c q |
| C43 | `RR32.C43_false` | p c q |
| C43 | `RR32.C43_zero_partial` | p c q |
| C43 | `RR32.C43_case` | p |
| C43 | `RR32.crc_empty` | p c q |
| C44 | `RR32.C44_one_end` | p c q |
| C44 | `RR32.C44_between` | p c q |
| C44 | `RR32.C44_attached` | p c q |
| C44 | `RR32.C45_case` | p c q |
| C45 | `RR32.C45_malformed` | p c q |
| C45 | `RR32.C45_ignored` | p c q |
| C45 | `RR32.C45_case` | p c q |
| C46 | `RR32.C46_served_partial` | p c q |
| C46 | `RR32.C46_history_partial` | p c q |
| C46 | `RR32.C46_attach_after` | p c q |
| C46 | `RR32.C46_false` | p c q |
| C47 | `RR32.C47_uid` | p c q |
| C47 | `RR32.C47_protocol` | p c q |
| C47 | `RR32.C47_address` | p c q |
| C47 | `RR32.C47_other` | p c q |
| C47 | `RR32.C47_error` | p c q |
| C47 | `RR32.C47_nested` | p c q |
| C47 | `RR32.C47_sequence` | p c q |
| C47 | `RR32.C47_last` | p c q |
| C47 | `RR32.C47_named_partial` | p c q |
| C47 | `RR32.C47_false` | p c q |
| C47 | `RR32.C47_overrun` | p c q |
| C48 | `RR32.C48_uid` | p c q |
| C48 | `RR32.C48_address` | p c q |
| C48 | `RR32.C48_hex` | p c q |
| C48 | `RR32.C48_count` | p q |
| C48 | `RR32.C48_count_exact` | p c q |
| C49 | `RR32.C49_download_partial` | p c q |
| C49 | `RR32.Spec.NamedEngineFile.matched` | p c q |
| C49 | `RR32.wire_exists` | p c q |
| C49 | `RR32.C49_false` | p c q |
| C50 | `RR32.C50_name` | p c q |
| C50 | `RR32.C50_count` | p c q |
| C50 | `RR32.C50_other` | p c q |
| C50 | `RR32.C50_error` | p c q |
| C50 | `RR32.C50_sequence` | p c q |
| C50 | `RR32.C50_last_count` | p c q |
| C50 | `RR32.C50_named_partial` | p c q |
| C50 | `RR32.C50_false` | p c q |
| C50 | `RR32.C50_overrun` | p c q |
| C51 | `RR32.C51_download_partial` | p c q |
| C51 | `RR32.Spec.NamedListFile.matched` | p c q |
| C51 | `RR32.wire_exists` | p c q |
| C51 | `RR32.C50_false` | p c q |
| C52 | `RR32.C52_list` | p c q |
| C52 | `RR32.C52_engine` | p c q |
| C52 | `RR32.C52_list_abort` | p q |
| C52 | `RR32.C52_list_after` | p c q |
| C52 | `RR32.C52_engine_abort` | p c q |
| C52 | `RR32.C52_list_nested` | p c q |
| C52 | `RR32.C52_engine_nested` | p c q |
| C53 | `RR32.C53_told_partial` | p c q |
| C53 | `RR32.C53_false` | p c q |
| C53 | `RR32.C53_case` | p c q |
| C54 | `RR32.C54_setName` | p q |
| C54 | `RR32.C54_setName_engine` | p q |
| C54 | `RR32.C54_unreadable` | p |
| C54 | `RR32.C54_conditional` | p q |
| C54 | `RR32.C54_conditional_engine` | p q |
| C54 | `RR32.C54_twice` | p c q |
| C55 | `RR32.C55_exactly` | p c q |
| C55 | `RR32.C55_terminated_partial` | p c q |
| C55 | `RR32.C55_false` | p c q |
| C56 | `RR32.C56_set` | p c q |
| C56 | `RR32.C56_sequence` | p c q |
| C56 | `RR32.C56_undefined` | p q |
| C57 | `RR32.C57_change` | p |
| C57 | `RR32.C57_switch` | p |
| C58 | `RR32.C58_step` | p c q |
| C58 | `RR32.C58_history` | p c q |
| C58 | `RR32.C58_start` | p c q |
| C58 | `RR32.C58_setters` | p c q |
| C58 | `RR32.C58_needed` | p c q |
| C59 | `RR32.C59_false` | p c q |
| C59 | `RR32.C59_returns_partial` | p c q |
| C59 | `RR32.C59_after` | p c q |
| C59 | `RR32.C59_exactly` | p c q |
| C59 | `RR32.C59_detach` | p c q |
| C59 | `RR32.C59_recording` | p c q |
| C59 | `RR32.World.C59_nested_false` | p c q |
| C60 | `RR32.C60_turnout` | p c q |
| C60 | `RR32.C60_turnout_objects` | p q |
| C60 | `RR32.C60_loco` | p q |
| C60 | `RR32.C60_loco_objects` | p q |
| C60 | `RR32.C60_low_bits` | p c q |
| C60 | `RR32.C60_decoder_base` | p c q |
| C61 | `RR32.C61_invisible` | p c q |
| C61 | `RR32.C61_undisturbed` | p c q |
| C61 | `RR32.C61_engine_download` | p c q |
| C61 | `RR32.C61_list_download` | p c q |
| C62 | `RR32.C62_progress` | p c q |
| C62 | `RR32.C62_complete` | p c q |
| C62 | `RR32.C62_aborted` | p c q |
| C62 | `RR32.C62_packets` | p c q |
| C62 | `RR32.C62_loss` | p c q |
| C62 | `RR32.C62_station` | p c q |
| C62 | `RR32.C62_repeat_case` | p c q |
| C63 | `RR32.C63_step` | p c q |
| C63 | `RR32.C63_total` | p c q |
| C63 | `RR32.C63_rest` | p c q |
| C64 | `RR32.C64_broadcast` | p c q |
| C64 | `RR32.C64_packet` | p c q |
| C65 | `RR32.C65_agreement_partial` | p c q |
| C65 | `RR32.C65_race` | p c q |
| C65 | `RR32.C65_polite_case` | p c q |
| C66 | `RR32.C66_hex` | p c q |
| C66 | `RR32.C66_text` | p q |
| C66 | `RR32.C66_exact` | p q |
| C66 | `RR32.C66_determines` | p c q |
| C66 | `RR32.C66_overrun` | p q |
| C67 | `RR32.C67_fields` | p c q |
| C67 | `RR32.C67_determines` | p c q |
| C68 | `RR32.C68_lines_partial` | p c q |
| C68 | `RR32.C68_call_partial` | p c q |
| C68 | `RR32.C68_history_partial` | p c q |
| C68 | `RR32.C68_unfinished` | p c q |
| C69 | `RR32.C69_fields` | p c q |
| C69 | `RR32.C69_words` | p c q |
| C69 | `RR32.C69_human_partial` | p c q |
| C69 | `RR32.C69_numbers` | p q |
| C69 | `RR32.C69_tagged` | p c q |
| C70 | `RR32.C70_number_partial` | p c q |
| C70 | `RR32.C70_dcc` | p c q |
| C70 | `RR32.C70_position_partial` | p c q |
| C70 | `RR32.C70_power` | p c q |
| C71 | `RR32.C71_numbers` | p c q |
| C71 | `RR32.C71_determines` | p c q |
| C72 | `RR32.C72_determines_partial` | p c q |
| C72 | `RR32.C72_ambiguous` | p c q |
| C72 | `RR32.C72_uninitialised` | p c q |
| C73 | `RR32.C73_agrees` | p c q |
| C73 | `RR32.C73_faults` | p c q |
| C74 | `RR32.World.C74_silent` | p c q |
| C74 | `RR32.World.C74_stack` | p c q |
| C74 | `RR32.World.C74_reentrant` | p c q |
| C75 | `RR32.World.C75_memory` | p c q |
| C75 | `RR32.World.C75_no_fault` | p c q |
| C76 | `RR32.World.C76_received` | p c q |
| C77 | `RR32.World.C77_abort` | p c q |
| C78 | `RR32.World.C78_restart` | p c q |
| C78 | `RR32.World.C78_engine` | p c q |
| C78 | `RR32.World.C78_other_partial` | p c q |
| C78 | `RR32.World.C76_received` | p c q |
| C79 | `RR32.World.C79_pumped` | p c q |
| C79 | `RR32.World.C79_order_partial` | p c q |
| C79 | `RR32.World.C79_packets_partial` | p c q |
| C79 | `RR32.World.C79_stream_partial` | p c q |
| C80 | `RR32.C80_engine` | p c q |
| C80 | `RR32.C80_list` | p c q |
| C80 | `RR32.C80_ignored` | p c q |
| C81 | `RR32.C81_page` | p c q |
| C81 | `RR32.C81_browse` | p c q |
| C81 | `RR32.C81_all` | p c q |
| C81 | `RR32.C81_possible` | p c q |
| C81 | `RR32.C81_needs_abort` | p c q |
| C82 | `RR32.C82_load` | p c q |
| C82 | `RR32.C82_mirror` | p c q |
| C82 | `RR32.C82_possible` | p c q |
| C83 | `RR32.C83_same` | p c q |
| C83 | `RR32.C83_exactly` | p c q |
| C83 | `RR32.C83_history_partial` | p c q |
| C83 | `RR32.C83_quiet` | p c q |
| C83 | `RR32.C83_template` | p c q |
| C83 | `RR32.C83_false` | p c q |
| C84 | `RR32.World.C84_command` | p c q |
| C84 | `RR32.World.C84_list` | p c q |
| C84 | `RR32.World.C84_short_info` | p c q |
| C84 | `RR32.World.C84_engine` | p c q |
| C84 | `RR32.World.C84_renamed` | p c q |
| C85 | `RR32.World.C85_seen` | p c q |
| C85 | `RR32.World.C85_received` | p c q |
| C85 | `RR32.World.C85_sent` | p c q |
| C85 | `RR32.World.C85_aborted` | p c q |
| C85 | `RR32.World.C85_ended` | p c q |
| C86 | `RR32.C86_silent` | p c q |
| C86 | `RR32.C86_silent_run` | p c q |
| C86 | `RR32.C86_app` | p c q |
| C86 | `RR32.C86_engine` | p c q |
| C86 | `RR32.C86_list` | p c q |
| C86 | `RR32.C86_names` | p c q |
| C87 | `RR32.C87_page` | p c q |
| C87 | `RR32.C87_load` | p c q |
| C87 | `RR32.C87_browse` | p c q |
| C87 | `RR32.C87_mirror` | p c q |
| C87 | `RR32.C87_possible` | p c q |
| C88 | `RR32.C88_stream` | p c q |
| C88 | `RR32.C88_checksum` | p c q |
| C88 | `RR32.C88_document` | p c q |
| C88 | `RR32.C88_any` | p c q |
| C88 | `RR32.C88_master` | p c q |
| C88 | `RR32.C88_request_list` | p c q |
| C88 | `RR32.C88_request_engine` | p c q |
| C89 | `RR32.World.C89_reach` | p c q |
| C89 | `RR32.World.C89_step` | p c q |
| C89 | `RR32.World.C89_careful` | p c q |
| C89 | `RR32.World.C89_release` | p c q |
| C89 | `RR32.World.C89_parser_gone` | p c q |
| C89 | `RR32.World.C89_parser_unused` | p c q |
| C89 | `RR32.World.C89_consumer_gone` | p c q |
| C89 | `RR32.World.C89_living` | p c q |
| C89 | `RR32.World.C89_over` | p c q |
| C89 | `RR32.World.C89_over_weaker` | none |
| C89 | `RR32.World.C89_over_run` | p c q |
| C89 | `RR32.World.C89_over_when` | p c q |
| C89 | `RR32.World.C89_start` | none |
| C89 | `RR32.World.C89_engine_gone` | p c q |
| C89 | `RR32.World.C89_engine_abort` | p c q |
| C90 | `RR32.C90_calls` | p c q |
| C90 | `RR32.C90_raw` | p c q |
| C90 | `RR32.C90_more` | p c q |
| C90 | `RR32.C90_progress` | p c q |
| C90 | `RR32.C90_download` | p c q |
| C90 | `RR32.C90_engine_entry` | p c q |
| C90 | `RR32.C90_no_engine_entry` | p c q |
| C90 | `RR32.C90_engine_complete` | p c q |
| C90 | `RR32.C90_silent_end` | p c q |
| C90 | `RR32.C90_list_entry` | p c q |
| C91 | `RR32.C91_turns_partial` | p c q |
| C91 | `RR32.C91_mirror_partial` | p c q |
| C91 | `RR32.C91_page_partial` | p c q |
| C91 | `RR32.C91_possible` | p c q |
| C91 | `RR32.C91_first_partial` | p c q |
| C91 | `RR32.C91_mixed_partial` | p c q |
| C92 | `RR32.C92_same` | p c q |
| C92 | `RR32.C92_safe` | p c q |
| C92 | `RR32.C92_document` | p c q |
| C92 | `RR32.C92_overflow` | p c q |
| C92 | `RR32.C92_harmless` | p |
| C92 | `RR32.C92_case` | p c q |
| C92 | `RR32.C92_overflow_case` | p c q |
| C92 | `RR32.C92_harmless_case` | p c q |
| C93 | `RR32.C93_safe` | p c q |
| C93 | `RR32.C93_overlap` | p c q |
| C93 | `RR32.C93_no_overlap` | p q |
| C93 | `RR32.C93_frame` | p c q |
| C93 | `RR32.C93_apart` | p c q |
| C93 | `RR32.C93_view_live` | p c q |
| C93 | `RR32.C93_view_erased` | p c q |
| C93 | `RR32.C93_view_write` | p c q |
| C93 | `RR32.C93_view_push` | p c q |
| C93 | `RR32.C93_view_erase` | p c q |
| C93 | `RR32.C93_set_from` | p c q |
| C93 | `RR32.C93_set_own` | p c q |
| C94 | `RR32.Scene.C94_careful` | p c q |
| C94 | `RR32.Scene.C94_careful_call` | p c q |
| C94 | `RR32.Scene.C94_as_if` | p c q |
| C94 | `RR32.Scene.C94_careful_as_if` | p c q |
| C94 | `RR32.Scene.C94_only_living` | p c q |
| C94 | `RR32.Scene.C94_only_living_nested` | p c q |
| C94 | `RR32.Scene.C94_reset` | p c q |
| C94 | `RR32.Scene.C94_packet` | p c q |
| C94 | `RR32.Scene.C94_engine` | p c q |
| C94 | `RR32.Scene.C94_discarding` | p c q |
| C94 | `RR32.Scene.C94_once` | p c q |
| C95 | `RR32.World.C95_overwritten` | p c q |
| C95 | `RR32.World.C95_frame` | p c q |
| C95 | `RR32.World.C95_packet` | p c q |
| C95 | `RR32.World.C95_settled` | p c q |
| C95 | `RR32.World.C95_start` | p |
| C95 | `RR32.World.C95_crowded` | p c q |
| C96 | `RR32.C96_logged` | p c q |
| C96 | `RR32.C96_legible` | p c q |
| C96 | `RR32.C96_subcommands` | p c q |
| C97 | `RR32.Desk.C97_same` | p c q |
| C97 | `RR32.Desk.C97_quiet` | p c q |
| C97 | `RR32.Desk.C97_grows` | p c q |
| C97 | `RR32.Desk.C97_lines` | p c q |
| C97 | `RR32.Desk.C97_switch` | p c q |
| C97 | `RR32.Desk.C97_torn` | p c q |
| C97 | `RR32.Desk.C97_inside` | p c q |
| C97 | `RR32.Desk.C97_sent` | p c q |
| C97 | `RR32.Desk.C97_flat` | p c q |
| C97 | `RR32.Desk.C97_flat_quiet` | p c q |
| C98 | `RR32.C98_distinct` | p c q |
| C98 | `RR32.C98_used` | p c q |
| C98 | `RR32.C98_packet` | p c q |
| C98 | `RR32.C98_frame` | p c q |
| C99 | `RR32.C99_valid` | none |
| C99 | `RR32.C99_step` | p c q |
| C99 | `RR32.C99_history` | p c q |
| C99 | `RR32.C99_isValid` | p c q |
| C99 | `RR32.C99_stepN` | p c q |
| C99 | `RR32.C99_nested` | p c q |
| C100 | `RR32.C100_history` | p c q |
| C100 | `RR32.C100_new` | p c q |
| C100 | `RR32.C100_nested` | p c q |
| C101 | `RR32.C101_history` | p c q |
| C101 | `RR32.C101_nested` | p c q |
| C101 | `RR32.C101_new` | none |
| C101 | `RR32.C101_since` | p c q |
| C102 | `RR32.C102_history` | p c q |
| C102 | `RR32.C102_nested` | p c q |
| C103 | `RR32.World.C103_transmissions` | p c q |
| C103 | `RR32.World.C103_any` | p c q |
| C103 | `RR32.World.C103_two_begins` | p c q |
| C104 | `RR32.World.C104_only_sends` | p c q |
| C104 | `RR32.World.C104_returns` | p c q |
| C104 | `RR32.World.C104_senders` | p c q |
| C105 | `RR32.World.C105_ends` | p c q |
| C105 | `RR32.World.C105_unbounded` | p c q |
| C106 | `RR32.C106_wire` | p c q |
| C106 | `RR32.C106_history` | p c q |
| C106 | `RR32.C106_commands` | p c q |
| C106 | `RR32.C106_room` | p c q |
| C107 | `RR32.C107_complete` | p c q |
| C107 | `RR32.C107_engine` | p c q |
| C107 | `RR32.C107_list` | p c q |
| C107 | `RR32.C107_polite` | p c q |
| C108 | `RR32.C108_history` | p c q |
| C108 | `RR32.C108_wire` | p c q |
| C108 | `RR32.C108_silent` | p c q |
| C108 | `RR32.C108_only_sends` | p c q |
| C108 | `RR32.C108_complete` | p c q |
| C108 | `RR32.C108_engine` | p c q |
| C108 | `RR32.C108_list` | p c q |
| C108 | `RR32.C108_storm` | p c q |
| C109 | `RR32.C109_ideal` | p c q |
| C109 | `RR32.C109_roomy` | p c q |
| C110 | `RR32.C110_bounded` | p c q |
| C110 | `RR32.C110_rest` | p c q |
| C110 | `RR32.C110_lighting` | p c q |
| C110 | `RR32.C110_room` | p c q |
| C110 | `RR32.C110_settled` | p c q |
| C111 | `RR32.World.C111_new` | p |
| C111 | `RR32.World.C111_others` | p |
| C111 | `RR32.World.C111_careful` | p c q |
| C111 | `RR32.World.C111_left_alone` | p c q |
| C111 | `RR32.World.C111_mistaken` | p c q |
| C112 | `RR32.C112_memory` | p c q |
| C112 | `RR32.C112_no_fault` | p c q |
| C112 | `RR32.C112_returns` | p c q |
| C113 | `RR32.Scene.C113_careful` | p c q |
| C113 | `RR32.Scene.C113_as_if` | p c q |
| C113 | `RR32.Scene.C113_careful_as_if` | p c q |
| C113 | `RR32.Scene.C113_made` | p c q |
| C113 | `RR32.Scene.C113_gone` | p c q |
| C113 | `RR32.Scene.C113_once` | p c q |
| C114 | `RR32.C114_ideal` | p c q |
| C114 | `RR32.C114_roomy` | p c q |
| C114 | `RR32.C114_silent` | p c q |
| C115 | `RR32.World.C115_call` | p c q |
| C115 | `RR32.World.C115_history` | p c q |
| C115 | `RR32.C115_wire` | p c q |
| C115 | `RR32.C115_silent` | p c q |
