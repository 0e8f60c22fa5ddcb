{
 "claims": [
  {
   "property": "C01",
   "status": "proved",
   "theorems": [
    "RR32.C01_fields",
    "RR32.C01_setters",
    "RR32.C01_readback",
    "RR32.C01_construct",
    "RR32.C01_raw"
   ],
   "note": ""
  },
  {
   "property": "C02",
   "status": "proved",
   "theorems": [
    "RR32.C02_get",
    "RR32.C02_roundtrip",
    "RR32.C02_injective"
   ],
   "note": ""
  },
  {
   "property": "C03",
   "status": "proved",
   "theorems": [
    "RR32.C03_payload_eq",
    "RR32.C03_payload_equivalence",
    "RR32.C03_payload_overrun",
    "RR32.C03_frame_eq"
   ],
   "note": ""
  },
  {
   "property": "C04",
   "status": "proved",
   "theorems": [
    "RR32.C04_squeeze",
    "RR32.C04_general",
    "RR32.C04_begin",
    "RR32.C04_formula",
    "RR32.C04_collision",
    "RR32.C04_distinct"
   ],
   "note": ""
  },
  {
   "property": "C05",
   "status": "proved",
   "theorems": [
    "RR32.C05_roundtrip",
    "RR32.C05_offset",
    "RR32.C05_packet"
   ],
   "note": ""
  },
  {
   "property": "C06",
   "status": "partial",
   "theorems": [
    "RR32.C06_tagging_partial",
    "RR32.C06_unknown",
    "RR32.C06_unknown_leaks"
   ],
   "note": "Proved for all protocols but UNKNOWN. The code disagrees for UNKNOWN: its tag 0xFF00 overlaps the low 10 bits, so a later setProtocol does not win completely (C06_unknown_leaks gives the exact condition)."
  },
  {
   "property": "C07",
   "status": "partial",
   "theorems": [
    "RR32.C07_tagging_partial",
    "RR32.C07_in_range",
    "RR32.C07_unknown",
    "RR32.C07_sx2",
    "RR32.C07_ranges",
    "RR32.C07_masked",
    "RR32.C07_map"
   ],
   "note": "The code disagrees with the last sentence for the 14-bit ranges of MFX and DCC (numbers are cut to 10 bits, C07_in_range) and for SX2 (tagged into the SX1 range, C07_sx2), and with \"keeps the low 10 bits\" and \"wins completely\" for UNKNOWN (C07_unknown: exact). C07_ranges: the constants of the code are the ranges of the specification, and these are disjoint. C07_masked: what getUidMasked gives. C07_map: the same for all address constants of the library, used or not."
  },
  {
   "property": "C08",
   "status": "proved",
   "theorems": [
    "RR32.C08_fields",
    "RR32.C08_init",
    "RR32.C08_raw",
    "RR32.C08_eq",
    "RR32.C08_protocol"
   ],
   "note": ""
  },
  {
   "property": "C09",
   "status": "proved",
   "theorems": [
    "RR32.C09_get",
    "RR32.C09_fields",
    "RR32.C09_subtype",
    "RR32.C09_builder",
    "RR32.C09_short"
   ],
   "note": ""
  },
  {
   "property": "C10",
   "status": "partial",
   "theorems": [
    "RR32.C10_loco",
    "RR32.C10_turnout",
    "RR32.C10_system",
    "RR32.C10_stream_first",
    "RR32.C10_stream_data",
    "RR32.C10_request_partial",
    "RR32.C10_request_len"
   ],
   "note": "Request_Config_Data carries its text only up to 8 characters; C10_request_len says exactly what longer texts become (cut, ninth character left behind the dlc)."
  },
  {
   "property": "C11",
   "status": "proved",
   "theorems": [
    "RR32.C11_decision_table",
    "RR32.C11_at_most_one",
    "RR32.C11_rows"
   ],
   "note": ""
  },
  {
   "property": "C12",
   "status": "partial",
   "theorems": [
    "RR32.C12_null_callback_partial",
    "RR32.C12_missing_ignored",
    "RR32.C12_negation"
   ],
   "note": "False of the code: direction and function frames call through a null engine callback (C12_negation); proved exactly when this happens and that every other frame is fine."
  },
  {
   "property": "C13",
   "status": "partial",
   "theorems": [
    "RR32.C13_equal_frames_partial",
    "RR32.C13_accessory_decoded",
    "RR32.C13_negation",
    "RR32.C13_stream"
   ],
   "note": "False of the code for accessory frames: the dlc is not checked, so bytes behind the dlc are reported. Proved for all other frames and for accessory frames with dlc >= 6. C13_stream: the library's own configuration data receiver treats equal payloads equally."
  },
  {
   "property": "C14",
   "status": "proved",
   "theorems": [
    "RR32.C14_no_tx",
    "RR32.C14_receive_is_passive"
   ],
   "note": ""
  },
  {
   "property": "C15",
   "status": "proved",
   "theorems": [
    "RR32.C15_bounds",
    "RR32.C15_faults"
   ],
   "note": ""
  },
  {
   "property": "C16",
   "status": "proved",
   "theorems": [
    "RR32.C16_requests_passive",
    "RR32.C16_get_status"
   ],
   "note": ""
  },
  {
   "property": "C17",
   "status": "proved",
   "theorems": [
    "RR32.C17_transmissions"
   ],
   "note": "Over all histories; for SendPacket, which is handed a complete frame, only the hash and the tx callback are the station's."
  },
  {
   "property": "C18",
   "status": "proved",
   "theorems": [
    "RR32.C18_velocity",
    "RR32.C18_direction",
    "RR32.C18_function",
    "RR32.C18_system",
    "RR32.C18_emergency_stop",
    "RR32.C18_accessory"
   ],
   "note": ""
  },
  {
   "property": "C19",
   "status": "partial",
   "theorems": [
    "RR32.C19_accessory_partial",
    "RR32.C19_unknown",
    "RR32.C19_negation"
   ],
   "note": "The code does not mask the address: proved that the claim holds exactly for addresses below 1024 (protocols other than UNKNOWN); for UNKNOWN exactly for 768 to 1023. C19_negation: address 2048 as MM2 is transmitted as DCC."
  },
  {
   "property": "C20",
   "status": "proved",
   "theorems": [
    "RR32.C20_request_engine_list"
   ],
   "note": ""
  },
  {
   "property": "C21",
   "status": "proved",
   "theorems": [
    "RR32.C21_request_engine",
    "RR32.C21_request_refused",
    "RR32.C21_name_seen",
    "RR32.C21_long_name_cut"
   ],
   "note": ""
  },
  {
   "property": "C22",
   "status": "proved",
   "theorems": [
    "RR32.C22_all_functions"
   ],
   "note": ""
  },
  {
   "property": "C23",
   "status": "proved",
   "theorems": [
    "RR32.C23_detach",
    "RR32.C23_second_finish",
    "RR32.C23_request_list",
    "RR32.C23_request_engine",
    "RR32.C23_delivery",
    "RR32.C23_detached"
   ],
   "note": ""
  },
  {
   "property": "C24",
   "status": "proved",
   "theorems": [
    "RR32.C24_bounds",
    "RR32.C24_empty_index",
    "RR32.C24_set_capacity",
    "RR32.C25_read",
    "RR32.C25_write"
   ],
   "note": "Every legal program over any family of buffers runs without a fault. Preconditions (string into capacity 0, indexing an empty buffer) are shown to be needed."
  },
  {
   "property": "C25",
   "status": "proved",
   "theorems": [
    "RR32.C25_programs",
    "RR32.C25_push",
    "RR32.C25_append",
    "RR32.C25_pop",
    "RR32.C25_erase",
    "RR32.C25_set",
    "RR32.C25_move",
    "RR32.C25_write",
    "RR32.C25_read"
   ],
   "note": "Simulation by plain lists for every program, plus the return value of each operation."
  },
  {
   "property": "C26",
   "status": "proved",
   "theorems": [
    "RR32.C26_terminated",
    "RR32.C26_erase_needed"
   ],
   "note": ""
  },
  {
   "property": "C27",
   "status": "proved",
   "theorems": [
    "RR32.C27_char",
    "RR32.C27_chars",
    "RR32.C27_long_set"
   ],
   "note": "Character sets of fewer than 256 characters; a set of 256 characters is cut to none (C27_long_set)."
  },
  {
   "property": "C28",
   "status": "proved",
   "theorems": [
    "RR32.C28_view",
    "RR32.C28_empty",
    "RR32.C28_content",
    "RR32.C28_from"
   ],
   "note": ""
  },
  {
   "property": "C29",
   "status": "proved",
   "theorems": [
    "RR32.C29_crc",
    "RR32.C29_valid",
    "RR32.C29_getters"
   ],
   "note": "Polynomials over ZMod 2 (Mathlib), most significant bit first."
  },
  {
   "property": "C30",
   "status": "proved",
   "theorems": [
    "RR32.C30_burst",
    "RR32.C30_byte",
    "RR32.C30_bytes"
   ],
   "note": "From any register state."
  },
  {
   "property": "C31",
   "status": "proved",
   "theorems": [
    "RR32.C31_odd"
   ],
   "note": ""
  },
  {
   "property": "C32",
   "status": "proved",
   "theorems": [
    "RR32.C32_two_bits",
    "RR32.C32_two_bits_iff",
    "RR32.xr_order"
   ],
   "note": "Exact: undetected if and only if the distance is a multiple of 32767."
  },
  {
   "property": "C33",
   "status": "proved",
   "theorems": [
    "RR32.C33_total",
    "RR32.C33_construct"
   ],
   "note": "Every call (addText with any sound buffer, reset, setConsumer) on every parser reachable from the constructor on memory with any content ends without a fault (out-of-bounds, non-termination are fault outcomes) with an empty work buffer, and reachability is preserved."
  },
  {
   "property": "C34",
   "status": "proved",
   "theorems": [
    "RR32.C34_chunking",
    "RR32.C35_case"
   ],
   "note": "Any two chunkings of the same bytes with chunks of at most 30 bytes from any reachable non-ERROR parser: identical final parser, same events up to and including the first error, then one ERROR event per later chunk; no difference at all without error."
  },
  {
   "property": "C35",
   "status": "proved",
   "theorems": [
    "RR32.C35_round_trip",
    "RR32.C35_fresh",
    "RR32.C35_case"
   ],
   "note": "Documents are defined by a grammar independent of the parser; any filler, any chunking, from any reachable parser between lines."
  },
  {
   "property": "C36",
   "status": "proved",
   "theorems": [
    "RR32.C36_all_streams",
    "RR32.C36_exactly",
    "RR32.C36_reported",
    "RR32.C36_reported_tail",
    "RR32.C36_oversized",
    "RR32.C36_sticky",
    "RR32.C39_text",
    "RR32.C36_case"
   ],
   "note": "ERROR exactly for an oversized token or chunk, over the decomposition of an arbitrary byte stream into lines and tail (every stream has one); what the consumer is told; stickiness; reset restores the constructed parser."
  },
  {
   "property": "C37",
   "status": "proved",
   "theorems": [
    "RR32.C37_clean",
    "RR32.C35_case"
   ],
   "note": "For every event of every call on every reachable parser."
  },
  {
   "property": "C38",
   "status": "partial",
   "theorems": [
    "RR32.C38_false",
    "RR32.C38_exactly",
    "RR32.C38_terminated_partial"
   ],
   "note": "False of the code: the token buffers are exactly as long as the longest token, so a token of 11, 11 or 26 bytes is handed out without NUL (C38_false). C38_exactly characterises when a buffer is a C string; the partial theorem gives the claim for shorter tokens."
  },
  {
   "property": "C39",
   "status": "proved",
   "theorems": [
    "RR32.C39_text",
    "RR32.C39_stream"
   ],
   "note": "Text parser: reset gives the very state of the constructor. Stream parser: bisimulation over all call sequences (a new parser differs only in a checksum that is initialised before it is used); the reset itself may notify an abort."
  },
  {
   "property": "C40",
   "status": "proved",
   "theorems": [
    "RR32.C40_download",
    "RR32.C40_document",
    "RR32.C40_not_earlier",
    "RR32.C40_case"
   ],
   "note": "CRC side condition stated by polynomial division (IsCrcOf), text side by the document grammar."
  },
  {
   "property": "C41",
   "status": "partial",
   "theorems": [
    "RR32.C41_false",
    "RR32.C41_never",
    "RR32.C41_terminates_partial"
   ],
   "note": "False of the code: for every announced length that is not a multiple of 8 the counter skips zero and the stream never ends (C41_never). The partial theorem covers multiples of 8."
  },
  {
   "property": "C42",
   "status": "proved",
   "theorems": [
    "RR32.C42_burst",
    "RR32.C42_odd",
    "RR32.C42_case"
   ],
   "note": "For all payloads and all corruptions of the named kinds, through the parser."
  },
  {
   "property": "C43",
   "status": "partial",
   "theorems": [
    "RR32.C43_false",
    "RR32.C43_zero_partial",
    "RR32.C43_case",
    "RR32.crc_empty"
   ],
   "note": "False of the code: zero-length streams are reported complete with every checksum."
  },
  {
   "property": "C44",
   "status": "proved",
   "theorems": [
    "RR32.C44_one_end",
    "RR32.C44_between",
    "RR32.C44_attached",
    "RR32.C45_case"
   ],
   "note": "All histories of the four public calls."
  },
  {
   "property": "C45",
   "status": "proved",
   "theorems": [
    "RR32.C45_malformed",
    "RR32.C45_ignored",
    "RR32.C45_case"
   ],
   "note": "All packets (any dlc byte), all reachable states."
  },
  {
   "property": "C46",
   "status": "partial",
   "theorems": [
    "RR32.C46_served_partial",
    "RR32.C46_history_partial",
    "RR32.C46_attach_after",
    "RR32.C46_false"
   ],
   "note": "False as stated: requesting again with the parser that is still registered resets it after the consumer was attached, so the consumer is lost (C46_false). Proved for parsers that are not registered, after every allowed history, and for consumers attached after the request."
  },
  {
   "property": "C47",
   "status": "partial",
   "theorems": [
    "RR32.C47_uid",
    "RR32.C47_protocol",
    "RR32.C47_address",
    "RR32.C47_other",
    "RR32.C47_error",
    "RR32.C47_nested",
    "RR32.C47_sequence",
    "RR32.C47_last",
    "RR32.C47_named_partial",
    "RR32.C47_false",
    "RR32.C47_overrun"
   ],
   "note": "False as stated: sections and keys that are prefixes of the names (also empty) count as the names (C47_false). Proved: exact effect of every entry (C47_uid/protocol/address/other), frame and last-entry-wins over all sequences, nested keys and parse errors never change the engine, and the claim itself for tokens that are not proper prefixes (C47_named_partial). Values that fill the 26-byte buffer are read past its end (C47_overrun)."
  },
  {
   "property": "C48",
   "status": "proved",
   "theorems": [
    "RR32.C48_uid",
    "RR32.C48_address",
    "RR32.C48_hex",
    "RR32.C48_count",
    "RR32.C48_count_exact"
   ],
   "note": ""
  },
  {
   "property": "C49",
   "status": "partial",
   "theorems": [
    "RR32.C49_download_partial",
    "RR32.Spec.NamedEngineFile.matched",
    "RR32.wire_exists",
    "RR32.C49_false"
   ],
   "note": "Proved for every document whose entries for uid, address and protocol agree; false for files with entries whose key is a proper prefix of the names (C49_false). wire_exists: every document has frames."
  },
  {
   "property": "C50",
   "status": "partial",
   "theorems": [
    "RR32.C50_name",
    "RR32.C50_count",
    "RR32.C50_other",
    "RR32.C50_error",
    "RR32.C50_sequence",
    "RR32.C50_last_count",
    "RR32.C50_named_partial",
    "RR32.C50_false",
    "RR32.C50_overrun"
   ],
   "note": "False as stated: prefixes of the section names count as the names (C50_false), and tokens that fill their buffer are printed past its end (C50_overrun). Proved: exact effect of every entry, over all sequences, in terms of matching; for sections and keys that are not proper prefixes matching is equality (C50_named_partial)."
  },
  {
   "property": "C51",
   "status": "partial",
   "theorems": [
    "RR32.C51_download_partial",
    "RR32.Spec.NamedListFile.matched",
    "RR32.wire_exists",
    "RR32.C50_false"
   ],
   "note": "Proved for every document whose sections and keys are no proper prefixes of the names; the code takes every line of section loknamen for a name, and proper prefixes of the names too (C50_false)."
  },
  {
   "property": "C52",
   "status": "proved",
   "theorems": [
    "RR32.C52_list",
    "RR32.C52_engine",
    "RR32.C52_list_abort",
    "RR32.C52_list_after",
    "RR32.C52_engine_abort",
    "RR32.C52_list_nested",
    "RR32.C52_engine_nested"
   ],
   "note": "also while callbacks call back"
  },
  {
   "property": "C53",
   "status": "partial",
   "theorems": [
    "RR32.C53_told_partial",
    "RR32.C53_false",
    "RR32.C53_case"
   ],
   "note": "False of the code: with a right checksum the stream is reported complete whatever the text parser says (C53_false). What holds: the consumer is told an ERROR entry before the end, and a wrong checksum is an abort (C53_told_partial)."
  },
  {
   "property": "C54",
   "status": "proved",
   "theorems": [
    "RR32.C54_setName",
    "RR32.C54_setName_engine",
    "RR32.C54_unreadable",
    "RR32.C54_conditional",
    "RR32.C54_conditional_engine",
    "RR32.C54_twice"
   ],
   "note": "Names are C strings: any memory object whose first 32 bytes can be read as a string; otherwise the read leaves the object (C54_unreadable)."
  },
  {
   "property": "C55",
   "status": "partial",
   "theorems": [
    "RR32.C55_exactly",
    "RR32.C55_terminated_partial",
    "RR32.C55_false"
   ],
   "note": "False for texts of 8 or more characters (C55_false); exact characterisation in C55_exactly."
  },
  {
   "property": "C56",
   "status": "proved",
   "theorems": [
    "RR32.C56_set",
    "RR32.C56_sequence",
    "RR32.C56_undefined"
   ],
   "note": ""
  },
  {
   "property": "C57",
   "status": "proved",
   "theorems": [
    "RR32.C57_change",
    "RR32.C57_switch"
   ],
   "note": ""
  },
  {
   "property": "C58",
   "status": "proved",
   "theorems": [
    "RR32.C58_step",
    "RR32.C58_history",
    "RR32.C58_start",
    "RR32.C58_setters",
    "RR32.C58_needed"
   ],
   "note": ""
  },
  {
   "property": "C59",
   "status": "partial",
   "theorems": [
    "RR32.C59_false",
    "RR32.C59_returns_partial",
    "RR32.C59_after",
    "RR32.C59_exactly",
    "RR32.C59_detach",
    "RR32.C59_recording",
    "RR32.World.C59_nested_false"
   ],
   "note": "False as stated: if the abort is by a reset (begin, a new request, a malformed frame), reset notifies before it changes its state, and the recursion never ends (C59_false; C59_nested_false with callbacks of every kind and consumers of the application). Proved for completion and checksum errors (C59_after), and for callbacks that leave requests alone on abort (C59_returns_partial)."
  },
  {
   "property": "C60",
   "status": "proved",
   "theorems": [
    "RR32.C60_turnout",
    "RR32.C60_turnout_objects",
    "RR32.C60_loco",
    "RR32.C60_loco_objects",
    "RR32.C60_low_bits",
    "RR32.C60_decoder_base"
   ],
   "note": ""
  },
  {
   "property": "C61",
   "status": "proved",
   "theorems": [
    "RR32.C61_invisible",
    "RR32.C61_undisturbed",
    "RR32.C61_engine_download",
    "RR32.C61_list_download"
   ],
   "note": "C61_invisible: histories with and without control traffic have the same outcome (state, notices, faults), also when the history contains requests and calls on parsers, consumers and engines. C61_undisturbed: the other direction for stream frames. The downloads inherit the guards of C49 and C51."
  },
  {
   "property": "C62",
   "status": "proved",
   "theorems": [
    "RR32.C62_progress",
    "RR32.C62_complete",
    "RR32.C62_aborted",
    "RR32.C62_packets",
    "RR32.C62_loss",
    "RR32.C62_station",
    "RR32.C62_repeat_case"
   ],
   "note": "C62_repeat_case shows the limit: a repeated packet can pass the 16-bit checksum, and the stream is then reported complete with another payload. Streams without data are complete with any checksum (C43). C62_station says nothing about runs that fault in a consumer (C50, C38)."
  },
  {
   "property": "C63",
   "status": "proved",
   "theorems": [
    "RR32.C63_step",
    "RR32.C63_total",
    "RR32.C63_rest"
   ],
   "note": "C63_step: each step, from any state; C63_total: sum over any history; C63_rest: receiving alone drains the queue. The bus itself is idealised (Model/Bus.lean)."
  },
  {
   "property": "C64",
   "status": "proved",
   "theorems": [
    "RR32.C64_broadcast",
    "RR32.C64_packet"
   ],
   "note": "No fault, prefix at any time, everything once up to date. Applications give commands only; the bus itself is idealised (Model/Bus.lean)."
  },
  {
   "property": "C65",
   "status": "partial",
   "theorems": [
    "RR32.C65_agreement_partial",
    "RR32.C65_race",
    "RR32.C65_polite_case"
   ],
   "note": "Proved if every application has received all there is from the others before it gives a command. C65_race: without that condition two stations disagree for good."
  },
  {
   "property": "C66",
   "status": "proved",
   "theorems": [
    "RR32.C66_hex",
    "RR32.C66_text",
    "RR32.C66_exact",
    "RR32.C66_determines",
    "RR32.C66_overrun"
   ],
   "note": "Reading back with an independent reader, and the dump to the letter."
  },
  {
   "property": "C67",
   "status": "proved",
   "theorems": [
    "RR32.C67_fields",
    "RR32.C67_determines"
   ],
   "note": ""
  },
  {
   "property": "C68",
   "status": "partial",
   "theorems": [
    "RR32.C68_lines_partial",
    "RR32.C68_call_partial",
    "RR32.C68_history_partial",
    "RR32.C68_unfinished"
   ],
   "note": "False for emergency stops and unexpected configuration data; exact condition proved, for the station alone and for whole calls with the parser and consumers; histories without such frames print whole lines."
  },
  {
   "property": "C69",
   "status": "partial",
   "theorems": [
    "RR32.C69_fields",
    "RR32.C69_words",
    "RR32.C69_human_partial",
    "RR32.C69_numbers",
    "RR32.C69_tagged"
   ],
   "note": "Address, position, power and their words proved; the Human Value is wrong for every address that a protocol owns, SX1, MM and DCC, and right for addresses without a tag (C69_human_partial, exact; C69_numbers: which addresses have a number)."
  },
  {
   "property": "C70",
   "status": "partial",
   "theorems": [
    "RR32.C70_number_partial",
    "RR32.C70_dcc",
    "RR32.C70_position_partial",
    "RR32.C70_power"
   ],
   "note": "Number right exactly for MM1, MM2 and MFX; position right exactly for red and green; power proved."
  },
  {
   "property": "C71",
   "status": "proved",
   "theorems": [
    "RR32.C71_numbers",
    "RR32.C71_determines"
   ],
   "note": ""
  },
  {
   "property": "C72",
   "status": "partial",
   "theorems": [
    "RR32.C72_determines_partial",
    "RR32.C72_ambiguous",
    "RR32.C72_uninitialised"
   ],
   "note": "False for names with apostrophes (counterexample); proved for names without."
  },
  {
   "property": "C73",
   "status": "proved",
   "theorems": [
    "RR32.C73_agrees",
    "RR32.C73_faults"
   ],
   "note": ""
  },
  {
   "property": "C74",
   "status": "proved",
   "theorems": [
    "RR32.World.C74_silent",
    "RR32.World.C74_stack",
    "RR32.World.C74_reentrant"
   ],
   "note": "Which fault is reported may differ (the order of checks inside a call); that one occurs does not. C74_reentrant relates the model with all callbacks to the one with end-of-stream callbacks only."
  },
  {
   "property": "C75",
   "status": "proved",
   "theorems": [
    "RR32.World.C75_memory",
    "RR32.World.C75_no_fault"
   ],
   "note": ""
  },
  {
   "property": "C76",
   "status": "proved",
   "theorems": [
    "RR32.World.C76_received"
   ],
   "note": ""
  },
  {
   "property": "C77",
   "status": "proved",
   "theorems": [
    "RR32.World.C77_abort"
   ],
   "note": "Any entry of a packet, in any state of the reader."
  },
  {
   "property": "C78",
   "status": "partial",
   "theorems": [
    "RR32.World.C78_restart",
    "RR32.World.C78_engine",
    "RR32.World.C78_other_partial",
    "RR32.World.C76_received"
   ],
   "note": "Counterexample for every state with the same parser (C78_restart); requests for an engine are ignored with every parser (C78_engine); a request for the list holds with another parser (C78_other_partial), and so do requests made from end-of-stream callbacks (C76_received)."
  },
  {
   "property": "C79",
   "status": "partial",
   "theorems": [
    "RR32.World.C79_pumped",
    "RR32.World.C79_order_partial",
    "RR32.World.C79_packets_partial",
    "RR32.World.C79_stream_partial"
   ],
   "note": "Counterexample: delivering the next packet from inside an entry. Holds if callbacks leave the parser alone while it waits for data; requests for engines are allowed, since they are ignored then."
  },
  {
   "property": "C80",
   "status": "proved",
   "theorems": [
    "RR32.C80_engine",
    "RR32.C80_list",
    "RR32.C80_ignored"
   ],
   "note": ""
  },
  {
   "property": "C81",
   "status": "proved",
   "theorems": [
    "RR32.C81_page",
    "RR32.C81_browse",
    "RR32.C81_all",
    "RR32.C81_possible",
    "RR32.C81_needs_abort"
   ],
   "note": "One page from any state, any number of pages, and the whole list; that such sessions exist for every valid database; and that the abort in front of a page is needed while the parser is registered. The master is a specification (Spec/Master), the library has no such code."
  },
  {
   "property": "C82",
   "status": "proved",
   "theorems": [
    "RR32.C82_load",
    "RR32.C82_mirror",
    "RR32.C82_possible"
   ],
   "note": "One engine from any state, and the whole database; that such sessions exist for every valid database. Names of up to 16 characters, all different, and up to 255 engines."
  },
  {
   "property": "C83",
   "status": "partial",
   "theorems": [
    "RR32.C83_same",
    "RR32.C83_exactly",
    "RR32.C83_history_partial",
    "RR32.C83_quiet",
    "RR32.C83_template",
    "RR32.C83_false"
   ],
   "note": "Proved in full for all configurations without stream data logging, and for one call exactly when it holds. Missing: false for entries without a NUL if they are printed (C83_false)."
  },
  {
   "property": "C84",
   "status": "proved",
   "theorems": [
    "RR32.World.C84_command",
    "RR32.World.C84_list",
    "RR32.World.C84_short_info",
    "RR32.World.C84_engine",
    "RR32.World.C84_renamed"
   ],
   "note": "C84_renamed: a callback that renames the engine between the frames makes the request name an engine that has neither the old nor the new name."
  },
  {
   "property": "C85",
   "status": "proved",
   "theorems": [
    "RR32.World.C85_seen",
    "RR32.World.C85_received",
    "RR32.World.C85_sent",
    "RR32.World.C85_aborted",
    "RR32.World.C85_ended"
   ],
   "note": ""
  },
  {
   "property": "C86",
   "status": "proved",
   "theorems": [
    "RR32.C86_silent",
    "RR32.C86_silent_run",
    "RR32.C86_app",
    "RR32.C86_engine",
    "RR32.C86_list",
    "RR32.C86_names"
   ],
   "note": "Template configuration. The download theorems are for parsers that are not registered from before, as in C46, and for files that C49 and C51 are about."
  },
  {
   "property": "C87",
   "status": "proved",
   "theorems": [
    "RR32.C87_page",
    "RR32.C87_load",
    "RR32.C87_browse",
    "RR32.C87_mirror",
    "RR32.C87_possible"
   ],
   "note": "runs with undefined behaviour are excluded, since the state after the frames is given; which frames lead there is the subject of C19, C41, C46 and C58. An engine callback has to be registered"
  },
  {
   "property": "C88",
   "status": "proved",
   "theorems": [
    "RR32.C88_stream",
    "RR32.C88_checksum",
    "RR32.C88_document",
    "RR32.C88_any",
    "RR32.C88_master",
    "RR32.C88_request_list",
    "RR32.C88_request_engine"
   ],
   "note": "The checksum is computed with the class Crc of the library."
  },
  {
   "property": "C89",
   "status": "proved",
   "theorems": [
    "RR32.World.C89_reach",
    "RR32.World.C89_step",
    "RR32.World.C89_careful",
    "RR32.World.C89_release",
    "RR32.World.C89_parser_gone",
    "RR32.World.C89_parser_unused",
    "RR32.World.C89_consumer_gone",
    "RR32.World.C89_living",
    "RR32.World.C89_over",
    "RR32.World.C89_over_weaker",
    "RR32.World.C89_over_run",
    "RR32.World.C89_over_when",
    "RR32.World.C89_start",
    "RR32.World.C89_engine_gone",
    "RR32.World.C89_engine_abort"
   ],
   "note": "Template configuration, callbacks that do not call back. The station itself is never destroyed, and the storage of a destroyed object is not reused."
  },
  {
   "property": "C90",
   "status": "proved",
   "theorems": [
    "RR32.C90_calls",
    "RR32.C90_raw",
    "RR32.C90_more",
    "RR32.C90_progress",
    "RR32.C90_download",
    "RR32.C90_engine_entry",
    "RR32.C90_no_engine_entry",
    "RR32.C90_engine_complete",
    "RR32.C90_silent_end",
    "RR32.C90_list_entry"
   ],
   "note": "Text of streams is exact for consumers of the application; for consumers of the library it is given per entry and per end (C90_engine_entry, C90_no_engine_entry, C90_engine_complete, C90_silent_end, C90_list_entry), and for whole downloads in the template configuration by C86."
  },
  {
   "property": "C91",
   "status": "partial",
   "theorems": [
    "RR32.C91_turns_partial",
    "RR32.C91_mirror_partial",
    "RR32.C91_page_partial",
    "RR32.C91_possible",
    "RR32.C91_first_partial",
    "RR32.C91_mixed_partial"
   ],
   "note": "False as stated: answers carry no address. C91_first_partial says exactly which stream a station takes (the first after its request), and C91_mixed_partial gives, for every master and any two of its engines, a history in which a station that was up to date when it asked has the data of another engine under the requested name, reported as complete. Proved for stations that take turns (C91_turns_partial: each station sees a session of its own requests, the rest is traffic; C91_mirror_partial, C91_page_partial); C91_possible: such histories exist for every order of turns. Turns include other traffic and control calls at all stations. Requests of other devices, and more than one master, are not excluded from C91_first_partial but are from turns."
  },
  {
   "property": "C92",
   "status": "proved",
   "theorems": [
    "RR32.C92_same",
    "RR32.C92_safe",
    "RR32.C92_document",
    "RR32.C92_overflow",
    "RR32.C92_harmless",
    "RR32.C92_case",
    "RR32.C92_overflow_case",
    "RR32.C92_harmless_case"
   ],
   "note": "consumers are functions of everything they were told; the calls they may make are those of BufferManager (not move assignment, no writes behind the length through data()); C92_case shows the section renamed and the leftover of a key without value appearing in the next value"
  },
  {
   "property": "C93",
   "status": "proved",
   "theorems": [
    "RR32.C93_safe",
    "RR32.C93_overlap",
    "RR32.C93_no_overlap",
    "RR32.C93_frame",
    "RR32.C93_apart",
    "RR32.C93_view_live",
    "RR32.C93_view_erased",
    "RR32.C93_view_write",
    "RR32.C93_view_push",
    "RR32.C93_view_erase",
    "RR32.C93_set_from",
    "RR32.C93_set_own"
   ],
   "note": "managers are pointers into arrays, several may point into one. C93_safe: permitted programs of any length never fault. C93_overlap with C93_no_overlap: exactly when copies overlap. C93_frame: what a step leaves alone. C93_apart: buffers with separate windows act as lists. C93_view_*: what views show and what writing through them does to the parent. C93_set_from, C93_set_own: strings read from buffers."
  },
  {
   "property": "C94",
   "status": "proved",
   "theorems": [
    "RR32.Scene.C94_careful",
    "RR32.Scene.C94_careful_call",
    "RR32.Scene.C94_as_if",
    "RR32.Scene.C94_careful_as_if",
    "RR32.Scene.C94_only_living",
    "RR32.Scene.C94_only_living_nested",
    "RR32.Scene.C94_reset",
    "RR32.Scene.C94_packet",
    "RR32.Scene.C94_engine",
    "RR32.Scene.C94_discarding",
    "RR32.Scene.C94_once"
   ],
   "note": "Careful programs never use a destroyed object and end in the state of the program without destructions (C94_careful, C94_careful_call, C94_as_if, C94_careful_as_if). What is still used: a reset that returns has its parser (C94_reset); a parser destroyed during a packet was destroyed by the call that said that the stream is over (C94_packet). a requested engine was there until its name was read for the last time (C94_engine); for any program, only what existed at the start is told something or changed (C94_only_living, C94_only_living_nested). C94_discarding is a program that destroys the parser in that call and is careful. What is still used is given to a callback as a list, which the functions build up; that the list is long enough is what C94_careful proves. The examples show that its entries are needed."
  },
  {
   "property": "C95",
   "status": "proved",
   "theorems": [
    "RR32.World.C95_overwritten",
    "RR32.World.C95_frame",
    "RR32.World.C95_packet",
    "RR32.World.C95_settled",
    "RR32.World.C95_start",
    "RR32.World.C95_crowded"
   ],
   "note": "The contents of a frame are any function of what callbacks have been told so far; C95_overwritten compares the run with the one where every call gets a copy, for all programs of callbacks. C95_packet and C95_frame are for one call, also from inside a callback; C95_crowded shows that the limit of 23 bytes is exact. C95_settled: nothing waits in a parser between calls of the main program; C95_start: a program starts like that."
  },
  {
   "property": "C96",
   "status": "proved",
   "theorems": [
    "RR32.C96_logged",
    "RR32.C96_legible",
    "RR32.C96_subcommands"
   ],
   "note": "C96_logged takes the text about the turnout as TurnoutPacket::printAll gives it; what that says is C69."
  },
  {
   "property": "C97",
   "status": "proved",
   "theorems": [
    "RR32.Desk.C97_same",
    "RR32.Desk.C97_quiet",
    "RR32.Desk.C97_grows",
    "RR32.Desk.C97_lines",
    "RR32.Desk.C97_switch",
    "RR32.Desk.C97_torn",
    "RR32.Desk.C97_inside",
    "RR32.Desk.C97_sent",
    "RR32.Desk.C97_flat",
    "RR32.Desk.C97_flat_quiet"
   ],
   "note": "C97_torn is a concrete line that is torn apart."
  },
  {
   "property": "C98",
   "status": "proved",
   "theorems": [
    "RR32.C98_distinct",
    "RR32.C98_used",
    "RR32.C98_packet",
    "RR32.C98_frame"
   ],
   "note": "a stream whose checksum is wrong is dropped without a line in the template configuration: the check comes after the last packet was used (the line belongs to LOG_CONFIG_DATA_STREAM_LEVEL events, C90)"
  },
  {
   "property": "C99",
   "status": "proved",
   "theorems": [
    "RR32.C99_valid",
    "RR32.C99_step",
    "RR32.C99_history",
    "RR32.C99_isValid",
    "RR32.C99_stepN",
    "RR32.C99_nested"
   ],
   "note": "an engine stays known when a later download of it is aborted, although its data may be partly overwritten"
  },
  {
   "property": "C100",
   "status": "proved",
   "theorems": [
    "RR32.C100_history",
    "RR32.C100_new",
    "RR32.C100_nested"
   ],
   "note": "what an entry does to the number and the table is C50"
  },
  {
   "property": "C101",
   "status": "proved",
   "theorems": [
    "RR32.C101_history",
    "RR32.C101_nested",
    "RR32.C101_new",
    "RR32.C101_since"
   ],
   "note": "C101_since: the fold over events is the first two names told since the table was emptied. Tokens pass for a name as the code compares them, that is if they are a prefix of it (C50)."
  },
  {
   "property": "C102",
   "status": "proved",
   "theorems": [
    "RR32.C102_history",
    "RR32.C102_nested"
   ],
   "note": "Tokens pass for a key as the code compares them (C47). Values are hexadecimal numerals in C strings; of other texts only that nothing but the datum they are for changes."
  },
  {
   "property": "C103",
   "status": "proved",
   "theorems": [
    "RR32.World.C103_transmissions",
    "RR32.World.C103_any",
    "RR32.World.C103_two_begins"
   ],
   "note": "C103_transmissions: callbacks call anything but begin, hash and callback are those of the latest begin. C103_any: callbacks call begin too, hash and callback each come from some begin; C103_two_begins: they can come from two."
  },
  {
   "property": "C104",
   "status": "proved",
   "theorems": [
    "RR32.World.C104_only_sends",
    "RR32.World.C104_returns",
    "RR32.World.C104_senders"
   ],
   "note": "The callbacks may depend on the whole state they see; what they call is restricted to sending and to frames other than configuration data. C104_senders is a case where all hypotheses concern the callbacks alone. C59, C78 and C79 show that less restricted callbacks do change what consumers are told."
  },
  {
   "property": "C105",
   "status": "proved",
   "theorems": [
    "RR32.World.C105_ends",
    "RR32.World.C105_unbounded"
   ],
   "note": "Histories that return. C105_unbounded shows why callbacks are restricted to those that only send."
  },
  {
   "property": "C106",
   "status": "proved",
   "theorems": [
    "RR32.C106_wire",
    "RR32.C106_history",
    "RR32.C106_commands",
    "RR32.C106_room"
   ],
   "note": "The buffer drops the newest frame; a controller that overwrites the oldest one is not covered. What a node's program does is given as a history of the one-station model, so every theorem on histories applies to it. Callbacks do not call back into the station here, as in C63-C65."
  },
  {
   "property": "C107",
   "status": "proved",
   "theorems": [
    "RR32.C107_complete",
    "RR32.C107_engine",
    "RR32.C107_list",
    "RR32.C107_polite"
   ],
   "note": "Histories of the whole bus that return. The hypotheses on files and consumers are those of C49 and C51 (file sizes that fit, terminated names). C107_polite shows that they can be met with room for one frame."
  },
  {
   "property": "C108",
   "status": "proved",
   "theorems": [
    "RR32.C108_history",
    "RR32.C108_wire",
    "RR32.C108_silent",
    "RR32.C108_only_sends",
    "RR32.C108_complete",
    "RR32.C108_engine",
    "RR32.C108_list",
    "RR32.C108_storm"
   ],
   "note": "A call of the application, or the handling of a frame, with all that its callbacks do, is one step of the bus. Callbacks that hand over frames of a configuration stream, or make requests, are outside C108_only_sends and the downloads; C79 says what they can do."
  },
  {
   "property": "C109",
   "status": "proved",
   "theorems": [
    "RR32.C109_ideal",
    "RR32.C109_roomy"
   ],
   "note": "With callbacks that call nothing."
  },
  {
   "property": "C110",
   "status": "proved",
   "theorems": [
    "RR32.C110_bounded",
    "RR32.C110_rest",
    "RR32.C110_lighting",
    "RR32.C110_room",
    "RR32.C110_settled"
   ],
   "note": "The rank condition is a hypothesis on the callbacks of the application; C110_lighting proves it for one crew. A step of the bus is a receive with all that its callbacks do."
  },
  {
   "property": "C111",
   "status": "proved",
   "theorems": [
    "RR32.World.C111_new",
    "RR32.World.C111_others",
    "RR32.World.C111_careful",
    "RR32.World.C111_left_alone",
    "RR32.World.C111_mistaken"
   ],
   "note": "Callbacks call nothing here; in C94, where they call back and destroy objects, storage is not used again. The constructors leave pointers indeterminate where the code does, and reading them is a fault (C58)."
  },
  {
   "property": "C112",
   "status": "proved",
   "theorems": [
    "RR32.C112_memory",
    "RR32.C112_no_fault",
    "RR32.C112_returns"
   ],
   "note": "As in C75, a null pointer or an unterminated string is left if the further conditions are not met; the consumers of the library read strings up to a terminator (C41, C72). A node that runs out of stack is outside the model of a bus from there on."
  },
  {
   "property": "C113",
   "status": "proved",
   "theorems": [
    "RR32.Scene.C113_careful",
    "RR32.Scene.C113_as_if",
    "RR32.Scene.C113_careful_as_if",
    "RR32.Scene.C113_made",
    "RR32.Scene.C113_gone",
    "RR32.Scene.C113_once"
   ],
   "note": "Callbacks themselves create nothing in this model; the main program does."
  },
  {
   "property": "C114",
   "status": "proved",
   "theorems": [
    "RR32.C114_ideal",
    "RR32.C114_roomy",
    "RR32.C114_silent"
   ],
   "note": "With callbacks that call nothing this is C109 (C114_silent, C108_silent)."
  },
  {
   "property": "C115",
   "status": "proved",
   "theorems": [
    "RR32.World.C115_call",
    "RR32.World.C115_history",
    "RR32.C115_wire",
    "RR32.C115_silent"
   ],
   "note": "A budget is an upper bound on the frames of the calls a callback makes itself; what callbacks called in turn send is paid from their own budgets. The hypothesis Budgeted is shown for echo and is false of it with budgets of zero. Says nothing about calls that do not return (fault or exhausted stack)."
  }
 ]
}
