{
 "claims": [
  {
   "property": "C01",
   "status": "proved",
   "theorems": [
    "Dcc.C01_address_roundtrip",
    "Dcc.C01_long_above_10239_lost",
    "Dcc.C01_other_types"
   ],
   "note": "Long addresses above 10239 do not survive (C01_long_above_10239_lost); the statement is limited to encodable addresses."
  },
  {
   "property": "C02",
   "status": "proved",
   "theorems": [
    "Dcc.C02_address_eq_iff",
    "Dcc.C02_address_eq_equivalence"
   ],
   "note": ""
  },
  {
   "property": "C03",
   "status": "proved",
   "theorems": [
    "Dcc.C03_classes_partition",
    "Dcc.C03_decode_class",
    "Dcc.C03_second_byte_only_for_long"
   ],
   "note": ""
  },
  {
   "property": "C04",
   "status": "proved",
   "theorems": [
    "Dcc.C04_addressed_builders",
    "Dcc.C04_plain_builders",
    "Dcc.C04_limits"
   ],
   "note": ""
  },
  {
   "property": "C05",
   "status": "proved",
   "theorems": [
    "Dcc.C05_checksum_detects_one_byte",
    "Dcc.C05_exor_packet"
   ],
   "note": ""
  },
  {
   "property": "C06",
   "status": "proved",
   "theorems": [
    "Dcc.C06_crc8_is_dallas_maxim"
   ],
   "note": ""
  },
  {
   "property": "C07",
   "status": "proved",
   "theorems": [
    "Dcc.C07_crc8_append",
    "Dcc.C07_crc8_linear",
    "Dcc.C07_crc8_detects_burst",
    "Dcc.C07_crc8_detects_one_byte",
    "Dcc.C07_crc8_detects_odd",
    "Dcc.C07_crc8_packet"
   ],
   "note": ""
  },
  {
   "property": "C08",
   "status": "proved",
   "theorems": [
    "Dcc.C08_logon_packets_pass_crc"
   ],
   "note": ""
  },
  {
   "property": "C09",
   "status": "proved",
   "theorems": [
    "Dcc.C09_four_of_eight_code",
    "Dcc.C09_code_injective",
    "Dcc.C09_whole_code"
   ],
   "note": ""
  },
  {
   "property": "C10",
   "status": "proved",
   "theorems": [
    "Dcc.C10_datagram_roundtrip",
    "Dcc.C10_datagram_roundtrip_raw"
   ],
   "note": ""
  },
  {
   "property": "C11",
   "status": "proved",
   "theorems": [
    "Dcc.C11_make_datagram_agree"
   ],
   "note": ""
  },
  {
   "property": "C12",
   "status": "proved",
   "theorems": [
    "Dcc.C12_uint16_roundtrip",
    "Dcc.C12_data16_roundtrip",
    "Dcc.C12_uint32_roundtrip",
    "Dcc.C12_data32_roundtrip"
   ],
   "note": ""
  },
  {
   "property": "C13",
   "status": "proved",
   "theorems": [
    "Dcc.C13_scale_speed"
   ],
   "note": ""
  },
  {
   "property": "C14",
   "status": "proved",
   "theorems": [
    "Dcc.C14_instruction_of_built_packet",
    "Dcc.C14_never_logon"
   ],
   "note": ""
  },
  {
   "property": "C15",
   "status": "proved",
   "theorems": [
    "Dcc.C15_timings",
    "Dcc.C15_packet2timings",
    "Dcc.C15_timings_injective"
   ],
   "note": ""
  },
  {
   "property": "C16",
   "status": "proved",
   "theorems": [
    "Dcc.C16_tolerance",
    "Dcc.C16_init_accepts_iff"
   ],
   "note": ""
  },
  {
   "property": "C17",
   "status": "proved",
   "theorems": [
    "Dcc.C17_fifo",
    "Dcc.C17_track_stream"
   ],
   "note": ""
  },
  {
   "property": "C18",
   "status": "proved",
   "theorems": [
    "Dcc.C18_next_packet",
    "Dcc.C18_never_faults"
   ],
   "note": ""
  },
  {
   "property": "C19",
   "status": "proved",
   "theorems": [
    "Dcc.C19_cutout_after_every_packet",
    "Dcc.C19_cutout_times",
    "Dcc.C19_no_cutout_if_disabled"
   ],
   "note": ""
  },
  {
   "property": "C20",
   "status": "proved",
   "theorems": [
    "Dcc.C20_dc_free",
    "Dcc.C20_invert_swaps"
   ],
   "note": ""
  },
  {
   "property": "C21",
   "status": "partial",
   "theorems": [
    "Dcc.C21_idle_ignores_config",
    "Dcc.C21_witness",
    "Dcc.C21_queued_packets_partial",
    "Dcc.C21_without_init"
   ],
   "note": "False for the idle packet, which is a compile time constant with the default configuration; proved for every queued packet."
  },
  {
   "property": "C22",
   "status": "proved",
   "theorems": [
    "Dcc.C22_bounded_queue"
   ],
   "note": ""
  },
  {
   "property": "C23",
   "status": "proved",
   "theorems": [
    "Dcc.C23_legal_packet_received"
   ],
   "note": ""
  },
  {
   "property": "C24",
   "status": "proved",
   "theorems": [
    "Dcc.C24_station_to_decoder"
   ],
   "note": ""
  },
  {
   "property": "C25",
   "status": "proved",
   "theorems": [
    "Dcc.C25_only_valid_packets_queued"
   ],
   "note": ""
  },
  {
   "property": "C26",
   "status": "proved",
   "theorems": [
    "Dcc.C26_resync",
    "Dcc.C26_resync_total"
   ],
   "note": ""
  },
  {
   "property": "C27",
   "status": "proved",
   "theorems": [
    "Dcc.C27_queue_bounded",
    "Dcc.C27_full_adds_nothing",
    "Dcc.C27_fifo"
   ],
   "note": ""
  },
  {
   "property": "C28",
   "status": "proved",
   "theorems": [
    "Dcc.C28_packet_end",
    "Dcc.C28_packet_end_kept",
    "Dcc.C28_packet_end_blocks",
    "Dcc.C28_packet_end_timing"
   ],
   "note": ""
  },
  {
   "property": "C29",
   "status": "partial",
   "theorems": [
    "Dcc.C29_causes_partial",
    "Dcc.C29_no_read_out_of_bounds_partial",
    "Dcc.C29_execute_total_partial",
    "Dcc.C29_no_read_out_of_bounds_false",
    "Dcc.C29_logon_false",
    "Dcc.C29_channel2_false",
    "Dcc.C29_cv1_false",
    "Dcc.C29_channel2_exact",
    "Dcc.C29_channel2_until_start",
    "Dcc.C29_short",
    "Dcc.C29_short_exact",
    "Dcc.C29_exact"
   ],
   "note": "False: four kinds of short or odd packets read out of range (witnesses). Partial: every possible fault of any history is one of the listed causes, and without them there is none. Exact: execute in operations mode fails exactly for the packets for the decoder that lack a byte that is read; how many are read depends in CV accesses on how often the packet was received."
  },
  {
   "property": "C30",
   "status": "partial",
   "theorems": [
    "Dcc.C30_no_overflow_false",
    "Dcc.C30_no_overflow_partial",
    "Dcc.C30_overlong",
    "Dcc.C30_short",
    "Dcc.C30_exact",
    "Dcc.C30_early"
   ],
   "note": "False: a 19th byte overflows the packet buffer. Partial: no overflow for anything a station of this library sends. Exact: whatever is measured, receive overflows exactly at the last bit of a 19th byte behind a preamble."
  },
  {
   "property": "C31",
   "status": "proved",
   "theorems": [
    "Dcc.C31_time2bit",
    "Dcc.C31_invalid_time",
    "Dcc.C31_class_only"
   ],
   "note": ""
  },
  {
   "property": "C32",
   "status": "proved",
   "theorems": [
    "Dcc.C32_foreign_ignored"
   ],
   "note": ""
  },
  {
   "property": "C33",
   "status": "proved",
   "theorems": [
    "Dcc.C33_execute_result"
   ],
   "note": ""
  },
  {
   "property": "C34",
   "status": "proved",
   "theorems": [
    "Dcc.C34_logon_replaces",
    "Dcc.C34_logon_acts_as_primary"
   ],
   "note": ""
  },
  {
   "property": "C35",
   "status": "proved",
   "theorems": [
    "Dcc.C35_speed126_executed",
    "Dcc.C35_speed126_end_to_end"
   ],
   "note": ""
  },
  {
   "property": "C36",
   "status": "proved",
   "theorems": [
    "Dcc.C36_speed_executed",
    "Dcc.C36_speed_end_to_end"
   ],
   "note": ""
  },
  {
   "property": "C37",
   "status": "proved",
   "theorems": [
    "Dcc.C37_functions_executed",
    "Dcc.C37_functions_end_to_end"
   ],
   "note": ""
  },
  {
   "property": "C38",
   "status": "partial",
   "theorems": [
    "Dcc.C38_speed_and_functions_partial",
    "Dcc.C38_end_to_end_partial",
    "Dcc.C38_fourth_group_false"
   ],
   "note": "False for the fourth function group (F31-F24 is reported with the mask of F7-F0); proved for the other three."
  },
  {
   "property": "C39",
   "status": "proved",
   "theorems": [
    "Dcc.C39_cv_access_on_main",
    "Dcc.C39_writes_exactly_on_second",
    "Dcc.C39_only_cv_packets"
   ],
   "note": ""
  },
  {
   "property": "C40",
   "status": "proved",
   "theorems": [
    "Dcc.C40_direct_mode",
    "Dcc.C40_run",
    "Dcc.C40_one_access",
    "Dcc.C40_ack",
    "Dcc.C40_callback_byte",
    "Dcc.C40_callback_bit"
   ],
   "note": ""
  },
  {
   "property": "C41",
   "status": "proved",
   "theorems": [
    "Dcc.C41_service_mode_step",
    "Dcc.C41_entry_address",
    "Dcc.C41_service_mode_history"
   ],
   "note": ""
  },
  {
   "property": "C42",
   "status": "partial",
   "theorems": [
    "Dcc.C42_register_mapping_partial",
    "Dcc.C42_register_range_partial",
    "Dcc.C42_page_zero_false"
   ],
   "note": "False for page 0, where the CV address wraps around; proved for pages 1..255."
  },
  {
   "property": "C43",
   "status": "partial",
   "theorems": [
    "Dcc.C43_lock_partial",
    "Dcc.C43_lock_false"
   ],
   "note": "False: storing a logon writes CVs although the decoder is locked. Partial: apart from that only CV15 is written."
  },
  {
   "property": "C44",
   "status": "proved",
   "theorems": [
    "Dcc.C44_no_cv_access_by_consist"
   ],
   "note": ""
  },
  {
   "property": "C45",
   "status": "proved",
   "theorems": [
    "Dcc.C45_configuration",
    "Dcc.C45_init_idempotent"
   ],
   "note": ""
  },
  {
   "property": "C46",
   "status": "proved",
   "theorems": [
    "Dcc.C46_channel1",
    "Dcc.C46_alternates",
    "Dcc.C46_disabled"
   ],
   "note": ""
  },
  {
   "property": "C47",
   "status": "partial",
   "theorems": [
    "Dcc.C47_answers_partial",
    "Dcc.C47_answers_false",
    "Dcc.C47_late_callback_false"
   ],
   "note": "False: consist control overwrites the pending answer, and a late asynchronous callback answers a later request. Partial: otherwise the answer is that of the packet."
  },
  {
   "property": "C48",
   "status": "proved",
   "theorems": [
    "Dcc.C48_dynamic",
    "Dcc.C48_whole",
    "Dcc.C48_exactly_once",
    "Dcc.C48_bounded",
    "Dcc.C48_state",
    "Dcc.C48_qos_first"
   ],
   "note": ""
  },
  {
   "property": "C49",
   "status": "proved",
   "theorems": [
    "Dcc.C49_well_formed",
    "Dcc.C49_bytes"
   ],
   "note": ""
  },
  {
   "property": "C50",
   "status": "proved",
   "theorems": [
    "Dcc.C50_tip_off_search",
    "Dcc.C50_one_pending",
    "Dcc.C50_exact"
   ],
   "note": ""
  },
  {
   "property": "C51",
   "status": "proved",
   "theorems": [
    "Dcc.C51_backoff_state_bounded",
    "Dcc.C51_first",
    "Dcc.C51_pauses",
    "Dcc.C51_pause_exact",
    "Dcc.C51_any_64",
    "Dcc.C51_now"
   ],
   "note": ""
  },
  {
   "property": "C52",
   "status": "proved",
   "theorems": [
    "Dcc.C52_protocol",
    "Dcc.C52_disabled",
    "Dcc.C52_other_decoder",
    "Dcc.C52_selected",
    "Dcc.C52_only_packets",
    "Dcc.C52_stays_selected",
    "Dcc.C52_answers",
    "Dcc.C52_transmission",
    "Dcc.C52_select_answered",
    "Dcc.C52_assign_answered",
    "Dcc.C52_enable_now_answered",
    "Dcc.C52_enable_exact"
   ],
   "note": ""
  },
  {
   "property": "C53",
   "status": "partial",
   "theorems": [
    "Dcc.C53_stored_partial",
    "Dcc.C53_fast_logon_partial",
    "Dcc.C53_restored_false"
   ],
   "note": "False: CV65300 is stored without the bits that mark a long address. Partial: what is stored, and what a fast logon restores if the CVs are right."
  },
  {
   "property": "C54",
   "status": "partial",
   "theorems": [
    "Dcc.C54_no_overflow_false",
    "Dcc.C54_assertion_partial",
    "Dcc.C54_cutouts_partial"
   ],
   "note": "False: two logon packets between cutouts make the assertion fail. Partial: exactly this is the cause, and with a cutout after each packet it does not happen."
  },
  {
   "property": "C55",
   "status": "partial",
   "theorems": [
    "Dcc.C55_quality_partial",
    "Dcc.C55_range_partial",
    "Dcc.C55_percentage_partial",
    "Dcc.C55_lossless_partial",
    "Dcc.C55_percentage_false"
   ],
   "note": "False: more valid packets than preambles within a period gives a value above 100. Partial: the exact value, its range, and when it is a percentage."
  },
  {
   "property": "C56",
   "status": "proved",
   "theorems": [
    "Dcc.C56_steps_are_execute",
    "Dcc.C56_once_in_order",
    "Dcc.C56_bounds",
    "Dcc.C56_front",
    "Dcc.C56_progress"
   ],
   "note": "Granularity: calls within execute and the two push_backs of adr(); not single memory accesses."
  },
  {
   "property": "C57",
   "status": "partial",
   "theorems": [
    "Dcc.Rmt.C57_exact",
    "Dcc.Rmt.C57_chunking_partial",
    "Dcc.Rmt.C57_others_partial",
    "Dcc.Rmt.C57_single_session_partial",
    "Dcc.Rmt.C57_chunking_false",
    "Dcc.Rmt.C57_no_data_false"
   ],
   "note": "False: the start bit behind a byte is lost if the memory is full there, and an empty packet reads data[0]. Partial: C57_exact gives the symbols for every chunking, C57_chunking_partial says exactly when they are right."
  },
  {
   "property": "C58",
   "status": "partial",
   "theorems": [
    "Dcc.Rmt.C58_accepts",
    "Dcc.Rmt.C58_no_leak",
    "Dcc.Rmt.C58_symbols_partial",
    "Dcc.Rmt.C58_end_bit_false"
   ],
   "note": "False for the second half of the end bit, which may be as short as 1 us; everything else proved."
  },
  {
   "property": "C59",
   "status": "partial",
   "theorems": [
    "Dcc.C59_disable_stops_reception_false",
    "Dcc.C59_disable_partial"
   ],
   "note": "False: the enabled flag is never consulted. Partial: what disable() does."
  },
  {
   "property": "C60",
   "status": "partial",
   "theorems": [
    "Dcc.C60_east_west_man_partial",
    "Dcc.C60_neither_direction_false"
   ],
   "note": "False for neither direction (west is reported); the rest proved."
  },
  {
   "property": "C61",
   "status": "proved",
   "theorems": [
    "Dcc.C61_kmh",
    "Dcc.C61_temperature",
    "Dcc.C61_temperature_wraps",
    "Dcc.C61_voltage",
    "Dcc.C61_voltage_wraps",
    "Dcc.C61_plain",
    "Dcc.C61_saturates_false"
   ],
   "note": "Statement includes the wrap-around outside the ranges; C61_saturates_false is the witness."
  },
  {
   "property": "C62",
   "status": "proved",
   "theorems": [
    "Dcc.C62_execute_without_packet",
    "Dcc.C62_channel1_without_pending",
    "Dcc.C62_channel2_without_pending"
   ],
   "note": ""
  },
  {
   "property": "C63",
   "status": "proved",
   "theorems": [
    "Dcc.C63_unsupported_no_effect"
   ],
   "note": ""
  },
  {
   "property": "C64",
   "status": "proved",
   "theorems": [
    "Dcc.C64_short_form",
    "Dcc.C64_long_address"
   ],
   "note": ""
  },
  {
   "property": "C65",
   "status": "proved",
   "theorems": [
    "Dcc.C65_consist_control"
   ],
   "note": ""
  },
  {
   "property": "C66",
   "status": "partial",
   "theorems": [
    "Dcc.C66_repetition_answered_false",
    "Dcc.C66_repetition_answered_partial"
   ],
   "note": "False: the repetition counter is reset only by a different CV packet. Partial: answered again after a different one."
  },
  {
   "property": "C67",
   "status": "partial",
   "theorems": [
    "Dcc.C67_init_partial",
    "Dcc.C67_init_exact",
    "Dcc.C67_init_false"
   ],
   "note": "False for CV1 in 192..231 with short addressing; exact condition proved."
  },
  {
   "property": "C68",
   "status": "partial",
   "theorems": [
    "Dcc.C68_long_zero_not_broadcast_false",
    "Dcc.C68_long_not_broadcast_partial"
   ],
   "note": "False: C0 00 is executed like a broadcast. Partial: every other long address is not."
  },
  {
   "property": "C69",
   "status": "proved",
   "theorems": [
    "Dcc.Rmt.C69_rmt_to_decoder",
    "Dcc.Rmt.C69_zimo0_false",
    "Dcc.Rmt.C69_end_bit_false"
   ],
   "note": "Both side conditions are needed: C69_zimo0_false and C69_end_bit_false."
  },
  {
   "property": "C70",
   "status": "partial",
   "theorems": [
    "Dcc.C70_silent_partial",
    "Dcc.C70_dropped",
    "Dcc.C70_until_start",
    "Dcc.C70_silent_false",
    "Dcc.C70_channel2_false",
    "Dcc.C70_fault_false"
   ],
   "note": "False: the type of the address received before the invalid packet is kept, so the decoder transmits its address in channel 1, may transmit in channel 2, and with long address 0 reads out of bounds. Partial: the silent cases."
  },
  {
   "property": "C71",
   "status": "proved",
   "theorems": [
    "Dcc.C71_uninterrupted",
    "Dcc.C71_once_in_order",
    "Dcc.C71_bounds",
    "Dcc.C71_front",
    "Dcc.C71_well_formed",
    "Dcc.C71_no_overflow",
    "Dcc.C71_without_disable"
   ],
   "note": "Assumes receive() is not called between the assignments of reset(), which only disable() reaches; C73 shows that this is needed."
  },
  {
   "property": "C72",
   "status": "partial",
   "theorems": [
    "Dcc.C72_fresh_partial",
    "Dcc.C72_fresh_false"
   ],
   "note": "False when channel 2 comes between the two statements of countOwnEqualCvPackets that take over the packet and clear the answers; proved everywhere else."
  },
  {
   "property": "C73",
   "status": "partial",
   "theorems": [
    "Dcc.C73_valid_partial",
    "Dcc.C73_valid_false"
   ],
   "note": "False when the end bit is received between the assignments of reset(); proved otherwise."
  },
  {
   "property": "C74",
   "status": "proved",
   "theorems": [
    "Dcc.C74_addressed",
    "Dcc.C74_number",
    "Dcc.C74_plain"
   ],
   "note": "For the arguments the layouts have room for: short addresses up to 127, long ones up to 16383, six bits of speed, twelve bits of manufacturer."
  },
  {
   "property": "C75",
   "status": "proved",
   "theorems": [
    "Dcc.C75_throttle_to_motor",
    "Dcc.C75_main_loop"
   ],
   "note": "Driving commands are those of Spec.AddressedCall.Driving: no binary states, no CV access, at most three function groups in the combined packet. The decoder starts in operations mode, waiting for a preamble with an empty queue."
  },
  {
   "property": "C76",
   "status": "partial",
   "theorems": [
    "Dcc.C76_any_signal",
    "Dcc.C76_late",
    "Dcc.C76_station_late",
    "Dcc.C76_station",
    "Dcc.C76_measured",
    "Dcc.C76_five_milliseconds_false",
    "Dcc.C76_six_milliseconds_false"
   ],
   "note": "False for any signal the decoder accepts: packets with ten preamble bits may come every 4788 us. Proved for every signal with 4013 us, and for everything a command station of the library transmits with 5885 us (false with 5942 us); late calls take room in the queue."
  },
  {
   "property": "C77",
   "status": "proved",
   "theorems": [
    "Dcc.C77_track_to_decoder",
    "Dcc.C77_throttle_to_motor",
    "Dcc.C77_main_loop",
    "Dcc.C77_error_4us",
    "Dcc.C77_error_5us_false",
    "Dcc.C77_invert_false"
   ],
   "note": "The limits are sharp: counterexamples for 5 us and for a change of invert."
  },
  {
   "property": "C78",
   "status": "partial",
   "theorems": [
    "Dcc.C78_session_partial",
    "Dcc.C78_address",
    "Dcc.C78_address_false",
    "Dcc.C78_lost_false",
    "Dcc.C78_start_false",
    "Dcc.C78_oob_false",
    "Dcc.C78_cv",
    "Dcc.C78_config"
   ],
   "note": "False for addresses above 127, fast typing and the station's thread coming first, each with a session as counterexample; proved for all other driving sessions. The data races between the threads are left to C71-C73."
  },
  {
   "property": "C79",
   "status": "partial",
   "theorems": [
    "Dcc.C79_station_to_cvs_partial",
    "Dcc.C79_main_loop_partial",
    "Dcc.C79_served",
    "Dcc.C79_dry_false",
    "Dcc.C79_requests",
    "Dcc.C79_read_requests",
    "Dcc.C79_read",
    "Dcc.C79_read_locked",
    "Dcc.C79_write_read"
   ],
   "note": "Proved if the direct mode packets arrive in service mode or the decoder's address is not one of 112 to 127, and as long as the CVs hold an address (C67). False otherwise: a station whose queue runs empty sends an idle packet, which ends service mode. A request equal to the one before is not answered (C66)."
  },
  {
   "property": "C80",
   "status": "partial",
   "theorems": [
    "Dcc.C80_history_partial",
    "Dcc.C80_rounds_partial",
    "Dcc.C80_requests",
    "Dcc.C80_talk_partial",
    "Dcc.C80_packets",
    "Dcc.C80_truth_partial",
    "Dcc.C80_truth_service_false"
   ],
   "note": "Proved for histories without fault (C67 has the causes), without init, disable and callbacks, in which no logon packet arrives and the packets executed neither enter service mode nor are consist control or CV accesses in the short form. Requests that write do not write the CVs the decoder reads when it is initialised. A request equal to the one before is not taken for a new one. C80_truth_partial holds for all histories from power on, with init, disable, callbacks and short forms, as long as no address is assigned and no consist control or packet that enters service mode is executed: every value transmitted after a CV access is the present content of the CV asked for. After a register mode write in service mode it is not (C80_truth_service_false)."
  },
  {
   "property": "C81",
   "status": "partial",
   "theorems": [
    "Dcc.C81_same_packet",
    "Dcc.C81_channel2_partial",
    "Dcc.C81_channel2_false",
    "Dcc.C81_drive",
    "Dcc.C81_program_partial"
   ],
   "note": "False for channel 2 after an invalid packet: two decoders without consist whose CV20 permits to answer for a consist both transmit, because the address is reset to 0 with its type kept (C70). Proved after valid packets for a locomotive; programming under the hypotheses of C80. Broadcasts (tip-off search) and logon packets are answered by several decoders on purpose."
  },
  {
   "property": "C82",
   "status": "proved",
   "theorems": [
    "Dcc.C82_linear",
    "Dcc.C82_fifo",
    "Dcc.C82_slot",
    "Dcc.C82_never_faults",
    "Dcc.C82_configuration_false"
   ],
   "note": "init is not atomic: C82_configuration_false has a cutout that neither the old nor the new configuration allows. Assumes that push_back of the container writes the slot before it moves the index."
  },
  {
   "property": "C83",
   "status": "proved",
   "theorems": [
    "Dcc.C83_all_done"
   ],
   "note": "The bound on the calls of execute is that of C76."
  },
  {
   "property": "C84",
   "status": "proved",
   "theorems": [
    "Dcc.C84_same_leds",
    "Dcc.C84_possible",
    "Dcc.C84_leds"
   ],
   "note": "The decoder is switched on before the station. The HAL and the timers are modelled by what their documentation says."
  },
  {
   "property": "C85",
   "status": "partial",
   "theorems": [
    "Dcc.C85_byte_partial",
    "Dcc.C85_bit_false",
    "Dcc.C85_written"
   ],
   "note": "True for bytes. False for bits: the class of the example answers false for every bit."
  },
  {
   "property": "C86",
   "status": "proved",
   "theorems": [
    "Dcc.Rmt.C86_esp32_pauses",
    "Dcc.Rmt.C86_esp32_example",
    "Dcc.Rmt.C86_short_pauses",
    "Dcc.Rmt.C86_long_pauses_false"
   ],
   "note": "Exact: which packets arrive is computed from the pauses. How long the pauses are is up to the driver and not modelled."
  },
  {
   "property": "C87",
   "status": "proved",
   "theorems": [
    "Dcc.C87_written",
    "Dcc.C87_reprogrammed",
    "Dcc.C87_new_address",
    "Dcc.C87_old_address",
    "Dcc.C87_programming_to_main_track"
   ],
   "note": "Direct mode with byte and bit writes. Long addresses below 128 are not used, as in RCN-211. The main loop calls execute after every receive."
  },
  {
   "property": "C88",
   "status": "proved",
   "theorems": [
    "Dcc.C88_guest",
    "Dcc.C88_obeys",
    "Dcc.C88_apart",
    "Dcc.C88_manufacturer_false"
   ],
   "note": "The station is not the one the decoder has stored, or its session is neither the one stored nor one of the next four (no fast logon), long addresses are assigned for the session, each packet is followed by a cutout and one execute. The manufacturer in SELECT and LOGON_ASSIGN is not compared (C88_manufacturer_false), so decoders of two manufacturers with the same unique ID are not told apart."
  },
  {
   "property": "C89",
   "status": "partial",
   "theorems": [
    "Dcc.C89_stored",
    "Dcc.C89_restart_partial",
    "Dcc.C89_restored_false",
    "Dcc.C89_apart_false"
   ],
   "note": "The two bytes of the address are stored without the bits that mark long addresses (C53), so the first of them is read back as a short address. Every decoder with an address n of at least 256 ignores n afterwards and obeys n / 256; decoders with addresses 1000 and 1001 both obey 3. With an address below 256 the first byte is 0, and the decoder goes on obeying its own address and its consist, not the one assigned."
  },
  {
   "property": "C90",
   "status": "partial",
   "theorems": [
    "Dcc.C90_history",
    "Dcc.C90_station",
    "Dcc.C90_number_needed",
    "Dcc.C90_main_loop",
    "Dcc.C90_double_heading",
    "Dcc.C90_new_address",
    "Dcc.C90_consist_alone_false",
    "Dcc.C90_normal_direction_false",
    "Dcc.C90_all_direction_false",
    "Dcc.C90_consist_control_false"
   ],
   "note": "A locomotive in a consist still obeys speed commands to its own number. CV29 bit 0 is not applied to commands to the consist or to all locomotives, so a locomotive with this bit set goes the other way there. A consist control packet does not change CV20, so the locomotive may end up in another consist than the one named. Histories in which automatic logon assigns no address."
  },
  {
   "property": "C91",
   "status": "partial",
   "theorems": [
    "Dcc.C91_data_bit",
    "Dcc.C91_separator",
    "Dcc.C91_end_bit",
    "Dcc.C91_preamble",
    "Dcc.C91_recovers",
    "Dcc.C91_meant_false",
    "Dcc.C91_safe_false"
   ],
   "note": "A command for F13 to F20 of locomotive 6 with the last bit of the preamble disturbed drives locomotive 3. A request to verify CV232 of locomotive 3 with one disturbed separator makes the decoder read behind the end of the packet. Late bits of the preamble and the start bit: C92_disturbed. Signals without cutouts."
  },
  {
   "property": "C92",
   "status": "proved",
   "theorems": [
    "Dcc.C92_exact",
    "Dcc.C92_noise",
    "Dcc.C92_rate",
    "Dcc.C92_disturbed"
   ],
   "note": "Histories without fault (C30 has the overflow by a 19th byte) in which the queue is never full."
  },
  {
   "property": "C93",
   "status": "proved",
   "theorems": [
    "Dcc.C93_dark_channel1",
    "Dcc.C93_dark_channel2",
    "Dcc.C93_fits",
    "Dcc.C93_undisturbed"
   ],
   "note": "Times of the calls are the durations transmit returns; the UART itself is trusted to send ten bits for a byte without gaps."
  },
  {
   "property": "C94",
   "status": "partial",
   "theorems": [
    "Dcc.C94_addresses_partial",
    "Dcc.C94_misses_partial",
    "Dcc.C94_addresses_false",
    "Dcc.C94_reading",
    "Dcc.C94_values",
    "Dcc.C94_reading_false"
   ],
   "note": "Restricted to histories in which no assigned address of 128 or more equals the number of the consist (C94_addresses_false: locomotive 1000 shown as 104) and to values that fit their range and subindices below 64 (C94_reading_false)."
  },
  {
   "property": "C95",
   "status": "proved",
   "theorems": [
    "Dcc.C95_stay_alike",
    "Dcc.C95_without_influence"
   ],
   "note": "A relation between two executions, kept by every function of the receiver; both runs are assumed to end without a fault (which calls fault is the subject of C29)."
  },
  {
   "property": "C96",
   "status": "partial",
   "theorems": [
    "Dcc.C96_switched_off_and_on_partial",
    "Dcc.C96_switched_off_and_on_false"
   ],
   "note": "Holds if the CV packet counted last is not among the packets executed afterwards; false without that (a CV packet received once before and once after is not executed)."
  },
  {
   "property": "C97",
   "status": "partial",
   "theorems": [
    "Dcc.C97_stored_partial",
    "Dcc.C97_number_false",
    "Dcc.C97_own_false"
   ],
   "note": "The exact contents of all CVs after such a session are proved. The property is false: the number decoded from the two bytes (C53) is stored again, so n becomes n / 256 and then 0. If the decoder's own short address is n / 256 it becomes a long address with the same number, and CV1 no longer matters."
  },
  {
   "property": "C98",
   "status": "partial",
   "theorems": [
    "Dcc.C98_new_station_partial",
    "Dcc.C98_new_station_false"
   ],
   "note": "Proved for decoders that have not been selected since they were switched on. For all others the property is false: once selected, a decoder is silent after every LOGON_ENABLE, whatever the station and the session (the comment 'Force new logon if diff is >4' in logonEnable applies to decoders not yet selected only)."
  },
  {
   "property": "C99",
   "status": "partial",
   "theorems": [
    "Dcc.C99_in_order",
    "Dcc.C99_engine",
    "Dcc.C99_stored_false"
   ],
   "note": "Proved if receive does not come between the assignments of reset (see C71) and no logon packet is accepted while automatic logon is enabled. With automatic logon it is false: an assignment between two writes of logonStore leaves half of the old and half of the new address in CV65300 and CV65301. The user's class must not answer depending on what was transmitted by BiDi."
  },
  {
   "property": "C100",
   "status": "partial",
   "theorems": [
    "Dcc.C100_callbacks",
    "Dcc.C100_asynchronous",
    "Dcc.C100_stored_later_false"
   ],
   "note": "Proved for classes whose asynchronous write methods store before they return (only the callback comes later). False if they store later: cvWrite calls init() right after the method returned, so the decoder keeps the old configuration although the write was acknowledged. Faulting runs are excluded."
  },
  {
   "property": "C101",
   "status": "proved",
   "theorems": [
    "Dcc.C101_exists",
    "Dcc.C101_execute",
    "Dcc.C101_history",
    "Dcc.C101_new",
    "Dcc.C101_life",
    "Dcc.C101_faults"
   ],
   "note": "The machine includes what the code does against the standard (F31-F24 reported with the mask of F7-F0, page 0, CV packets counted across other packets) and says for every packet whether executing it is a fault. C101_execute asks that the clock has not gone back by more than a second since the time kept for the backoff (an assertion otherwise). The user's CVs are a memory with synchronous methods (C100 for the others)."
  },
  {
   "property": "C102",
   "status": "proved",
   "theorems": [
    "Dcc.C102_station",
    "Dcc.C102_track",
    "Dcc.C102_main_loop"
   ],
   "note": "C102_track has the track signal with cutouts and inverted or not; disable is not called, receive never meets a full queue and the run has no fault. C102_main_loop has neither as a hypothesis, but room for two packets and a clock that does not go back."
  },
  {
   "property": "C103",
   "status": "proved",
   "theorems": [
    "Dcc.C103_conversation",
    "Dcc.C103_programming",
    "Dcc.C103_attending"
   ],
   "note": "Room for two packets, a clock that does not go back, no packets of automatic logon, disable is not called. C103_conversation has any other packets; C103_programming excludes packets that enter service mode, are too short, consist control and CV access in the short form. C103_attending shows that a program with an interrupt per half bit and execute after each meets the condition about the calls."
  },
  {
   "property": "C104",
   "status": "partial",
   "theorems": [
    "Dcc.C104_session",
    "Dcc.C104_like_direct",
    "Dcc.C104_paged",
    "Dcc.C104_read",
    "Dcc.C104_write_read",
    "Dcc.C104_track",
    "Dcc.C104_acknowledged",
    "Dcc.C104_page_unacknowledged_false",
    "Dcc.C104_last_page_false",
    "Dcc.C104_main_false"
   ],
   "note": "Missing: CV1021 to CV1024 (page register 0) and acknowledging writes of the page register, which are false. The CVs keep an address; the user's class is a memory of CVs."
  },
  {
   "property": "C105",
   "status": "partial",
   "theorems": [
    "Dcc.C105_obeyed",
    "Dcc.C105_told",
    "Dcc.C105_starts",
    "Dcc.C105_stops",
    "Dcc.C105_track",
    "Dcc.C105_check_byte_false",
    "Dcc.C105_service_mode_false",
    "Dcc.C105_reset_false",
    "Dcc.C105_light_false"
   ],
   "note": "Missing: packets with a byte too few and service mode, for which it is false. The theorems about single calls and histories hold for any user class."
  },
  {
   "property": "C106",
   "status": "partial",
   "theorems": [
    "Dcc.C106_instruction_partial",
    "Dcc.C106_execute_partial",
    "Dcc.C106_service",
    "Dcc.C106_short_packets_false"
   ],
   "note": "Missing: instructions with a byte too few, for which it is false."
  },
  {
   "property": "C107",
   "status": "proved",
   "theorems": [
    "Dcc.C107_executed",
    "Dcc.C107_repeated",
    "Dcc.C107_track",
    "Dcc.C107_light_false"
   ],
   "note": "Hypotheses as in C77 and C83: no init, disable or logon packet meanwhile, commands the builders make. asks_sets connects the calls RCN-212 asks for (C77) to what a command sets."
  },
  {
   "property": "C108",
   "status": "proved",
   "theorems": [
    "Dcc.C108_arrivals",
    "Dcc.C108_throttle_to_motor",
    "Dcc.C108_main_loop",
    "Dcc.C108_final",
    "Dcc.C108_all_done"
   ],
   "note": "For an input that sees the polarity (crossings none), a fresh decoder (no half ones counted), a station that does not change invert. The number 14 is exact for a preamble of 17 ones (example in Props/Late.lean)."
  },
  {
   "property": "C109",
   "status": "proved",
   "theorems": [
    "Dcc.C109_sent",
    "Dcc.C109_longest",
    "Dcc.C109_in_time"
   ],
   "note": "The bound on the calls of execute is that of C76."
  },
  {
   "property": "C110",
   "status": "proved",
   "theorems": [
    "Dcc.C110_arrivals",
    "Dcc.C110_requests"
   ],
   "note": "Calls that fault are excluded by hypothesis (C30). That the packet put together can exist, and that a packet not yet begun can be lost, are examples behind the theorems."
  },
  {
   "property": "C111",
   "status": "proved",
   "theorems": [
    "Dcc.C111_logon",
    "Dcc.C111_driven",
    "Dcc.C111_apart",
    "Dcc.C111_attending"
   ],
   "note": "The last packet may still be waiting for its cutout or for execute. C111_attending shows a program that is in time for every decoder. Examples: two decoders with address 3 that are numbered 1000 and 1001 over the track, one of which then moves."
  },
  {
   "property": "C112",
   "status": "partial",
   "theorems": [
    "Dcc.C112_no_loss_partial",
    "Dcc.C112_range",
    "Dcc.C112_main_loop",
    "Dcc.C112_no_loss_false"
   ],
   "note": "Missing: programs that execute a packet while the next one is being received, for which it is false (the value is 1, C112_range says 0, 1 or 255). Calls that fault are excluded by hypothesis."
  },
  {
   "property": "C113",
   "status": "proved",
   "theorems": [
    "Dcc.C113_arrivals",
    "Dcc.C113_requests"
   ],
   "note": "Calls that fault and a queue that runs full are excluded by hypothesis."
  },
  {
   "property": "C114",
   "status": "partial",
   "theorems": [
    "Dcc.C114_obeyed_partial",
    "Dcc.C114_overwriting",
    "Dcc.C114_obeyed_false",
    "Dcc.C114_announced",
    "Dcc.C114_announced_false",
    "Dcc.C114_kept"
   ],
   "note": "Holds for long addresses given for the session and all short ones; fails for long addresses that are to become the decoder's own, and a short address is announced as a long one."
  },
  {
   "property": "C115",
   "status": "proved",
   "theorems": [
    "Dcc.C115_heard",
    "Dcc.C115_repeated"
   ],
   "note": "That a packet put together by the disturbance is a driving command or none is a hypothesis (C91 and C113 say what else may arrive). Calls that fault and a queue that runs full are excluded by hypothesis."
  },
  {
   "property": "C116",
   "status": "proved",
   "theorems": [
    "Dcc.C116_any_signal",
    "Dcc.C116_station",
    "Dcc.C116_loop_stops",
    "Dcc.C116_loop_false"
   ],
   "note": "Pauses are measured as the sum of the durations passed to receive. C116_any_signal says what holds of runs that do not fault; with a command station there is no fault."
  },
  {
   "property": "C117",
   "status": "partial",
   "theorems": [
    "Dcc.C117_heard",
    "Dcc.C117_next",
    "Dcc.C117_alone",
    "Dcc.C117_twins_false"
   ],
   "note": "The packets are LOGON_ENABLE for all or for locomotives, one after the other, each heard whole and with both channels of its cutout attended to (C88, C111). False for decoders that draw the same numbers."
  },
  {
   "property": "C118",
   "status": "partial",
   "theorems": [
    "Dcc.C118_answered",
    "Dcc.C118_fresh_partial",
    "Dcc.C118_stale_false"
   ],
   "note": "False for answers that wait: they are neither renewed nor discarded. Proved if no packet is executed and no address changed between the search and the cutout. The clock does not go backwards."
  },
  {
   "property": "C119",
   "status": "partial",
   "theorems": [
    "Dcc.C119_two_old",
    "Dcc.C119_off",
    "Dcc.C119_old_false"
   ],
   "note": "False for the pair of datagrams that waits when the address changes; proved for everything after it."
  },
  {
   "property": "C120",
   "status": "partial",
   "theorems": [
    "Dcc.C120_soon",
    "Dcc.C120_bound",
    "Dcc.C120_report_partial",
    "Dcc.C120_twice_partial",
    "Dcc.C120_starved_false"
   ],
   "note": "The waiting time is proved for everything that is accepted. That all values are heard is proved for reports of fewer values than the queue has places, made while the queue is empty or at least twice before every cutout; it is false for reports made once for every cutout."
  },
  {
   "property": "C121",
   "status": "partial",
   "theorems": [
    "Dcc.C121_cutouts_partial",
    "Dcc.C121_off",
    "Dcc.C121_open_false",
    "Dcc.C121_halves_false",
    "Dcc.C121_stream_partial"
   ],
   "note": "False if BiDi is switched off within a cutout or the polarity is changed within a bit; the cutouts are proved whole for all other histories, the whole stream if only durations and preamble change."
  },
  {
   "property": "C122",
   "status": "partial",
   "theorems": [
    "Dcc.C122_kept",
    "Dcc.C122_ignored",
    "Dcc.C122_own_partial",
    "Dcc.C122_only_assign",
    "Dcc.C122_own_false"
   ],
   "note": "False for decoders with an assigned address, which keep it until they are restarted; proved for all others."
  },
  {
   "property": "C123",
   "status": "partial",
   "theorems": [
    "Dcc.C123_received",
    "Dcc.C123_assigned",
    "Dcc.C123_session_partial",
    "Dcc.C123_init",
    "Dcc.C123_way_false"
   ],
   "note": "False when the address is for the decoder's own; proved for addresses for the session and for everything else that is received."
  },
  {
   "property": "C124",
   "status": "partial",
   "theorems": [
    "Dcc.C124_broadcast",
    "Dcc.C124_broadcast28",
    "Dcc.C124_same_partial",
    "Dcc.C124_way_false"
   ],
   "note": "False for locomotives that run the other way round than their consist or, in no consist, the other way round; proved for all others."
  },
  {
   "property": "C125",
   "status": "partial",
   "theorems": [
    "Dcc.C125_everybody",
    "Dcc.C125_members",
    "Dcc.C125_others_partial",
    "Dcc.C125_own_false"
   ],
   "note": "False for packets for everybody and for the number of the consist; proved for all numbers the decoder does not listen to."
  },
  {
   "property": "C126",
   "status": "partial",
   "theorems": [
    "Dcc.C126_closed",
    "Dcc.C126_way",
    "Dcc.C126_members_partial",
    "Dcc.C126_lead_false"
   ],
   "note": "False for the locomotive that has the number of the consist; proved for the direction of all others (their programming is C39, C40 and C80)."
  },
  {
   "property": "C127",
   "status": "partial",
   "theorems": [
    "Dcc.C127_first",
    "Dcc.C127_again",
    "Dcc.C127_assign_answered",
    "Dcc.C127_select",
    "Dcc.C127_select_answered_partial",
    "Dcc.C127_silent",
    "Dcc.C127_select_false"
   ],
   "note": "False for SELECT once an address is assigned; proved for LOGON_ASSIGN and for all earlier SELECTs, if the answer before has been transmitted (without a cutout in between see C54)."
  },
  {
   "property": "C128",
   "status": "partial",
   "theorems": [
    "Dcc.C128_back",
    "Dcc.C128_silent",
    "Dcc.C128_anew_false"
   ],
   "note": "The address is taken back in all cases; the decoder does not log on anew."
  },
  {
   "property": "C129",
   "status": "partial",
   "theorems": [
    "Dcc.C129_switches",
    "Dcc.C129_consist_false"
   ],
   "note": "The switches follow the CVs in all histories, without the condition of C45; the direction mark of the consist does not."
  },
  {
   "property": "C130",
   "status": "proved",
   "theorems": [
    "Dcc.C130_remembers",
    "Dcc.C130_restart"
   ],
   "note": ""
  }
 ]
}
