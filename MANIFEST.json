{
 "claims": [
  {
   "property": "C01",
   "status": "proved",
   "theorems": [
    "OTR.Props.C01_header_roundtrip"
   ],
   "note": "All header arguments, all buffers starting with the header."
  },
  {
   "property": "C02",
   "status": "proved",
   "theorems": [
    "OTR.Props.C02_decode_accepts_iff"
   ],
   "note": ""
  },
  {
   "property": "C03",
   "status": "proved",
   "theorems": [
    "OTR.Props.C03_decode_no_overread"
   ],
   "note": ""
  },
  {
   "property": "C04",
   "status": "proved",
   "theorems": [
    "OTR.Props.C04_header_canonical",
    "OTR.Props.C04_header_injective"
   ],
   "note": ""
  },
  {
   "property": "C05",
   "status": "proved",
   "theorems": [
    "OTR.Props.C05_nonsecure_roundtrip",
    "OTR.Props.C05_succeeds_iff",
    "OTR.Props.C05_beacon"
   ],
   "note": "Also exactly when the encoder succeeds, and that it stays within its buffers."
  },
  {
   "property": "C06",
   "status": "proved",
   "theorems": [
    "OTR.Props.C06_nonsecure_bit_error"
   ],
   "note": ""
  },
  {
   "property": "C07",
   "status": "proved",
   "theorems": [
    "OTR.Props.C07_counter_cmp"
   ],
   "note": ""
  },
  {
   "property": "C08",
   "status": "partial",
   "theorems": [
    "OTR.Props.C08_refuted",
    "OTR.Props.C08_witness",
    "OTR.Props.C08_counter_add_partial",
    "OTR.Props.C08_exact",
    "OTR.Props.C08_practical"
   ],
   "note": "The claim as documented is false of the code (carry never reaches the top byte): refuted, and the exact behaviour proved."
  },
  {
   "property": "C09",
   "status": "proved",
   "theorems": [
    "OTR.Props.C09_pad_roundtrip",
    "OTR.Props.C09_pad_limits"
   ],
   "note": ""
  },
  {
   "property": "C10",
   "status": "proved",
   "theorems": [
    "OTR.Props.C10_secure_raw_roundtrip"
   ],
   "note": "For every cipher pair meeting the documented length and inverse contracts."
  },
  {
   "property": "C11",
   "status": "proved",
   "theorems": [
    "OTR.Props.C11_acceptance_binds_every_byte"
   ],
   "note": ""
  },
  {
   "property": "C12",
   "status": "proved",
   "theorems": [
    "OTR.Props.C12_wire_format"
   ],
   "note": ""
  },
  {
   "property": "C13",
   "status": "proved",
   "theorems": [
    "OTR.Props.C13_limits",
    "OTR.Props.C13_no_overrun"
   ],
   "note": ""
  },
  {
   "property": "C14",
   "status": "proved",
   "theorems": [
    "OTR.Props.C14_replay"
   ],
   "note": "Any initial EEPROM contents; no power failures within the history (see C24 for those)."
  },
  {
   "property": "C15",
   "status": "proved",
   "theorems": [
    "OTR.Props.C15_reject_no_change"
   ],
   "note": ""
  },
  {
   "property": "C16",
   "status": "proved",
   "theorems": [
    "OTR.Props.C16_end_to_end"
   ],
   "note": "Receiver base counter must be more than 255 below 2^40 (see C08)."
  },
  {
   "property": "C17",
   "status": "proved",
   "theorems": [
    "OTR.Props.C17_valve_body",
    "OTR.Props.C17_valve_refuses",
    "OTR.Props.C17_valve_succeeds",
    "OTR.Props.C17_type_byte"
   ],
   "note": ""
  },
  {
   "property": "C18",
   "status": "partial",
   "theorems": [
    "OTR.Props.C18_refuted",
    "OTR.Props.C18_beacon_never"
   ],
   "note": "The claim is false of the code: generateSecureBeacon always fails. Refuted, with the exact behaviour proved."
  },
  {
   "property": "C19",
   "status": "partial",
   "theorems": [
    "OTR.Props.C19_refuted",
    "OTR.Props.C19_encode_failure_zero_partial"
   ],
   "note": "The claim as documented is false of the code (failure can give 255); refuted, and the part that holds proved."
  },
  {
   "property": "C20",
   "status": "proved",
   "theorems": [
    "OTR.Props.C20_tx_strictly_increasing",
    "OTR.Props.C20_progress",
    "OTR.Props.C20_reset_to_zero"
   ],
   "note": "Stronger than stated: also with power failures during calls, any two separated by a completed call."
  },
  {
   "property": "C21",
   "status": "proved",
   "theorems": [
    "OTR.Props.C21_never_zero",
    "OTR.Props.C21_exhausted_stops"
   ],
   "note": ""
  },
  {
   "property": "C22",
   "status": "proved",
   "theorems": [
    "OTR.Props.C22_tx_crash",
    "OTR.Props.C22_update_works",
    "OTR.Props.C22_tx_torn"
   ],
   "note": ""
  },
  {
   "property": "C23",
   "status": "proved",
   "theorems": [
    "OTR.Props.C23_update_exact",
    "OTR.Props.C23_accepts_greater"
   ],
   "note": ""
  },
  {
   "property": "C24",
   "status": "partial",
   "theorems": [
    "OTR.Props.C24_rx_crash_partial",
    "OTR.Props.C24_invariant_kept",
    "OTR.Props.C24_refuted",
    "OTR.Props.C24_replay_after_two_crashes"
   ],
   "note": "Proved for one crash from a two-good-copies state with the new counter not within 255 of a multiple of 2^40; without that limit it is refuted (missing carry), and after two crashes a replay is exhibited."
  },
  {
   "property": "C25",
   "status": "partial",
   "theorems": [
    "OTR.Props.C25_one_crash_readable_partial"
   ],
   "note": "Same limits as C24."
  },
  {
   "property": "C26",
   "status": "partial",
   "theorems": [
    "OTR.Props.C26_refuted",
    "OTR.Props.C26_full_update_restores_partial"
   ],
   "note": "False of the code: two power failures can lock a node out. What does restore the two-copy state is proved."
  },
  {
   "property": "C27",
   "status": "proved",
   "theorems": [
    "OTR.Props.C27_associations",
    "OTR.Props.C27_ff_id_lost",
    "OTR.Props.C27_overlong_prefix"
   ],
   "note": ""
  },
  {
   "property": "C28",
   "status": "proved",
   "theorems": [
    "OTR.Props.C28_fresh_counter"
   ],
   "note": ""
  },
  {
   "property": "C29",
   "status": "proved",
   "theorems": [
    "OTR.Props.C29_key_storage"
   ],
   "note": "An all-0xff key cannot be told from an erased one and reads back as absent (as documented: 0xff bytes mean cleared)."
  },
  {
   "property": "C30",
   "status": "proved",
   "theorems": [
    "OTR.Props.C30_burst",
    "OTR.Props.C30_single_bit",
    "OTR.Props.C30_bound_tight"
   ],
   "note": ""
  },
  {
   "property": "C31",
   "status": "proved",
   "theorems": [
    "OTR.Props.C31_range",
    "OTR.Props.C31_remainder",
    "OTR.Props.C31_regPoly_inj"
   ],
   "note": ""
  },
  {
   "property": "C32",
   "status": "proved",
   "theorems": [
    "OTR.Props.C32_compress",
    "OTR.Props.C32_inverse"
   ],
   "note": ""
  },
  {
   "property": "C33",
   "status": "proved",
   "theorems": [
    "OTR.Props.C33_smooth"
   ],
   "note": ""
  },
  {
   "property": "C34",
   "status": "proved",
   "theorems": [
    "OTR.Props.C34_unary",
    "OTR.Props.C34_unary1_invalid",
    "OTR.Props.C34_unary2_invalid_refuted"
   ],
   "note": "The separate documented claim that the 2-byte decoder rejects every invalid pattern is refuted."
  },
  {
   "property": "C35",
   "status": "partial",
   "theorems": [
    "OTR.Props.C35_refuted",
    "OTR.Props.C35_quartiles_partial",
    "OTR.Props.C35_exact"
   ],
   "note": "False of the code for some incomplete sets (witness); full sets, soundness and the exact condition proved."
  },
  {
   "property": "C36",
   "status": "proved",
   "theorems": [
    "OTR.Props.C36_special_hours",
    "OTR.Props.C36_min_max"
   ],
   "note": ""
  },
  {
   "property": "C37",
   "status": "proved",
   "theorems": [
    "OTR.Props.C37_fifo",
    "OTR.Props.C37_trace_ops",
    "OTR.Props.C37_remove_interrupted",
    "OTR.Props.C37_fifo_one_deep"
   ],
   "note": "Whole operations; plus the one point where an interrupt can fall inside an operation (remove)."
  },
  {
   "property": "C38",
   "status": "proved",
   "theorems": [
    "OTR.Props.C38_overlong_length",
    "OTR.Props.C38_area"
   ],
   "note": ""
  },
  {
   "property": "C39",
   "status": "partial",
   "theorems": [
    "OTR.Props.C39_refuted",
    "OTR.Props.C39_capacity_partial"
   ],
   "note": "False of the code (witness); holds for a fresh queue, and any empty queue accepts at least one frame."
  },
  {
   "property": "C40",
   "status": "proved",
   "theorems": [
    "OTR.Props.C40_min_on",
    "OTR.Props.C40_extend",
    "OTR.Props.C40_min_off",
    "OTR.Props.C40_power_up",
    "OTR.Props.C40_comes_on",
    "OTR.Props.C40_one_tick_short"
   ],
   "note": "Minimum on time holds less exactly one main-loop tick (shown to be exact)."
  },
  {
   "property": "C41",
   "status": "proved",
   "theorems": [
    "OTR.Props.C41_stats_hub",
    "OTR.Props.C41_goes_off",
    "OTR.Props.C41_nonhub",
    "OTR.Props.C41_hub_setting",
    "OTR.Props.C41_fixed_minutes"
   ],
   "note": ""
  },
  {
   "property": "C42",
   "status": "proved",
   "theorems": [
    "OTR.Props.C42_weak_calls_never",
    "OTR.Props.C42_start_threshold",
    "OTR.Props.C42_hysteresis"
   ],
   "note": ""
  },
  {
   "property": "C43",
   "status": "proved",
   "theorems": [
    "OTR.Props.C43_on_time_by_bias",
    "OTR.Props.C43_set",
    "OTR.Props.C43_on_now",
    "OTR.Props.C43_on_time"
   ],
   "note": ""
  },
  {
   "property": "C44",
   "status": "proved",
   "theorems": [
    "OTR.Props.C44_no_schedule"
   ],
   "note": ""
  },
  {
   "property": "C45",
   "status": "proved",
   "theorems": [
    "OTR.Props.C45_limits",
    "OTR.Props.C45_always"
   ],
   "note": ""
  },
  {
   "property": "C46",
   "status": "proved",
   "theorems": [
    "OTR.Props.C46_no_rapid_reopen",
    "OTR.Props.C46_no_rapid_reclose"
   ],
   "note": ""
  },
  {
   "property": "C47",
   "status": "proved",
   "theorems": [
    "OTR.Props.C47_frost_protection",
    "OTR.Props.C47_cold_room_counts",
    "OTR.Props.C47_opens_in_time"
   ],
   "note": ""
  },
  {
   "property": "C48",
   "status": "proved",
   "theorems": [
    "OTR.Props.C48_overheat_closes"
   ],
   "note": ""
  },
  {
   "property": "C49",
   "status": "proved",
   "theorems": [
    "OTR.Props.C49_glacial_one_percent"
   ],
   "note": ""
  },
  {
   "property": "C50",
   "status": "proved",
   "theorems": [
    "OTR.Props.C50_never_perverse"
   ],
   "note": ""
  },
  {
   "property": "C51",
   "status": "proved",
   "theorems": [
    "OTR.Props.C51_cumulative",
    "OTR.Props.C51_cumulative_new"
   ],
   "note": ""
  },
  {
   "property": "C52",
   "status": "proved",
   "theorems": [
    "OTR.Props.C52_target_bounds",
    "OTR.Props.C52_wraps_with_odd_parameters"
   ],
   "note": "Parameters and settings in the documented ranges (structure Settings, met by the shipped sets); outside them the 8-bit subtraction can wrap, as shown."
  },
  {
   "property": "C53",
   "status": "proved",
   "theorems": [
    "OTR.Props.C53_warm_setback",
    "OTR.Props.C53_frost"
   ],
   "note": ""
  },
  {
   "property": "C54",
   "status": "proved",
   "theorems": [
    "OTR.Props.C54_bake_bounded",
    "OTR.Props.C54_bake_starts",
    "OTR.Props.C54_bake_implies_warm"
   ],
   "note": ""
  },
  {
   "property": "C55",
   "status": "proved",
   "theorems": [
    "OTR.Props.C55_parameters",
    "OTR.Props.C55_dial_frost_humid",
    "OTR.Props.C55_consistent",
    "OTR.Props.C55_set_warm",
    "OTR.Props.C55_set_frost",
    "OTR.Props.C55_dial_frost",
    "OTR.Props.C55_low_frost_refused",
    "OTR.Props.C55_builtin"
   ],
   "note": "Also shown: setFROSTTargetC() refuses every temperature below the dial scale (16C), contrary to its documentation."
  },
  {
   "property": "C56",
   "status": "proved",
   "theorems": [
    "OTR.Props.C56_dial",
    "OTR.Props.C56_cache_transparent",
    "OTR.Props.C56_refuted_hot_water"
   ],
   "note": "Fails for dials of ten or more temperatures (hot-water parameters): counterexample proved."
  },
  {
   "property": "C57",
   "status": "proved",
   "theorems": [
    "OTR.Props.C57_encoder_exact",
    "OTR.Props.C57_decoder_exact",
    "OTR.Props.C57_round_trip"
   ],
   "note": "encoder and decoder characterised exactly against a separate air-format specification"
  },
  {
   "property": "C58",
   "status": "partial",
   "theorems": [
    "OTR.Props.C58_no_terminator_inside",
    "OTR.Props.C58_fits_partial",
    "OTR.Props.C58_fits_48",
    "OTR.Props.C58_refuted_with_address"
   ],
   "note": "holds for the default build; refuted for OTV0P2BASE_FHT8V_ADR_USED builds, where 48 bytes can be needed but 46 are documented"
  },
  {
   "property": "C59",
   "status": "proved",
   "theorems": [
    "OTR.Props.C59_decoder_safe"
   ],
   "note": "no out-of-bounds read and termination, for all byte strings"
  },
  {
   "property": "C60",
   "status": "proved",
   "theorems": [
    "OTR.Props.C60_percent_scale",
    "OTR.Props.C60_percent_back"
   ],
   "note": "whole 8-bit domains"
  },
  {
   "property": "C61",
   "status": "proved",
   "theorems": [
    "OTR.Props.C61_range",
    "OTR.Props.C61_position",
    "OTR.Props.C61_monotone",
    "OTR.Props.C61_end_stop"
   ],
   "note": ""
  },
  {
   "property": "C62",
   "status": "proved",
   "theorems": [
    "OTR.Props.C62_order",
    "OTR.Props.C62_waits_for_fitting",
    "OTR.Props.C62_error_absorbing",
    "OTR.Props.C62_motor_left_off",
    "OTR.Props.C62_late_poll",
    "OTR.Props.C62_withdraw_limit",
    "OTR.Props.C62_calibration_limit",
    "OTR.Props.C62_stuck_motor",
    "OTR.Props.C62_start_delay"
   ],
   "note": ""
  },
  {
   "property": "C63",
   "status": "partial",
   "theorems": [
    "OTR.Props.C63_sender_accepts",
    "OTR.Props.C63_adjust",
    "OTR.Props.C63_roundtrip",
    "OTR.Props.C63_bit_error_partial",
    "OTR.Props.C63_wrong_crc",
    "OTR.Props.C63_refuted_brace",
    "OTR.Props.C63_refuted_nested",
    "OTR.Props.C63_overread",
    "OTR.Props.C63_check_safe"
   ],
   "note": "Round trip proved in full. Single-bit detection is proved except for the top bit of the final brace and messages with an inner brace, for which it is refuted. The receiver may read one byte past the stated length (C63_overread)."
  },
  {
   "property": "C64",
   "status": "partial",
   "theorems": [
    "OTR.Props.C64_no_overrun",
    "OTR.Props.C64_failure",
    "OTR.Props.C64_framing",
    "OTR.Props.C64_wellformed_partial",
    "OTR.Props.C64_refuted_leading_comma"
   ],
   "note": "Memory safety, framing and failure in full. Well-formedness is false as stated: with an empty ID and no count an over-long first entry leaves a comma (refuted); proved in all other cases."
  },
  {
   "property": "C65",
   "status": "proved",
   "theorems": [
    "OTR.Props.C65_histories",
    "OTR.Props.C65_put",
    "OTR.Props.C65_putDescriptor",
    "OTR.Props.C65_remove",
    "OTR.Props.C65_queries",
    "OTR.Props.C65_write",
    "OTR.Props.C65_identity"
   ],
   "note": ""
  },
  {
   "property": "C66",
   "status": "proved",
   "theorems": [
    "OTR.Props.C66_round_trip",
    "OTR.Props.C66_bit_flip"
   ],
   "note": ""
  },
  {
   "property": "C67",
   "status": "partial",
   "theorems": [
    "OTR.Props.C67_stops_at_terminator",
    "OTR.Props.C67_round_trip_partial",
    "OTR.Props.C67_decode_sound",
    "OTR.Props.C67_bit_flip_partial",
    "OTR.Props.C67_refuted_structural_flip"
   ],
   "note": "round trip, terminator freedom and memory safety are proved in full; single-bit detection is proved when the receiver knows the length and refuted otherwise"
  },
  {
   "property": "C68",
   "status": "proved",
   "theorems": [
    "OTR.Props.C68_counts",
    "OTR.Props.C68_reading",
    "OTR.Props.C68_getters",
    "OTR.Props.C68_set",
    "OTR.Props.C68_set_seconds",
    "OTR.Props.C68_elapsed"
   ],
   "note": ""
  },
  {
   "property": "C69",
   "status": "partial",
   "theorems": [
    "OTR.Props.C69_set_persists",
    "OTR.Props.C69_restored_partial",
    "OTR.Props.C69_established",
    "OTR.Props.C69_restore_legal",
    "OTR.Props.C69_crash_time",
    "OTR.Props.C69_refuted_crash_day"
   ],
   "note": "proved for restarts between calls; a power failure inside the call at midnight can restore the wrong day (refutation proved)"
  },
  {
   "property": "C70",
   "status": "proved",
   "theorems": [
    "OTR.Props.C70_holiday",
    "OTR.Props.C70_marked_vacant",
    "OTR.Props.C70_timeout",
    "OTR.Props.C70_vacancy_hours",
    "OTR.Props.C70_vacancy_no_wrap",
    "OTR.Props.C70_legal_reachable",
    "OTR.Props.C70_new_occupancy",
    "OTR.Props.C70_two_bit"
   ],
   "note": ""
  },
  {
   "property": "C71",
   "status": "proved",
   "theorems": [
    "OTR.Props.C71_read_interrupted",
    "OTR.Props.C71_read_quiet",
    "OTR.Props.C71_mark_interrupted",
    "OTR.Props.C71_repaired"
   ],
   "note": "Interrupt routines are atomic (no nested interrupts); a new mark can lose at most one minute; a percentage made stale by a race is repaired at the next read."
  },
  {
   "property": "C72",
   "status": "proved",
   "theorems": [
    "OTR.Props.C72_weak_evidence_ignored",
    "OTR.Props.C72_evidence_monotone"
   ],
   "note": ""
  },
  {
   "property": "C73",
   "status": "proved",
   "theorems": [
    "OTR.Props.C73_error_wins",
    "OTR.Props.C73_warning_refused",
    "OTR.Props.C73_warning_accepted",
    "OTR.Props.C73_retained",
    "OTR.Props.C73_expires"
   ],
   "note": "set() is documented as not ISR-safe, so calls are sequential"
  },
  {
   "property": "C74",
   "status": "proved",
   "theorems": [
    "OTR.Props.C74_print",
    "OTR.Props.C74_round_trip",
    "OTR.Props.C74_parse"
   ],
   "note": ""
  },
  {
   "property": "C75",
   "status": "proved",
   "theorems": [
    "OTR.Props.C75_make",
    "OTR.Props.C75_sub",
    "OTR.Props.C75_chain_disjoint"
   ],
   "note": ""
  },
  {
   "property": "C76",
   "status": "partial",
   "theorems": [
    "OTR.Props.C76_actions_partial",
    "OTR.Props.C76_refuted_empty_body"
   ],
   "note": "proved for non-empty bodies (and for all bodies when the boiler operation is not installed); for an empty authenticated body the boiler operation reads an uninitialised byte (refutation proved)"
  },
  {
   "property": "C77",
   "status": "partial",
   "theorems": [
    "OTR.Props.C77_round_trip_partial",
    "OTR.Props.C77_byte_error_partial",
    "OTR.Props.C77_receive_safe",
    "OTR.Props.C77_refuted_length_flip",
    "OTR.Props.C77_refuted_encode_long",
    "OTR.Props.C77_refuted_decode_unfiltered",
    "OTR.Props.C77_default_header"
   ],
   "note": "round trip for bodies of at most 250 bytes, errors outside the length byte, and the filtered receive path are proved; the remaining parts are false of the code (refutations proved)"
  },
  {
   "property": "C78",
   "status": "proved",
   "theorems": [
    "OTR.Props.C78_smart_ops"
   ],
   "note": ""
  },
  {
   "property": "C79",
   "status": "proved",
   "theorems": [
    "OTR.Props.C79_at_most_a_quarter"
   ],
   "note": ""
  },
  {
   "property": "C80",
   "status": "partial",
   "theorems": [
    "OTR.Props.C80_hour_mean_partial",
    "OTR.Props.C80_refuted"
   ],
   "note": "False of the code when a sensor is unavailable at the first sample of an hour (stale total); proved for sensors available throughout."
  },
  {
   "property": "C81",
   "status": "proved",
   "theorems": [
    "OTR.Props.C81_ee_store",
    "OTR.Props.C81_zap",
    "OTR.Props.C81_zap_completes"
   ],
   "note": ""
  },
  {
   "property": "C82",
   "status": "proved",
   "theorems": [
    "OTR.Props.C82_schedule_drives_mode",
    "OTR.Props.C82_user_choice_holds"
   ],
   "note": ""
  },
  {
   "property": "C83",
   "status": "proved",
   "theorems": [
    "OTR.Props.C83_no_hovering"
   ],
   "note": ""
  },
  {
   "property": "C84",
   "status": "proved",
   "theorems": [
    "OTR.Props.C84_steady_hot_closes",
    "OTR.Props.C84_filter_ends",
    "OTR.Props.C84_steady_warm_stops_calling",
    "OTR.Props.C84_steady_cool_opens"
   ],
   "note": ""
  },
  {
   "property": "C85",
   "status": "partial",
   "theorems": [
    "OTR.Props.C85_follows_partial",
    "OTR.Props.C85_first_read",
    "OTR.Props.C85_callbacks",
    "OTR.Props.C85_refuted_jitter",
    "OTR.Props.C85_refuted_slow_turn"
   ],
   "note": "Following of movement of at least 4 counts between readings, first reading and callbacks are proved. Jitter immunity and following of slow movement are false of the code: counterexamples proved."
  },
  {
   "property": "C86",
   "status": "proved",
   "theorems": [
    "OTR.Props.C86_darker_never_warmer",
    "OTR.Props.C86_longer_vacant_never_warmer"
   ],
   "note": ""
  },
  {
   "property": "C87",
   "status": "proved",
   "theorems": [
    "OTR.Props.C87_call_for_heat"
   ],
   "note": ""
  },
  {
   "property": "C88",
   "status": "proved",
   "theorems": [
    "OTR.Props.C88_frost_end_to_end"
   ],
   "note": ""
  },
  {
   "property": "C89",
   "status": "proved",
   "theorems": [
    "OTR.Props.C89_min_open"
   ],
   "note": ""
  },
  {
   "property": "C90",
   "status": "proved",
   "theorems": [
    "OTR.Props.C90_corrupt_pair_rejected",
    "OTR.Props.C90_flipped_bit_rejected"
   ],
   "note": ""
  },
  {
   "property": "C91",
   "status": "proved",
   "theorems": [
    "OTR.Props.C91_periodic",
    "OTR.Props.C91_no_repeat",
    "OTR.Props.C91_sync_is_ready",
    "OTR.Props.C91_first_after_sync"
   ],
   "note": ""
  },
  {
   "property": "C92",
   "status": "proved",
   "theorems": [
    "OTR.Props.C92_sync_content",
    "OTR.Props.C92_content"
   ],
   "note": ""
  },
  {
   "property": "C93",
   "status": "partial",
   "theorems": [
    "OTR.Props.C93_resync_not_open",
    "OTR.Props.C93_refuted_never_transmits",
    "OTR.Props.C93_code_change_resyncs_partial"
   ],
   "note": "the first half is refuted: isAvailable() has the house-code test inverted, so with valid codes nothing is ever transmitted"
  },
  {
   "property": "C94",
   "status": "proved",
   "theorems": [
    "OTR.Props.C94_wear"
   ],
   "note": ""
  },
  {
   "property": "C95",
   "status": "proved",
   "theorems": [
    "OTR.Props.C95_replay_no_action",
    "OTR.Props.C95_noise_changes_nothing"
   ],
   "note": ""
  },
  {
   "property": "C96",
   "status": "proved",
   "theorems": [
    "OTR.Props.C96_valve_to_hub",
    "OTR.Props.C96_boiler_gets_position"
   ],
   "note": ""
  },
  {
   "property": "C97",
   "status": "proved",
   "theorems": [
    "OTR.Props.C97_receive_safe",
    "OTR.Props.C97_handler_safe"
   ],
   "note": ""
  },
  {
   "property": "C98",
   "status": "proved",
   "theorems": [
    "OTR.Props.C98_printed_id_unique",
    "OTR.Props.C98_ambiguous_in_general",
    "OTR.Props.C98_hex"
   ],
   "note": ""
  },
  {
   "property": "C99",
   "status": "partial",
   "theorems": [
    "OTR.Props.C99_really_open_partial",
    "OTR.Props.C99_refuted",
    "OTR.Props.C99_never_open_uncalibrated",
    "OTR.Props.C99_never_open_poor"
   ],
   "note": "False of the code as stated: with calibration deferred or poor the threshold is 110, so the proportional driver never reports open. Proved for the binary-only driver and for usable calibrations."
  },
  {
   "property": "C100",
   "status": "partial",
   "theorems": [
    "OTR.Props.C100_end_stop_partial",
    "OTR.Props.C100_binary",
    "OTR.Props.C100_refuted"
   ],
   "note": "Proved in full for the binary-only driver; for the proportional driver only that four reports in a row came, the last in that direction; the rest is refuted (the count survives a change of direction)."
  },
  {
   "property": "C101",
   "status": "partial",
   "theorems": [
    "OTR.Props.C101_binary",
    "OTR.Props.C101_refuted",
    "OTR.Props.C101_refuted_nonproportional"
   ],
   "note": "Proved for the binary-only driver; refuted for the proportional one."
  },
  {
   "property": "C102",
   "status": "proved",
   "theorems": [
    "OTR.Props.C102_direction",
    "OTR.Props.C102_idle",
    "OTR.Props.C102_reaches_target",
    "OTR.Props.C102_zones",
    "OTR.Props.C102_no_flap"
   ],
   "note": ""
  },
  {
   "property": "C103",
   "status": "proved",
   "theorems": [
    "OTR.Props.C103_calibration"
   ],
   "note": ""
  },
  {
   "property": "C104",
   "status": "proved",
   "theorems": [
    "OTR.Props.C104_marks"
   ],
   "note": "For objects with an ID or count or whose entries each fit (see C64)."
  },
  {
   "property": "C105",
   "status": "proved",
   "theorems": [
    "OTR.Props.C105_can_be_sent"
   ],
   "note": "For objects with an ID or count or whose entries each fit (see C64)."
  },
  {
   "property": "C106",
   "status": "partial",
   "theorems": [
    "OTR.Props.C106_fair",
    "OTR.Props.C106_refuted_low_priority",
    "OTR.Props.C106_refuted_long"
   ],
   "note": "Proved for stats of normal priority; refuted for low priority (starved for ever) and if one stat is too long (blocks the others for ever)."
  },
  {
   "property": "C107",
   "status": "partial",
   "theorems": [
    "OTR.Props.C107_changed_first_partial",
    "OTR.Props.C107_changedValue_partial",
    "OTR.Props.C107_refuted_first"
   ],
   "note": "The code ignores the first stat of the table and reads outside an empty table; proved for the others."
  },
  {
   "property": "C108",
   "status": "proved",
   "theorems": [
    "OTR.Props.C108_needs",
    "OTR.Props.C108_succeeds",
    "OTR.Props.C108_receiver_workspace"
   ],
   "note": ""
  },
  {
   "property": "C109",
   "status": "proved",
   "theorems": [
    "OTR.Props.C109_recent_use",
    "OTR.Props.C109_press_is_occupancy"
   ],
   "note": ""
  },
  {
   "property": "C110",
   "status": "proved",
   "theorems": [
    "OTR.Props.C110_press_at_frost",
    "OTR.Props.C110_frost_position",
    "OTR.Props.C110_within_four",
    "OTR.Props.C110_dial_rests"
   ],
   "note": ""
  },
  {
   "property": "C111",
   "status": "proved",
   "theorems": [
    "OTR.Props.C111_cycle_button",
    "OTR.Props.C111_idle"
   ],
   "note": ""
  },
  {
   "property": "C112",
   "status": "proved",
   "theorems": [
    "OTR.Props.C112_off_after_read",
    "OTR.Props.C112_stays_dark",
    "OTR.Props.C112_lit_at_once"
   ],
   "note": ""
  },
  {
   "property": "C113",
   "status": "partial",
   "theorems": [
    "OTR.Props.C113_press_reported",
    "OTR.Props.C113_press_during_read",
    "OTR.Props.C113_press_at_end",
    "OTR.Props.C113_dial_turned",
    "OTR.Props.C113_refuted_lost_press"
   ],
   "note": "False in one case, refuted: with the dial at its frost end stop, a press between fetching the result and clearing the flag is never reported (a race in read()). Proved in all others."
  },
  {
   "property": "C114",
   "status": "proved",
   "theorems": [
    "OTR.Props.C114_settles"
   ],
   "note": "For the unit without a cycle button."
  },
  {
   "property": "C115",
   "status": "proved",
   "theorems": [
    "OTR.Props.C115_fast_when",
    "OTR.Props.C115_fast_opens"
   ],
   "note": ""
  },
  {
   "property": "C116",
   "status": "proved",
   "theorems": [
    "OTR.Props.C116_flags",
    "OTR.Props.C116_hysteresis",
    "OTR.Props.C116_reachable",
    "OTR.Props.C116_default_thresholds"
   ],
   "note": ""
  },
  {
   "property": "C117",
   "status": "proved",
   "theorems": [
    "OTR.Props.C117_dark_minutes",
    "OTR.Props.C117_light_resets"
   ],
   "note": ""
  },
  {
   "property": "C118",
   "status": "proved",
   "theorems": [
    "OTR.Props.C118_falling",
    "OTR.Props.C118_first",
    "OTR.Props.C118_probable_sound",
    "OTR.Props.C118_weak_lit",
    "OTR.Props.C118_rise_large_enough",
    "OTR.Props.C118_weak_sound"
   ],
   "note": ""
  },
  {
   "property": "C119",
   "status": "partial",
   "theorems": [
    "OTR.Props.C119_lights_on",
    "OTR.Props.C119_confirmed",
    "OTR.Props.C119_flash_forgotten",
    "OTR.Props.C119_flash_silent",
    "OTR.Props.C119_refuted_dimmed"
   ],
   "note": "All but the last part; that is false of the code: a light dimmed slowly to darkness is still signalled (refuted)."
  },
  {
   "property": "C120",
   "status": "proved",
   "theorems": [
    "OTR.Props.C120_line_sane",
    "OTR.Props.C120_line_exact",
    "OTR.Props.C120_full_buffer",
    "OTR.Props.C120_timeout",
    "OTR.Props.C120_active_timer"
   ],
   "note": ""
  },
  {
   "property": "C121",
   "status": "partial",
   "theorems": [
    "OTR.Props.C121_add",
    "OTR.Props.C121_only_valid",
    "OTR.Props.C121_query_clear",
    "OTR.Props.C121_set_own_id",
    "OTR.Props.C121_confined",
    "OTR.Props.C121_refuted_short"
   ],
   "note": "All proved except for lines of fewer than eight words: such a line can add an ID with uninitialised bytes (refuted)."
  },
  {
   "property": "C122",
   "status": "partial",
   "theorems": [
    "OTR.Props.C122_set_key",
    "OTR.Props.C122_clear_key",
    "OTR.Props.C122_only_valid_partial",
    "OTR.Props.C122_refuted_first"
   ],
   "note": "All proved except that the first byte is not checked: a first word that is not hex is stored as 0xff (refuted)."
  },
  {
   "property": "C123",
   "status": "partial",
   "theorems": [
    "OTR.Props.C123_set_time",
    "OTR.Props.C123_stays_legal",
    "OTR.Props.C123_refuted"
   ],
   "note": "Proved for lines with decimal numbers up to 255; otherwise false: numbers are taken modulo 256 and non-numbers as 0 (refuted)."
  },
  {
   "property": "C124",
   "status": "partial",
   "theorems": [
    "OTR.Props.C124_set_param",
    "OTR.Props.C124_bad_value",
    "OTR.Props.C124_confined_partial",
    "OTR.Props.C124_refuted_past_end"
   ],
   "note": "Setting is proved; the confinement is off by one: cell 64 can be changed (refuted, and exact bound proved)."
  },
  {
   "property": "C125",
   "status": "proved",
   "theorems": [
    "OTR.Props.C125_frames_once_in_order",
    "OTR.Props.C125_newest_only",
    "OTR.Props.C125_accepts",
    "OTR.Props.C125_refused_keeps",
    "OTR.Props.C125_witness",
    "OTR.Props.C125_refuted_before_start",
    "OTR.Props.C125_refuted_overwrite",
    "OTR.Props.C125_refuted_dead_modem"
   ],
   "note": "The refuted_ theorems show the converse (every accepted frame is sent) is false of the code, even with a perfect modem."
  },
  {
   "property": "C126",
   "status": "proved",
   "theorems": [
    "OTR.Props.C126_announced_length",
    "OTR.Props.C126_refuted_requeue"
   ],
   "note": "With the stated exception, which is shown to be real."
  },
  {
   "property": "C127",
   "status": "proved",
   "theorems": [
    "OTR.Props.C127_sends_only_connected"
   ],
   "note": ""
  },
  {
   "property": "C128",
   "status": "proved",
   "theorems": [
    "OTR.Props.C128_pulse_length",
    "OTR.Props.C128_quiet_after_pulse"
   ],
   "note": ""
  },
  {
   "property": "C129",
   "status": "proved",
   "theorems": [
    "OTR.Props.C129_bounded_retries",
    "OTR.Props.C129_witness"
   ],
   "note": ""
  },
  {
   "property": "C130",
   "status": "proved",
   "theorems": [
    "OTR.Props.C130_recovers_and_delivers",
    "OTR.Props.C130_schedules_exist",
    "OTR.Props.C130_refuted_minute_polls"
   ],
   "note": "C130_schedules_exist: the schedules quantified over exist from every state. C130_refuted_minute_polls: polls exactly a minute apart never finish powering up."
  },
  {
   "property": "C131",
   "status": "partial",
   "theorems": [
    "OTR.Props.C131_short_replies",
    "OTR.Props.C131_pin_meaning",
    "OTR.Props.C131_registration_meaning",
    "OTR.Props.C131_no_registration",
    "OTR.Props.C131_refuted_long_reply",
    "OTR.Props.C131_refuted_silent_apn"
   ],
   "note": "Proved for replies that fit the buffer with room to spare and for the PIN and registration; false for full-length replies (read past the buffer) and for a silent modem when the APN is set (both refuted)."
  },
  {
   "property": "C132",
   "status": "partial",
   "theorems": [
    "OTR.Props.C132_sendRaw_returns",
    "OTR.Props.C132_sendRaw_result",
    "OTR.Props.C132_refuted_end_of_minute",
    "OTR.Props.C132_sendRaw_iff"
   ],
   "note": "Termination proved for starts at seconds 0..57; refuted at 58 and 59, where it never returns if the modem is silent."
  },
  {
   "property": "C133",
   "status": "proved",
   "theorems": [
    "OTR.Props.C133_privacy",
    "OTR.Props.C133_confined"
   ],
   "note": ""
  },
  {
   "property": "C134",
   "status": "proved",
   "theorems": [
    "OTR.Props.C134_follows_listen",
    "OTR.Props.C134_end_quiet",
    "OTR.Props.C134_real_tables",
    "OTR.Props.C134_tables_once",
    "OTR.Props.C134_refuted_restart",
    "OTR.Props.C134_refuted_channel"
   ],
   "note": "The refuted_ theorems show the restriction to histories without a further begin()/end() is needed."
  },
  {
   "property": "C135",
   "status": "proved",
   "theorems": [
    "OTR.Props.C135_send",
    "OTR.Props.C135_refuted_channel_and_length"
   ],
   "note": "The refuted_ theorem shows frames over 64 bytes and nonexistent channels are not refused."
  },
  {
   "property": "C136",
   "status": "proved",
   "theorems": [
    "OTR.Props.C136_packet",
    "OTR.Props.C136_fifo",
    "OTR.Props.C136_only_poll",
    "OTR.Props.C136_queue_safe",
    "OTR.Props.C136_refuted_lost_by_send"
   ],
   "note": ""
  },
  {
   "property": "C137",
   "status": "proved",
   "theorems": [
    "OTR.Props.C137_ff_length",
    "OTR.Props.C137_ff_bounded",
    "OTR.Props.C137_trailing_zeros",
    "OTR.Props.C137_filter_ok",
    "OTR.Props.C137_printed_unique",
    "OTR.Props.C137_format",
    "OTR.Props.C137_printed_line"
   ],
   "note": ""
  },
  {
   "property": "C138",
   "status": "proved",
   "theorems": [
    "OTR.Props.C138_search_enumerates",
    "OTR.Props.C138_no_device",
    "OTR.Props.C138_shorted",
    "OTR.Props.C138_refuted_family_zero"
   ],
   "note": "Against a model of the 1-Wire bus and devices (Spec/OneWire)."
  },
  {
   "property": "C139",
   "status": "proved",
   "theorems": [
    "OTR.Props.C139_select",
    "OTR.Props.C139_skip",
    "OTR.Props.C139_byte_written",
    "OTR.Props.C139_bytes_read"
   ],
   "note": ""
  },
  {
   "property": "C140",
   "status": "partial",
   "theorems": [
    "OTR.Props.C140_read_multiple",
    "OTR.Props.C140_read_multiple_first_use",
    "OTR.Props.C140_read_first",
    "OTR.Props.C140_no_sensor",
    "OTR.Props.C140_wait_gives_up",
    "OTR.Props.C140_value",
    "OTR.Props.C140_count_zero_stores_one",
    "OTR.Props.C140_refuted_fresh"
   ],
   "note": "The values are those in the scratchpads; that they are fresh is refuted, and so is count 0."
  },
  {
   "property": "C141",
   "status": "proved",
   "theorems": [
    "OTR.Props.C141_precision",
    "OTR.Props.C141_init"
   ],
   "note": ""
  },
  {
   "property": "C142",
   "status": "proved",
   "theorems": [
    "OTR.Props.C142_step_injective",
    "OTR.Props.C142_no_latch_up",
    "OTR.Props.C142_every_state_recurs",
    "OTR.Props.C142_output_uniform",
    "OTR.Props.C142_seed_keeps_seed",
    "OTR.Props.C142_seed_keeps_state",
    "OTR.Props.C142_next_bool"
   ],
   "note": ""
  },
  {
   "property": "C143",
   "status": "partial",
   "theorems": [
    "OTR.Props.C143_raw_uniform_in_adc_and_wdt",
    "OTR.Props.C143_white_uniform_in_wdt_and_prng",
    "OTR.Props.C143_jitter_raw",
    "OTR.Props.C143_refuted_jitter_raw",
    "OTR.Props.C143_refuted_white"
   ],
   "note": "Refuted for the clock jitter byte, and for the ADC byte when whitened."
  },
  {
   "property": "C144",
   "status": "proved",
   "theorems": [
    "OTR.Props.C144_one_byte",
    "OTR.Props.C144_wear"
   ],
   "note": ""
  },
  {
   "property": "C145",
   "status": "proved",
   "theorems": [
    "OTR.Props.C145_accounting",
    "OTR.Props.C145_never_wraps",
    "OTR.Props.C145_uncontended",
    "OTR.Props.C145_failure_means_progress",
    "OTR.Props.C145_exchange_atomic"
   ],
   "note": ""
  },
  {
   "property": "C146",
   "status": "partial",
   "theorems": [
    "OTR.Props.C146_accuracy",
    "OTR.Props.C146_monotone",
    "OTR.Props.C146_read",
    "OTR.Props.C146_failed_read",
    "OTR.Props.C146_config_efr32",
    "OTR.Props.C146_refuted_power",
    "OTR.Props.C146_refuted_config"
   ],
   "note": "Restored bus power is refuted for failed reads, the resolution setting for the AVR build."
  },
  {
   "property": "C147",
   "status": "partial",
   "theorems": [
    "OTR.Props.C147_accuracy",
    "OTR.Props.C147_read",
    "OTR.Props.C147_hysteresis",
    "OTR.Props.C147_valid",
    "OTR.Props.C147_refuted_range",
    "OTR.Props.C147_refuted_range_high"
   ],
   "note": "The range is refuted."
  },
  {
   "property": "C148",
   "status": "partial",
   "theorems": [
    "OTR.Props.C148_read",
    "OTR.Props.C148_failed_read",
    "OTR.Props.C148_refuted_timeout",
    "OTR.Props.C148_refuted_power"
   ],
   "note": "The timeout and restored power on failure are refuted."
  },
  {
   "property": "C149",
   "status": "proved",
   "theorems": [
    "OTR.Props.C149_accuracy",
    "OTR.Props.C149_monotone",
    "OTR.Props.C149_value",
    "OTR.Props.C149_flags",
    "OTR.Props.C149_no_dither",
    "OTR.Props.C149_report",
    "OTR.Props.C149_mains"
   ],
   "note": ""
  },
  {
   "property": "C150",
   "status": "proved",
   "theorems": [
    "OTR.Props.C150_power_restored",
    "OTR.Props.C150_powered_inside"
   ],
   "note": ""
  },
  {
   "property": "C151",
   "status": "proved",
   "theorems": [
    "OTR.Props.C151_read",
    "OTR.Props.C151_refuted_timeout"
   ],
   "note": ""
  },
  {
   "property": "C152",
   "status": "proved",
   "theorems": [
    "OTR.Props.C152_voice",
    "OTR.Props.C152_refuted_null_callback"
   ],
   "note": ""
  },
  {
   "property": "C153",
   "status": "proved",
   "theorems": [
    "OTR.Props.C153_direct_driver",
    "OTR.Props.C153_direction",
    "OTR.Props.C153_start",
    "OTR.Props.C153_released"
   ],
   "note": ""
  },
  {
   "property": "C154",
   "status": "proved",
   "theorems": [
    "OTR.Props.C154_too_late",
    "OTR.Props.C154_spin",
    "OTR.Props.C154_ends",
    "OTR.Props.C154_overrun"
   ],
   "note": "The clock must be looked at at least every 13 ticks (100 ms); a counterexample shows that some such bound is needed."
  },
  {
   "property": "C155",
   "status": "partial",
   "theorems": [
    "OTR.Props.C155_drv8850_partial",
    "OTR.Props.C155_unmonitored",
    "OTR.Props.C155_exactly"
   ],
   "note": "All but the last sentence; that is refuted, and exactly the calls that run unwatched are characterised."
  },
  {
   "property": "C156",
   "status": "proved",
   "theorems": [
    "OTR.Props.C156_receives",
    "OTR.Props.C156_4800",
    "OTR.Props.C156_2400",
    "OTR.Props.C156_seven_bits"
   ],
   "note": ""
  },
  {
   "property": "C157",
   "status": "proved",
   "theorems": [
    "OTR.Props.C157_receive_queue",
    "OTR.Props.C157_stuck_until_write"
   ],
   "note": ""
  },
  {
   "property": "C158",
   "status": "proved",
   "theorems": [
    "OTR.Props.C158_frame",
    "OTR.Props.C158_sampled",
    "OTR.Props.C158_read",
    "OTR.Props.C158_9600"
   ],
   "note": ""
  },
  {
   "property": "C159",
   "status": "partial",
   "theorems": [
    "OTR.Props.C159_begin_partial",
    "OTR.Props.C159_refuted_baud",
    "OTR.Props.C159_read"
   ],
   "note": "The first part is refuted outside 977..5681 baud, with the exact condition proved."
  },
  {
   "property": "C160",
   "status": "proved",
   "theorems": [
    "OTR.Props.C160_sleep_until",
    "OTR.Props.C160_returns",
    "OTR.Props.C160_too_late",
    "OTR.Props.C160_refuted_overrun",
    "OTR.Props.C160_ms_remaining"
   ],
   "note": ""
  },
  {
   "property": "C161",
   "status": "partial",
   "theorems": [
    "OTR.Props.C161_nap",
    "OTR.Props.C161_nap_ends",
    "OTR.Props.C161_refuted_lost_wakeup",
    "OTR.Props.C161_new_cycle",
    "OTR.Props.C161_new_cycle_prompt",
    "OTR.Props.C161_refuted_lost_cycle"
   ],
   "note": "Prompt wake-up is refuted (test and sleep are not atomic); what holds for every interrupt sequence is proved."
  },
  {
   "property": "C162",
   "status": "partial",
   "theorems": [
    "OTR.Props.C162_1MHz",
    "OTR.Props.C162_delay_ms",
    "OTR.Props.C162_16MHz_partial",
    "OTR.Props.C162_refuted_16MHz",
    "OTR.Props.C162_arm_zero",
    "OTR.Props.C162_refuted_arm",
    "OTR.Props.C162_refuted_arm_ms",
    "OTR.Props.C162_refuted_arm_us"
   ],
   "note": "Refuted at 16 MHz for multiples of 64 us and on ARM; exact times proved."
  },
  {
   "property": "C163",
   "status": "proved",
   "theorems": [
    "OTR.Props.C163_running",
    "OTR.Props.C163_stopped",
    "OTR.Props.C163_found"
   ],
   "note": ""
  },
  {
   "property": "C164",
   "status": "partial",
   "theorems": [
    "OTR.Props.C164_sane",
    "OTR.Props.C164_good_clock",
    "OTR.Props.C164_pass_means",
    "OTR.Props.C164_refuted_wrap"
   ],
   "note": "That a pass implies the right ratio is refuted (byte wrap); the exact set of passing ratios is proved."
  },
  {
   "property": "C165",
   "status": "proved",
   "theorems": [
    "OTR.Props.C165_count",
    "OTR.Props.C165_success",
    "OTR.Props.C165_no_crystal",
    "OTR.Props.C165_range",
    "OTR.Props.C165_finds",
    "OTR.Props.C165_refuted_wrap"
   ],
   "note": ""
  },
  {
   "property": "C166",
   "status": "proved",
   "theorems": [
    "OTR.Props.C166_one_call"
   ],
   "note": ""
  },
  {
   "property": "C167",
   "status": "proved",
   "theorems": [
    "OTR.Props.C167_exactly_once",
    "OTR.Props.C167_from_new",
    "OTR.Props.C167_drains"
   ],
   "note": ""
  },
  {
   "property": "C168",
   "status": "partial",
   "theorems": [
    "OTR.Props.C168_sent_partial",
    "OTR.Props.C168_refuted_long",
    "OTR.Props.C168_begin"
   ],
   "note": "Messages of up to 127 bytes are sent exactly; longer ones lose their last 128 bytes although true is returned: refuted. (getCapacity() of the radio is 0 and isAvailable() stays false after begin(), so callers obeying them never send.)"
  },
  {
   "property": "C169",
   "status": "proved",
   "theorems": [
    "OTR.Props.C169_plain",
    "OTR.Props.C169_report",
    "OTR.Props.C169_whole_degrees"
   ],
   "note": "Whole degrees are the floor, also below zero: -0.5C is printed as -1C8."
  },
  {
   "property": "C170",
   "status": "partial",
   "theorems": [
    "OTR.Props.C170_optional_partial",
    "OTR.Props.C170_refuted"
   ],
   "note": "False with the JSON tail enabled: a missing sensor is read through NULL. Exact condition proved."
  },
  {
   "property": "C171",
   "status": "proved",
   "theorems": [
    "OTR.Props.C171_dump",
    "OTR.Props.C171_nothing"
   ],
   "note": "Temperature bytes 249..254 (never stored by compression of valid temperatures) overflow int16_t in the rounding and are not covered."
  },
  {
   "property": "C172",
   "status": "proved",
   "theorems": [
    "OTR.Props.C172_set",
    "OTR.Props.C172_clear",
    "OTR.Props.C172_resync",
    "OTR.Props.C172_transparent"
   ],
   "note": ""
  },
  {
   "property": "C173",
   "status": "partial",
   "theorems": [
    "OTR.Props.C173_confined_partial",
    "OTR.Props.C173_crash_partial",
    "OTR.Props.C173_refuted_words",
    "OTR.Props.C173_refuted_torn"
   ],
   "note": "Non-numbers are read as 0 and numbers are taken modulo 65536: refuted; a power failure between the two bytes leaves a mixed pair: refuted. What does hold is proved."
  },
  {
   "property": "C174",
   "status": "proved",
   "theorems": [
    "OTR.Props.C174_valve",
    "OTR.Props.C174_own_id"
   ],
   "note": ""
  },
  {
   "property": "C175",
   "status": "proved",
   "theorems": [
    "OTR.Props.C175_subsequence"
   ],
   "note": "Assumes the cipher cannot be forged and gives back what was encrypted. Transmitter power failures are as in C20. The receiver may lose power inside a counter update if both stored copies of that node's counter were good before it and the new counter is not within 255 of a multiple of 2^40 (C24 shows why)."
  },
  {
   "property": "C176",
   "status": "proved",
   "theorems": [
    "OTR.Props.C176_iv_unique"
   ],
   "note": "Power failures of a transmitter as in C20: not twice in a row without a completed call between; of the receiver as in C175."
  },
  {
   "property": "C177",
   "status": "proved",
   "theorems": [
    "OTR.Props.C177_delivered"
   ],
   "note": "For nodes the receiver has a good record of and finds by the ID bytes in the frame, with counters below 2^40-255 (C08), and no receiver power failure inside a counter update."
  },
  {
   "property": "C178",
   "status": "proved",
   "theorems": [
    "OTR.Props.C178_low_water_mark",
    "OTR.Props.C178_location"
   ],
   "note": "Interrupts are taken to run on the same stack, below what they interrupt."
  },
  {
   "property": "C179",
   "status": "partial",
   "theorems": [
    "OTR.Props.C179_warned_refuted",
    "OTR.Props.C179_no_false_alarm_partial",
    "OTR.Props.C179_when_partial"
   ],
   "note": "Refuted: a successful compare_exchange leaves the old mark in `min`, so the test is of the previous mark, and the unsigned difference never warns once the mark is below the end. Proved: no false alarm under any interrupts, and exactly when it is reported."
  },
  {
   "property": "C180",
   "status": "proved",
   "theorems": [
    "OTR.Props.C180_stack_check"
   ],
   "note": ""
  },
  {
   "property": "C181",
   "status": "partial",
   "theorems": [
    "OTR.Props.C181_call_table",
    "OTR.Props.C181_longest_refuted",
    "OTR.Props.C181_longest_partial"
   ],
   "note": "Call counts proved in full (up to 255 per period). Times: refuted, a call under way at the wrap of the sub-cycle clock freezes the entry; proved when each call ends in its sub-cycle."
  },
  {
   "property": "C182",
   "status": "proved",
   "theorems": [
    "OTR.Props.C182_days",
    "OTR.Props.C182_power_failure",
    "OTR.Props.C182_set",
    "OTR.Props.C182_effect"
   ],
   "note": ""
  },
  {
   "property": "C183",
   "status": "proved",
   "theorems": [
    "OTR.Props.C183_on_only_if_asked",
    "OTR.Props.C183_bounded"
   ],
   "note": "Hub mode throughout; as in C175 the cipher cannot be forged; hub restarts anywhere and power failures in a counter update are included, the latter with the limits of C175; no transmitter sends an O frame with an empty body (C76)."
  },
  {
   "property": "C184",
   "status": "proved",
   "theorems": [
    "OTR.Props.C184_asked_gets_heat"
   ],
   "note": "Counters below 2^40-255 (C08); minimum on time at least one minute; hub restarts are allowed before, but not in the on time claimed nor in the off time required, and no power failure inside a counter update."
  },
  {
   "property": "C185",
   "status": "proved",
   "theorems": [
    "OTR.Props.C185_rx_wear",
    "OTR.Props.C185_rx_confined"
   ],
   "note": "For a record as the updates leave it (both copies good; a new association gives one), counters below 2^40-255 (C08), no power failure inside an update."
  },
  {
   "property": "C186",
   "status": "proved",
   "theorems": [
    "OTR.Props.C186_tx_wear",
    "OTR.Props.C186_tx_confined",
    "OTR.Props.C186_tx_quiet"
   ],
   "note": ""
  },
  {
   "property": "C187",
   "status": "proved",
   "theorems": [
    "OTR.Props.C187_id_created",
    "OTR.Props.C187_returns",
    "OTR.Props.C187_stable",
    "OTR.Props.C187_power"
   ],
   "note": "Single byte writes are atomic."
  },
  {
   "property": "C188",
   "status": "partial",
   "theorems": [
    "OTR.Props.C188_clear_cut",
    "OTR.Props.C188_add_cut",
    "OTR.Props.C188_key_cut",
    "OTR.Props.C188_old_nodes_return",
    "OTR.Props.C188_mixed_key"
   ],
   "note": "The full claim is false: a clear cut off after its first write reads as empty, but adding a node brings the remaining old nodes back (C188_old_nodes_return); a key change cut off leaves a mixture that reads back as a valid key (C188_mixed_key). Proved: an interrupted clear leaves the table unchanged or reading as empty; an interrupted add changes nothing outside its row, and every node found before is found; an interrupted key change leaves a prefix of the new and the rest of the old key. Single byte writes are atomic."
  },
  {
   "property": "C189",
   "status": "partial",
   "theorems": [
    "OTR.Props.C189_add_keeps_counters",
    "OTR.Props.C189_id_key_keep_counters",
    "OTR.Props.C189_reassociation_resets"
   ],
   "note": "The full claim is false for re-association: clearing and adding a node again resets its counter with the same key, so recorded frames are accepted again (C189_reassociation_resets). Proved for adding other nodes, for creating the ID and for key changes."
  },
  {
   "property": "C190",
   "status": "proved",
   "theorems": [
    "OTR.Props.C190_warm_house_not_heated"
   ],
   "note": "The AEAD is assumed unforgeable in the sense of C180 (frames the hub accepts under the key were sent by a unit with the key)."
  },
  {
   "property": "C191",
   "status": "proved",
   "theorems": [
    "OTR.Props.C191_freezing_room_heated"
   ],
   "note": "Proportional valve model; the hub is assumed to receive the message (radio loss is the environment)."
  },
  {
   "property": "C192",
   "status": "proved",
   "theorems": [
    "OTR.Props.C192_stats_logged"
   ],
   "note": "Provisos as for C177/C184 (intact, fresh, associated); entries that do not fit in the frame are left for the next message (C64)."
  },
  {
   "property": "C193",
   "status": "proved",
   "theorems": [
    "OTR.Props.C193_heating_stops"
   ],
   "note": "The AEAD is assumed unforgeable in the sense of C180."
  },
  {
   "property": "C194",
   "status": "partial",
   "theorems": [
    "OTR.Props.C194_no_stuck_read",
    "OTR.Props.C194_right_input",
    "OTR.Props.C194_refuted_bandgap_power"
   ],
   "note": "Everything holds except that analogueVsBandgapRead leaves the ADC without power even if it had power before: refuted for that one."
  },
  {
   "property": "C195",
   "status": "partial",
   "theorems": [
    "OTR.Props.C195_internal_partial",
    "OTR.Props.C195_refuted_overflow",
    "OTR.Props.C195_refuted_timeout"
   ],
   "note": "Exact for readings 168..480; for all others, and for the time-out value, the 16-bit product overflows: refuted."
  },
  {
   "property": "C196",
   "status": "proved",
   "theorems": [
    "OTR.Props.C196_noise_kept"
   ],
   "note": ""
  },
  {
   "property": "C197",
   "status": "partial",
   "theorems": [
    "OTR.Props.C197_power_setup",
    "OTR.Props.C197_refuted_adc_clock"
   ],
   "note": "The power state is as stated. The ADC clock is refuted: powerSetup zeroes the divider, giving 500 kHz."
  },
  {
   "property": "C198",
   "status": "proved",
   "theorems": [
    "OTR.Props.C198_kept_warm",
    "OTR.Props.C198_no_frost"
   ],
   "note": "The room is arbitrary but for: readings between -118C and 62C, changing by at most 1/16C a minute (so the filter never starts, which is proved). Valve not glacial and allowed to open at least half way; binary and proportional valves. Zone edge is t - 9/16C."
  },
  {
   "property": "C199",
   "status": "proved",
   "theorems": [
    "OTR.Props.C199_not_overheated",
    "OTR.Props.C199_warm_setting"
   ],
   "note": "The room is arbitrary but for: readings between -118C and 62C, changing by at most 1/16C a minute (so the filter never starts, which is proved). Zone edge is t + 3/4C."
  },
  {
   "property": "C200",
   "status": "proved",
   "theorems": [
    "OTR.Props.C200_warmed_up"
   ],
   "note": ""
  },
  {
   "property": "C201",
   "status": "proved",
   "theorems": [
    "OTR.Props.C201_cooled_down",
    "OTR.Props.C201_setback_holds"
   ],
   "note": "C201_setback_holds shows why the target must be the warm setting: set back, the valve may stay 49% open for ever in a room that does not cool (documented in the source)."
  },
  {
   "property": "C202",
   "status": "partial",
   "theorems": [
    "OTR.Props.C202_relay",
    "OTR.Props.C202_refuted_before_setup"
   ],
   "note": "As stated once setup() has been called first. If set() comes before setup(), the device reports itself open while the relay is off, until the next set(): refuted for that order."
  },
  {
   "property": "C203",
   "status": "proved",
   "theorems": [
    "OTR.Props.C203_heater",
    "OTR.Props.C203_min_off",
    "OTR.Props.C203_min_on"
   ],
   "note": ""
  },
  {
   "property": "C204",
   "status": "proved",
   "theorems": [
    "OTR.Props.C204_heater_keeps_warm",
    "OTR.Props.C204_heater_not_overheated"
   ],
   "note": "Provisos as for C198/C199."
  },
  {
   "property": "C205",
   "status": "proved",
   "theorems": [
    "OTR.Props.C205_serial_output",
    "OTR.Props.C205_flushed"
   ],
   "note": "Under the condition C206 shows to be exact: nothing waits for the end of a transmission before the first byte since reset was printed."
  },
  {
   "property": "C206",
   "status": "partial",
   "theorems": [
    "OTR.Props.C206_ends_iff",
    "OTR.Props.C206_silent_hang_refuted",
    "OTR.Props.C206_banner_suffices"
   ],
   "note": "Exactly characterised: ends iff no waiting operation comes before the first printed byte since reset; a boot banner suffices. Refuted without it: an empty print-and-flush, or the message handler waking the port for a frame that prints nothing, waits for ever."
  },
  {
   "property": "C207",
   "status": "proved",
   "theorems": [
    "OTR.Props.C207_refresh",
    "OTR.Props.C207_extra_fits",
    "OTR.Props.C207_refuted_bad_name"
   ],
   "note": "For sensors with valid, distinct names (C207_refuted_bad_name shows why: a bad name stops the refresh of all sensors after it)."
  },
  {
   "property": "C208",
   "status": "proved",
   "theorems": [
    "OTR.Props.C208_values_sent"
   ],
   "note": "Composition of C207 with C106 (low priority stats are excepted there too)."
  },
  {
   "property": "C209",
   "status": "proved",
   "theorems": [
    "OTR.Props.C209_queue_refines",
    "OTR.Props.C209_on_only_if_asked"
   ],
   "note": "C209_on_only_if_asked is one instance of the transfer, of C183."
  },
  {
   "property": "C210",
   "status": "proved",
   "theorems": [
    "OTR.Props.C210_every_message_handled"
   ],
   "note": "The conclusion gives the state in which it was heard, so that C184 applies there."
  },
  {
   "property": "C211",
   "status": "proved",
   "theorems": [
    "OTR.Props.C211_sensors_logged"
   ],
   "note": "Hypotheses on arrival (`Report.Arrives`) are those of C184/C192 per frame; they are only asked for the frames up to the end of the window, and an example meets all of them for four frames."
  },
  {
   "property": "C212",
   "status": "proved",
   "theorems": [
    "OTR.Props.C212_read_ends"
   ],
   "note": "Converter and interrupt behaviour after the ATmega328P datasheet (environment), in the header of Model/AdcRun.lean."
  },
  {
   "property": "C213",
   "status": "proved",
   "theorems": [
    "OTR.Props.C213_genuine_value"
   ],
   "note": ""
  },
  {
   "property": "C214",
   "status": "partial",
   "theorems": [
    "OTR.Props.C214_next_read",
    "OTR.Props.C214_stays_on_refuted"
   ],
   "note": "Holds when the converter is powered down between reads (as everywhere in this library); refuted if the application keeps it powered."
  },
  {
   "property": "C215",
   "status": "proved",
   "theorems": [
    "OTR.Props.C215_queued_request_gets_heat",
    "OTR.Props.C215_queued_frost"
   ],
   "note": "the composition of C210 (every message gets its turn, now with what may be accepted before it) and C184 (call to boiler), with the ticks in any position"
  },
  {
   "property": "C216",
   "status": "proved",
   "theorems": [
    "OTR.Props.C216_eeprom_seeds",
    "OTR.Props.C216_keeps_state",
    "OTR.Props.C216_writes"
   ],
   "note": "noise sources, time and clock counters are inputs; avr-libc's _crc_ccitt_update is modelled from its documented C equivalent"
  },
  {
   "property": "C217",
   "status": "partial",
   "theorems": [
    "OTR.Props.C217_eight_changes",
    "OTR.Props.C217_steady_hang_refuted"
   ],
   "note": "what is missing is unconditional return, which is false"
  },
  {
   "property": "C218",
   "status": "proved",
   "theorems": [
    "OTR.Props.C218_every_count",
    "OTR.Props.C218_middle"
   ],
   "note": ""
  },
  {
   "property": "C219",
   "status": "partial",
   "theorems": [
    "OTR.Props.C219_reset_iff",
    "OTR.Props.C219_only_ticks",
    "OTR.Props.C219_hang_is_reset",
    "OTR.Props.C219_fed_never_reset",
    "OTR.Props.C219_stale_flag_refuted"
   ],
   "note": "all but the grace after enabling, which is refuted (the documented use, feeding then enabling, avoids it)"
  },
  {
   "property": "C220",
   "status": "partial",
   "theorems": [
    "OTR.Props.C220_no_reset",
    "OTR.Props.C220_returns",
    "OTR.Props.C220_slow_interrupt_resets",
    "OTR.Props.C220_ends",
    "OTR.Props.C220_lost_wakeup_refuted"
   ],
   "note": "ends without other interrupts: refuted; that the bound on interrupt time is needed is proved too"
  },
  {
   "property": "C221",
   "status": "proved",
   "theorems": [
    "OTR.Props.C221_resets",
    "OTR.Props.C221_ends"
   ],
   "note": ""
  },
  {
   "property": "C222",
   "status": "proved",
   "theorems": [
    "OTR.Props.C222_boiler_follows",
    "OTR.Props.C222_room_kept_warm"
   ],
   "note": "The system of C184 and the room of C198 together."
  },
  {
   "property": "C223",
   "status": "partial",
   "theorems": [
    "OTR.Props.C223_pitch_dark",
    "OTR.Props.C223_after_reading",
    "OTR.Props.C223_unknown_refuted",
    "OTR.Props.C223_exclusive_refuted",
    "OTR.Props.C223_unknown_not_lit"
   ],
   "note": "What is documented of an unknown light level is false of isRoomDark() and isRoomVeryDark()."
  },
  {
   "property": "C224",
   "status": "proved",
   "theorems": [
    "OTR.Props.C224_register",
    "OTR.Props.C224_blocks",
    "OTR.Props.C224_receive",
    "OTR.Props.C224_begin"
   ],
   "note": "Uninterrupted; with interrupts and radio events between the bytes see C225."
  },
  {
   "property": "C225",
   "status": "proved",
   "theorems": [
    "OTR.Props.C225_send",
    "OTR.Props.C225_listen",
    "OTR.Props.C225_poll",
    "OTR.Props.C225_follows_listen",
    "OTR.Props.C225_frame"
   ],
   "note": "A second begin() is not among the calls."
  },
  {
   "property": "C226",
   "status": "proved",
   "theorems": [
    "OTR.Props.C226_frames",
    "OTR.Props.C226_whole",
    "OTR.Props.C226_bytes"
   ],
   "note": "At byte level (C226_bytes) membership is proved, not order. In FIFO mode frames are 64 bytes read from the FIFO whatever was received (C136_fifo)."
  },
  {
   "property": "C227",
   "status": "proved",
   "theorems": [
    "OTR.Props.C227_at_most_255",
    "OTR.Props.C227_restart",
    "OTR.Props.C227_reached",
    "OTR.Props.C227_sendRaw_unlimited"
   ],
   "note": "C227_reached exhibits a history with exactly 255; C227_sendRaw_unlimited shows why sendRaw() is excluded."
  },
  {
   "property": "C228",
   "status": "proved",
   "theorems": [
    "OTR.Props.C228_set_result",
    "OTR.Props.C228_mock_result",
    "OTR.Props.C228_null_prefix",
    "OTR.Props.C228_get_last",
    "OTR.Props.C228_untouched",
    "OTR.Props.C228_add_erases",
    "OTR.Props.C228_mock_get_last",
    "OTR.Props.C228_tables_alike",
    "OTR.Props.C228_search_is_getNext",
    "OTR.Props.C228_search_first"
   ],
   "note": "C228_untouched and C228_add_erases together show that set(), unlike addNodeAssociation(), keeps the message counters of the row's previous node."
  },
  {
   "property": "C229",
   "status": "proved",
   "theorems": [
    "OTR.Props.C229_read_whole",
    "OTR.Props.C229_seconds",
    "OTR.Props.C229_set_whole",
    "OTR.Props.C229_restore",
    "OTR.Props.C229_no_tick_lost",
    "OTR.Props.C229_two_calls"
   ],
   "note": "C229_two_calls exhibits the mixture that two separate calls can return."
  },
  {
   "property": "C230",
   "status": "proved",
   "theorems": [
    "OTR.Props.C230_received",
    "OTR.Props.C230_lora"
   ],
   "note": "Each byte is written with interrupts off; the bit time is taken as constant within a byte."
  },
  {
   "property": "C231",
   "status": "proved",
   "theorems": [
    "OTR.Props.C231_within",
    "OTR.Props.C231_disjoint",
    "OTR.Props.C231_undisturbed",
    "OTR.Props.C231_key_kept",
    "OTR.Props.C231_commands"
   ],
   "note": "A counter passed to the receive-counter update has six bytes (as its declaration says)."
  },
  {
   "property": "C232",
   "status": "proved",
   "theorems": [
    "OTR.Props.C232_room_kept_warm"
   ],
   "note": ""
  },
  {
   "property": "C233",
   "status": "partial",
   "theorems": [
    "OTR.Props.C233_settings",
    "OTR.Props.C233_accepts_only",
    "OTR.Props.C233_accepts_again",
    "OTR.Props.C233_reported_id_refuted"
   ],
   "note": "The reported ID is refuted (last two bytes); the rest is proved."
  },
  {
   "property": "C234",
   "status": "partial",
   "theorems": [
    "OTR.Props.C234_slots",
    "OTR.Props.C234_fast_pin",
    "OTR.Props.C234_16MHz_refuted",
    "OTR.Props.C234_interrupts_off"
   ],
   "note": "Proved at 1 MHz (the clock it is \"designed to work with\"), where it links the whole slots of C138-C141 to the line; that the margin is needed is proved too. Refuted at 16 MHz, which the delay macros support."
  },
  {
   "property": "C235",
   "status": "proved",
   "theorems": [
    "OTR.Props.C235_roundtrip",
    "OTR.Props.C235_end_to_end",
    "OTR.Props.C235_minimal"
   ],
   "note": ""
  },
  {
   "property": "C236",
   "status": "partial",
   "theorems": [
    "OTR.Props.C236_understood",
    "OTR.Props.C236_refuted_refused",
    "OTR.Props.C236_refuted_timeout",
    "OTR.Props.C236_refuted_255"
   ],
   "note": "Proved under the stated conditions; refuted without them: for a modem that refuses, after a time-out, and at the 255th frame (the forced restart comes between announcement and data)."
  },
  {
   "property": "C237",
   "status": "proved",
   "theorems": [
    "OTR.Props.C237_one",
    "OTR.Props.C237_repeat"
   ],
   "note": ""
  },
  {
   "property": "C238",
   "status": "proved",
   "theorems": [
    "OTR.Props.C238_one",
    "OTR.Props.C238_key_changes",
    "OTR.Props.C238_progress",
    "OTR.Props.C238_old_goes_back"
   ],
   "note": "The invariant of C20 extended by key commands. C238_old_goes_back gives the limit of the claim."
  },
  {
   "property": "C239",
   "status": "proved",
   "theorems": [
    "OTR.Props.C239_silent"
   ],
   "note": ""
  },
  {
   "property": "C240",
   "status": "partial",
   "theorems": [
    "OTR.Props.C240_counts",
    "OTR.Props.C240_refuted_two_seconds"
   ],
   "note": "The count is proved; the length of the cycle is refuted."
  },
  {
   "property": "C241",
   "status": "partial",
   "theorems": [
    "OTR.Props.C241_byte",
    "OTR.Props.C241_print",
    "OTR.Props.C241_write",
    "OTR.Props.C241_number",
    "OTR.Props.C241_refuted_zero"
   ],
   "note": "Everything but the meaning of 0 is proved; that part is refuted."
  },
  {
   "property": "C242",
   "status": "proved",
   "theorems": [
    "OTR.Props.C242_load",
    "OTR.Props.C242_store",
    "OTR.Props.C242_exchange",
    "OTR.Props.C242_one_byte"
   ],
   "note": "The byte-level companion of C145."
  },
  {
   "property": "C243",
   "status": "proved",
   "theorems": [
    "OTR.Props.C243_read",
    "OTR.Props.C243_write",
    "OTR.Props.C243_works",
    "OTR.Props.C243_usage"
   ],
   "note": "7-bit addresses; the peripheral is an assumed model (one bus step between two polls at most)."
  },
  {
   "property": "C244",
   "status": "partial",
   "theorems": [
    "OTR.Props.C244_read",
    "OTR.Props.C244_init",
    "OTR.Props.C244_refuted_failure"
   ],
   "note": "Noticing a failed read is refuted."
  },
  {
   "property": "C245",
   "status": "partial",
   "theorems": [
    "OTR.Props.C245_reads_partial",
    "OTR.Props.C245_refuted_number",
    "OTR.Props.C245_begin"
   ],
   "note": "The missing part is refuted: numbers above 9 (C245_refuted_number), messages above 127 bytes (C168_refuted_long)."
  },
  {
   "property": "C246",
   "status": "proved",
   "theorems": [
    "OTR.Props.C246_agree",
    "OTR.Props.C246_bounds",
    "OTR.Props.C246_setback",
    "OTR.Props.C246_longer_never_warmer",
    "OTR.Props.C246_call_for_heat",
    "OTR.Props.C246_frost_end_to_end"
   ],
   "note": "As shipped the class cannot be used with the library's own occupancy tracker, which lacks the reportedRecently() it calls."
  },
  {
   "property": "C247",
   "status": "partial",
   "theorems": [
    "OTR.Props.C247_freezing_room_calls",
    "OTR.Props.C247_from_power_up",
    "OTR.Props.C247_warm_room_closed",
    "OTR.Props.C247_calls_only_if_open",
    "OTR.Props.C247_in_step",
    "OTR.Props.C247_refuted_uncalibrated"
   ],
   "note": "Missing: calling for heat with a proportional driver that has not been let calibrate (or is poorly calibrated), which is false: C247_refuted_uncalibrated shows it never calls, after any history."
  },
  {
   "property": "C248",
   "status": "proved",
   "theorems": [
    "OTR.Props.C248_no_error",
    "OTR.Props.C248_withdrawn",
    "OTR.Props.C248_normal"
   ],
   "note": ""
  },
  {
   "property": "C249",
   "status": "proved",
   "theorems": [
    "OTR.Props.C249_boiler_only_for_open_valve",
    "OTR.Props.C249_warm_house",
    "OTR.Props.C249_freezing_room_heated"
   ],
   "note": "the hub not losing power in the middle of a message in the third; what the applications report (not in the library) is the controller's position, or that only while it calls for heat"
  },
  {
   "property": "C250",
   "status": "proved",
   "theorems": [
    "OTR.Props.C250_kept_warm",
    "OTR.Props.C250_not_overheated",
    "OTR.Props.C250_house_kept_warm"
   ],
   "note": "the room and the motor's physical travel are assumptions, stated in full; the valve must be allowed to open fully, or (binary-only driver) to half, 66% with the hub"
  },
  {
   "property": "C251",
   "status": "proved",
   "theorems": [
    "OTR.Props.C251_last_set",
    "OTR.Props.C251_cleared",
    "OTR.Props.C251_on_now",
    "OTR.Props.C251_same_as_eeprom"
   ],
   "note": ""
  },
  {
   "property": "C252",
   "status": "partial",
   "theorems": [
    "OTR.Props.C252_nearest_partial",
    "OTR.Props.C252_below_zero",
    "OTR.Props.C252_constant_partial",
    "OTR.Props.C252_constant_refuted",
    "OTR.Props.C252_monotone",
    "OTR.Props.C252_filtered_reading"
   ],
   "note": "False below zero: the division truncates towards zero after a half is added, so sixteen equal negative readings average 1/16 C too much (C252_constant_refuted); C252_below_zero bounds the error."
  },
  {
   "property": "C253",
   "status": "proved",
   "theorems": [
    "OTR.Props.C253_dial_turned",
    "OTR.Props.C253_wiggle"
   ],
   "note": ""
  },
  {
   "property": "C254",
   "status": "proved",
   "theorems": [
    "OTR.Props.C254_dial",
    "OTR.Props.C254_button",
    "OTR.Props.C254_lasts"
   ],
   "note": ""
  },
  {
   "property": "C255",
   "status": "proved",
   "theorems": [
    "OTR.Props.C255_dial_up_opens",
    "OTR.Props.C255_calls"
   ],
   "note": "The mode is changed by nobody but the controls, and the dial is the source of the WARM temperature, as in the applications with a dial."
  },
  {
   "property": "C256",
   "status": "proved",
   "theorems": [
    "OTR.Props.C256_dial_down"
   ],
   "note": ""
  },
  {
   "property": "C257",
   "status": "proved",
   "theorems": [
    "OTR.Props.C257_bake_opens"
   ],
   "note": ""
  }
 ]
}