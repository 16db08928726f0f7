{
 "claims": [
  {
   "property": "C01",
   "status": "proved",
   "theorems": [
    "Queue.queue_is_bounded_fifo"
   ],
   "note": "negative lengths are excluded (they reach memcpy as huge counts)"
  },
  {
   "property": "C02",
   "status": "proved",
   "theorems": [
    "Queue.spsc_lock_free",
    "Queue.write_eq_plan"
   ],
   "note": "sequentially consistent memory; queue_write/queue_read pairs"
  },
  {
   "property": "C03",
   "status": "partial",
   "theorems": [
    "Queue.message_queue_is_fifo_partial",
    "Queue.message_queue_fails_at_65536"
   ],
   "note": "true for messages up to 65535 bytes; the code truncates longer lengths to 16 bits, shown by message_queue_fails_at_65536"
  },
  {
   "property": "C04",
   "status": "proved",
   "theorems": [
    "Crc.crc_itu16_append_check",
    "Crc.crc_itu32_append_check"
   ],
   "note": ""
  },
  {
   "property": "C05",
   "status": "proved",
   "theorems": [
    "Crc.crc_itu16_detects_bursts",
    "Crc.crc_itu32_detects_bursts"
   ],
   "note": ""
  },
  {
   "property": "C06",
   "status": "proved",
   "theorems": [
    "Crc.crc_calc_is_bit_serial",
    "Crc.crc_calc_is_incremental",
    "Crc.crc_calc_reads_len",
    "Crc.crc_itu16_bits_is_bit_serial"
   ],
   "note": ""
  },
  {
   "property": "C07",
   "status": "proved",
   "theorems": [
    "BitOps.bit_reverse8_mul_correct",
    "BitOps.bit_reverse8_shift_correct",
    "BitOps.bit_reverse16_correct",
    "BitOps.bit_reverse32_correct",
    "BitOps.bit_reverse_4bytes_correct",
    "BitOps.bit_reverse_8bytes_correct",
    "BitOps.bit_reverse_buffer_correct",
    "BitOps.bit_reverse_bytewise_correct",
    "BitOps.top_bit_correct",
    "BitOps.bottom_bit_correct",
    "BitOps.make_mask32_correct",
    "BitOps.make_mask16_correct",
    "BitOps.least_significant_one32_correct",
    "BitOps.most_significant_one32_shift_correct",
    "BitOps.most_significant_one32_zero",
    "BitOps.most_significant_one32_mask_correct",
    "BitOps.one_bits32_mul_correct",
    "BitOps.one_bits32_shift_correct",
    "BitOps.parity8_correct",
    "BitOps.parity16_correct",
    "BitOps.parity32_correct"
   ],
   "note": "the inline assembler versions are not modelled; the x86 variant of most_significant_one32 is undefined for 0"
  },
  {
   "property": "C08",
   "status": "proved",
   "theorems": [
    "Bitstream.bitstream_write_is_concatenation",
    "Bitstream.bitstream_round_trip",
    "Bitstream.bitstream_read_is_bits",
    "Bitstream.bitstream_drops_26_bits"
   ],
   "note": "for the documented widths of up to 25 bits; 26 bits are shown to be dropped"
  },
  {
   "property": "C09",
   "status": "proved",
   "theorems": [
    "Hdlc.hdlc_loopback",
    "Hdlc.hdlc_tx_completes",
    "Hdlc.hdlc_tx_preamble",
    "Hdlc.hdlc_tx_accepts"
   ],
   "note": "calls of hdlc_tx_abort, hdlc_tx_corrupt_frame and hdlc_tx_restart are excluded; they are meant to damage frames. The line must start with the flags the receiver needs, which hdlc_tx_preamble gives"
  },
  {
   "property": "C10",
   "status": "partial",
   "theorems": [
    "Hdlc.hdlc_rx_safe_partial",
    "Hdlc.hdlc_rx_only_overflows",
    "Hdlc.hdlc_rx_sound",
    "Hdlc.hdlc_rx_statistics",
    "Hdlc.hdlc_rx_bit_count_overflows"
   ],
   "note": "soundness of reports holds for all inputs; freedom from undefined behaviour holds up to 2^31 - 1 inputs, and hdlc_rx_bit_count_overflows shows that it fails at 2^31 zero bits (signed overflow of num_bits)"
  },
  {
   "property": "C11",
   "status": "proved",
   "theorems": [
    "Hdlc.hdlc_octets_are_bits",
    "Hdlc.hdlc_put_is_bits"
   ],
   "note": "octet values up to 255"
  },
  {
   "property": "C12",
   "status": "proved",
   "theorems": [
    "Hdlc.hdlc_tx_wire",
    "Hdlc.hdlc_tx_six_ones",
    "Hdlc.hdlc_stuffing_reversible"
   ],
   "note": ""
  },
  {
   "property": "C13",
   "status": "proved",
   "theorems": [
    "Async.async_loopback",
    "Async.async_keeps_fetching",
    "Async.async_too_many_stop_bits"
   ],
   "note": "data + parity + stop bits up to 16 (the shift register); async_too_many_stop_bits shows that beyond that a stop bit is sent as 0"
  },
  {
   "property": "C14",
   "status": "proved",
   "theorems": [
    "Async.async_detects_single_bit_errors",
    "Async.async_one_character",
    "Async.async_parity_misses_bit_8"
   ],
   "note": "up to 8 data bits; with 9 the parity function ignores the ninth bit, shown by async_parity_misses_bit_8"
  },
  {
   "property": "C15",
   "status": "proved",
   "theorems": [
    "G711.ulaw_code_round_trip",
    "G711.alaw_code_round_trip",
    "G711.g711_buffer_round_trip"
   ],
   "note": ""
  },
  {
   "property": "C16",
   "status": "proved",
   "theorems": [
    "G711.ulaw_error_bound",
    "G711.alaw_error_bound",
    "G711.ulaw_monotone",
    "G711.alaw_monotone",
    "G711.ulaw_symmetric",
    "G711.alaw_symmetric",
    "G711.ulaw_clip",
    "G711.alaw_clip",
    "G711.ulaw_defined_iff",
    "G711.alaw_defined_iff"
   ],
   "note": "A-law is symmetric about -1/2. int arguments within 132 of the ends of the range overflow in linear_to_ulaw, and the least int in linear_to_alaw, shown by the defined_iff theorems"
  },
  {
   "property": "C17",
   "status": "proved",
   "theorems": [
    "G711.ulaw_to_alaw_close",
    "G711.alaw_to_ulaw_close",
    "G711.ulaw_to_alaw_nearest",
    "G711.alaw_to_ulaw_nearest",
    "G711.transcode_monotone",
    "G711.transcode_buffer"
   ],
   "note": "the bound is a third of the sum of the two cell widths; the code chosen is the nearest to within an eighth of a cell"
  },
  {
   "property": "C18",
   "status": "proved",
   "theorems": [
    "Schedule.scheduler_is_correct",
    "Schedule.scheduler_runs_once",
    "Schedule.scheduler_never_early",
    "Schedule.scheduler_never_late",
    "Schedule.scheduler_negative_time_wraps"
   ],
   "note": "for times which are not negative and add up to less than 2^64 microseconds. An event scheduled from a callback may run in the same or in the next update"
  },
  {
   "property": "C24",
   "status": "proved",
   "theorems": [
    "Saturated.saturate16_correct",
    "Saturated.saturate15_correct",
    "Saturated.saturateu16_correct",
    "Saturated.saturateu8_correct",
    "Saturated.sat_add16_correct",
    "Saturated.sat_add16_x86_correct",
    "Saturated.sat_sub16_correct",
    "Saturated.sat_sub16_x86_correct",
    "Saturated.sat_add32_x86_correct",
    "Saturated.sat_sub32_x86_correct",
    "Saturated.sat_add32_wrap_correct",
    "Saturated.sat_sub32_wrap_correct",
    "Saturated.sat_add32_undefined_iff",
    "Saturated.sat_mul16_correct",
    "Saturated.sat_mul32_16_correct",
    "Saturated.sat_mac32_16_correct",
    "Saturated.sat_msu32_16_correct",
    "Saturated.sat_abs16_correct",
    "Saturated.sat_abs32_correct"
   ],
   "note": "the plain C versions of sat_add32 and sat_sub32 rely on wrapping sums; in standard C they are undefined exactly where they should clamp (sat_add32_undefined_iff). The x86 assembler versions do clamp"
  },
  {
   "property": "C19",
   "status": "partial",
   "theorems": [
    "Ima.ima_quantisation",
    "Ima.ima_lockstep",
    "Ima.ima_encode_overflow",
    "Ima.ima4_chunk_lockstep",
    "Ima.dvi4_chunk_lockstep_partial",
    "Ima.dvi4_odd_chunk_breaks",
    "Ima.vdvi_lockstep"
   ],
   "note": "in step for IMA4 and DVI4 without headers up to 2^31-1 samples (the count then overflows), IMA4 chunks, VDVI, and DVI4 chunks of even length; false for DVI4 chunks of odd length (dvi4_odd_chunk_breaks)"
  },
  {
   "property": "C20",
   "status": "partial",
   "theorems": [
    "Ima.ima_decode_safe_partial",
    "Ima.ima_decode_undefined_iff",
    "Ima.ima_decode_bad_header"
   ],
   "note": "false as stated: the step index in a header is not checked. The exact condition is proved"
  },
  {
   "property": "C21",
   "status": "proved",
   "theorems": [
    "Ima.vdvi_wire",
    "Ima.vdvi_decodes",
    "Ima.vdvi_lockstep"
   ],
   "note": ""
  },
  {
   "property": "C22",
   "status": "partial",
   "theorems": [
    "Oki.oki_rates",
    "Oki.oki_round_trip_32k",
    "Oki.oki_round_trip_24k",
    "Oki.oki_decode_defined",
    "Oki.oki_quantisation",
    "Oki.oki_encode_overflow",
    "Oki.oki_encode_empty_24k",
    "Oki.oki_encode_empty_32k"
   ],
   "note": "in step for every sequence of up to 2^31-1 samples, at both rates; beyond that the count of samples overflows, which oki_encode_overflow shows exactly. At 24kbps no call to the encoder may be empty"
  },
  {
   "property": "C23",
   "status": "partial",
   "theorems": [
    "Playout.playout_conserves",
    "Playout.playout_pointers",
    "Playout.playout_release",
    "Playout.playout_restart_empty",
    "Playout.playout_restart_leaks",
    "Playout.playout_put_accepts",
    "Playout.playout_get_due",
    "Playout.playout_put_place",
    "Playout.playout_order_iff_partial",
    "Playout.playout_in_order_partial",
    "Playout.playout_order_broken",
    "Playout.playout_step_count_overflows",
    "Playout.playout_step_count_overflows_example",
    "Playout.playout_steady_stream"
   ],
   "note": "conservation, and freedom from bad pointers and leaks, hold for every history. Sender order is false as stated: a frame whose place is second in the queue is put first (playout_order_broken). The exact condition is proved (playout_put_place, playout_order_iff_partial). A buffer of variable length overflows an int at its first speech frame (playout_step_count_overflows)"
  },
  {
   "property": "C30",
   "status": "partial",
   "theorems": [
    "Scrambler.v17_v29_polynomial",
    "Scrambler.v34_polynomial",
    "Scrambler.v22bis_polynomial",
    "Scrambler.v27ter_polynomial",
    "Scrambler.v17_descramble",
    "Scrambler.v29_descramble",
    "Scrambler.v34_descramble",
    "Scrambler.v32bis_descramble",
    "Scrambler.v22bis_descramble",
    "Scrambler.v27ter_descramble",
    "Scrambler.v17_self_synchronises",
    "Scrambler.v29_self_synchronises",
    "Scrambler.v34_self_synchronises",
    "Scrambler.v22bis_self_synchronises_partial",
    "Scrambler.v27ter_self_synchronises_partial",
    "Scrambler.v22bis_never_synchronises",
    "Scrambler.v27ter_never_synchronises",
    "Scrambler.v17_error_extension",
    "Scrambler.v29_error_extension",
    "Scrambler.v17_training",
    "Scrambler.v17_data_follows_training",
    "Scrambler.v29_training",
    "Scrambler.v27ter_training"
   ],
   "note": "in step every descrambler undoes its scrambler. V.17, V.29, V.32bis and V.34 recover in 23 bits. V.22bis and V.27ter need in addition a line bit which clears the guard count; without one they may never recover, which is shown"
  },
  {
   "property": "C25",
   "status": "partial",
   "theorems": [
    "Bert.loopback_synchronises",
    "Bert.loopback_no_bad_bits",
    "Bert.counts_each_error",
    "Bert.few_errors_keep_step",
    "Bert.keeps_step_iff",
    "Bert.text_counts_characters_partial",
    "Bert.text_undercounts",
    "Bert.late_join_partial",
    "Bert.late_join_false_error",
    "Bert.recovers_partial"
   ],
   "note": "proved for all the patterns but the text, which counts bad characters; late_join and recovers leave out the 2^20-1 pattern, for which late joining is refuted; counters are unbounded"
  },
  {
   "property": "C34",
   "status": "proved",
   "theorems": [
    "Bert.sent_limit",
    "Bert.fixed_pattern",
    "Bert.random_pattern",
    "Bert.limited_pattern",
    "Bert.limited_runs",
    "Bert.limited_period",
    "Bert.text_pattern",
    "Bert.follows_exists",
    "Bert.follows_unique",
    "Bert.random_period",
    "Bert.random_words"
   ],
   "note": ""
  },
  {
   "property": "C35",
   "status": "proved",
   "theorems": [
    "Bert.reports_error_rate",
    "Bert.tables_in_range"
   ],
   "note": "the verdict is the one the code documents by its thresholds: more than ten errors in 10^(i+1) bits, judged every 10^(i+1) bits"
  },
  {
   "property": "C33",
   "status": "partial",
   "theorems": [
    "Silence.silence_follows",
    "Silence.silence_follows_partial",
    "Silence.silence_total",
    "Silence.silence_always",
    "Silence.silence_cut_not_reported",
    "Silence.silence_generated_counts_alterations",
    "Silence.silence_shortened_undefined",
    "Silence.silence_always_altered"
   ],
   "note": "Proved for all runs without alterations, for all runs whose alterations add, and for all runs in which nothing overflows. The full claim fails: shortening may overflow, and completion is not told when the silence is cut to nothing."
  },
  {
   "property": "C31",
   "status": "proved",
   "theorems": [
    "Gsm.wav49_round_trip",
    "Gsm.voip_round_trip",
    "Gsm.none_round_trip",
    "Gsm.wav49_format",
    "Gsm.voip_format",
    "Gsm.none_format",
    "Gsm.wav49_unique",
    "Gsm.voip_unique",
    "Gsm.voip_magic_unchecked",
    "Gsm.none_unchecked"
   ],
   "note": "By running the packing programs on symbolic bits."
  },
  {
   "property": "C32",
   "status": "proved",
   "theorems": [
    "NonEcm.image_preserved",
    "NonEcm.image_flows",
    "NonEcm.tcf_flows",
    "NonEcm.inject_append",
    "NonEcm.overrun",
    "NonEcm.zeros_before_transition"
   ],
   "note": "images and TCFs, over schedules which do not overflow the buffer; overrun is the witness that the condition is needed"
  },
  {
   "property": "C36",
   "status": "partial",
   "theorems": [
    "NonEcm.row_lengths_partial",
    "NonEcm.image_flows",
    "NonEcm.first_row_stretched",
    "NonEcm.first_row_short"
   ],
   "note": "proved for every row but the first, and for the first with its count eight short as in the code; the two witnesses show that the full statement is false of the first row"
  },
  {
   "property": "C26",
   "status": "proved",
   "theorems": [
    "Qm.round_trip",
    "Qm.encoder_in_table",
    "Qm.encoder_71"
   ],
   "note": "for every sequence of decisions and contexts, any marker behind the data, and any division of the data into pieces; the contexts agree after it, so stripes may be chained"
  },
  {
   "property": "C27",
   "status": "proved",
   "theorems": [
    "Qm.no_marker",
    "Qm.output_grows"
   ],
   "note": "before and after the flush"
  },
  {
   "property": "C37",
   "status": "proved",
   "theorems": [
    "Qm.decoder_safe",
    "Qm.decoder_reads",
    "Qm.decoder_pieces"
   ],
   "note": "for any octets"
  },
  {
   "property": "C28",
   "status": "partial",
   "theorems": [
    "V42bis.v42bis_round_trip_partial",
    "V42bis.never_mode_round_trip",
    "V42bis.always_mode_round_trip",
    "V42bis.delivered_is_prefix",
    "V42bis.plain_round_trip",
    "V42bis.init_accepts_too_much",
    "V42bis.close_flushes_lose_data",
    "V42bis.flush_may_not_deliver",
    "V42bis.decompress_flush_changes_data"
   ],
   "note": "proved for P1 up to 4096, any data, modes and splits, flushes at least N7 octets apart, one flush of the decompressor at the end; the witnesses show that the rest is false"
  },
  {
   "property": "C29",
   "status": "partial",
   "theorems": [
    "V42bis.decompress_any_input_partial",
    "V42bis.step_up_to_a_fault"
   ],
   "note": "proved for every stream in which the code size does not reach 13 bits; the witness shows that the full statement is false"
  },
  {
   "property": "C38",
   "status": "proved",
   "theorems": [
    "T4.page_round_trip",
    "T4.read_until_short",
    "T4.odd_width_fails"
   ],
   "note": "Widths of whole octets; odd_width_fails shows what happens for others."
  },
  {
   "property": "C40",
   "status": "proved",
   "theorems": [
    "T4.encoder_in_buffer",
    "T4.encoder_overrun"
   ],
   "note": "encoder_overrun shows that a greater minimum number of bits per row makes the encoder write beyond its buffer."
  },
  {
   "property": "C39",
   "status": "partial",
   "theorems": [
    "T4.zero_runs_fault",
    "T4.pass_codes_fault",
    "T4.after_the_end_fault"
   ],
   "note": "The property is false of the code: three witnesses."
  },
  {
   "property": "C41",
   "status": "proved",
   "theorems": [
    "T38.packets_heard",
    "T38.heard_once",
    "T38.heard_all",
    "T38.version0_empty_fields",
    "T38.many_fields",
    "T38.send_overrun",
    "T38.missing_goes_down"
   ],
   "note": "For messages which fit in a packet of 1000 octets, with fewer than 128 fields, and in version 0 with octets in each field but the last; the other theorems show what happens otherwise."
  },
  {
   "property": "C42",
   "status": "proved",
   "theorems": [
    "T38.stream_heard",
    "T38.tpkt_short_header"
   ],
   "note": "With TPKT for an application which waits for four octets; tpkt_short_header shows what happens otherwise."
  },
  {
   "property": "C43",
   "status": "proved",
   "theorems": [
    "T38.rx_any",
    "T38.rx_packet_any"
   ],
   "note": "For every state and every octet string."
  },
  {
   "property": "C44",
   "status": "partial",
   "theorems": [
    "V42.in_order_partial",
    "V42.opening_start",
    "V42.early_data_lost",
    "V42.spurious_disconnect",
    "V42.ack_not_sent"
   ],
   "note": "Missing: a repeated SABME, with which the code loses data (early_data_lost)."
  },
  {
   "property": "C45",
   "status": "proved",
   "theorems": [
    "V42.busy_holds"
   ],
   "note": ""
  },
  {
   "property": "C46",
   "status": "proved",
   "theorems": [
    "V42.xid_no_effect",
    "V42.param_agreed"
   ],
   "note": ""
  },
  {
   "property": "C47",
   "status": "partial",
   "theorems": [
    "V42.receive_safe_partial",
    "V42.short_frames"
   ],
   "note": "All frames but XID frames and frames of two octets; the code breaks it for those (short_frames)."
  },
  {
   "property": "C48",
   "status": "proved",
   "theorems": [
    "T85.t85_round_trip"
   ],
   "note": ""
  },
  {
   "property": "C49",
   "status": "partial",
   "theorems": [
    "T85.t85_next_page_partial",
    "T85.t85_next_page_width_lost"
   ],
   "note": "Missing: a change of the width, with which the code breaks it."
  },
  {
   "property": "C50",
   "status": "partial",
   "theorems": [
    "T85.t85_any_data",
    "T85.t85_row_memory_partial",
    "T85.t85_row_memory_missing"
   ],
   "note": "The rows: proved. The memory: not for rejected headers and widths next to 2^32, where the code breaks it."
  },
  {
   "property": "C51",
   "status": "partial",
   "theorems": [
    "T85.t85_analyse_header_partial",
    "T85.t85_analyse_header_wrong"
   ],
   "note": "Only the refusal of short data holds; the code breaks the rest."
  },
  {
   "property": "C52",
   "status": "partial",
   "theorems": [
    "T85.t85_image_complete_partial",
    "T85.t85_image_complete_early"
   ],
   "note": "One direction; the code breaks the other."
  },
  {
   "property": "C53",
   "status": "partial",
   "theorems": [
    "Ecm.ecm_delivers_partial",
    "Ecm.early_timer_loses_a_page",
    "Ecm.early_complete_truncates"
   ],
   "note": "Missing: a response timer which runs out while the response is under way, and encoders which say too early or too late that a page is complete. In both cases the code breaks the property."
  },
  {
   "property": "C54",
   "status": "partial",
   "theorems": [
    "Ecm.ecm_lossless",
    "Ecm.ecm_resumes_partial",
    "Ecm.ecm_timeout_recovers_partial",
    "Ecm.lost_confirmation_fails",
    "Ecm.busy_receiver_fails"
   ],
   "note": "Lossless transfers: proved. Recovery: proved from the start of a burst and from a time-out of the sender while the receiver waits for frames; in two other situations the code breaks it."
  },
  {
   "property": "C55",
   "status": "proved",
   "theorems": [
    "Ecm.rx_hands_over_whole_blocks",
    "Ecm.rx_hands_over_only_received",
    "Ecm.complaint_exact",
    "Ecm.repetition_exact"
   ],
   "note": ""
  },
  {
   "property": "C56",
   "status": "proved",
   "theorems": [
    "Sprt.delivers_in_order",
    "Sprt.nothing_invented",
    "Sprt.never_far_ahead"
   ],
   "note": ""
  },
  {
   "property": "C57",
   "status": "partial",
   "theorems": [
    "Sprt.endpoint_is_safe_partial",
    "Sprt.endpoint_fits",
    "Sprt.pair_is_safe_partial",
    "Sprt.late_ack_is_unsafe"
   ],
   "note": "Missing: datagrams which arrive after the endpoint gave a payload up; there the code breaks the property."
  },
  {
   "property": "C58",
   "status": "partial",
   "theorems": [
    "Sprt.parameters_within_limits_partial",
    "Sprt.parameters_are_ignored",
    "Sprt.parameters_are_taken"
   ],
   "note": "The limits: proved. That the parameters are used: the code breaks it."
  },
  {
   "property": "C59",
   "status": "proved",
   "theorems": [
    "Sprt.loss_is_made_good"
   ],
   "note": ""
  },
  {
   "property": "C60",
   "status": "proved",
   "theorems": [
    "Sprt.never_stalls",
    "Sprt.acknowledgements_are_sent"
   ],
   "note": ""
  },
  {
   "property": "C61",
   "status": "proved",
   "theorems": [
    "Sprt.busy_is_respected",
    "Sprt.nothing_while_busy"
   ],
   "note": ""
  },
  {
   "property": "C62",
   "status": "partial",
   "theorems": [
    "Adsi.messages_arrive_partial",
    "Adsi.message_arrives_after_anything_partial",
    "Adsi.sixteen_octets_are_lost",
    "Adsi.many_stop_bits_lose_messages"
   ],
   "note": "Missing: J-CLIP messages with 16 octets and more than 11 stop bits, where the code breaks the property; fewer than 20 ones in the preamble."
  },
  {
   "property": "C63",
   "status": "proved",
   "theorems": [
    "Adsi.anything_is_safe",
    "Adsi.digits_are_safe",
    "Adsi.chars_are_safe",
    "Adsi.digits_are_cut"
   ],
   "note": ""
  },
  {
   "property": "C64",
   "status": "proved",
   "theorems": [
    "Adsi.damage_is_noticed"
   ],
   "note": ""
  },
  {
   "property": "C65",
   "status": "partial",
   "theorems": [
    "Adsi.fields_arrive_partial",
    "Adsi.single_field_arrives",
    "Adsi.jclip_fields_arrive_partial",
    "Adsi.digit_fields_arrive",
    "Adsi.plain_number_is_a_field",
    "Adsi.sixteen_octets_are_misread",
    "Adsi.dle_is_misread"
   ],
   "note": "Missing: fields of 16 octets, and bodies with DLE in J-CLIP, where the code breaks the property."
  },
  {
   "property": "C66",
   "status": "partial",
   "theorems": [
    "Adsi.walking_moves_on",
    "Adsi.field_lies_within",
    "Adsi.jclip_walk_is_safe",
    "Adsi.single_walk_is_safe",
    "Adsi.digit_walk_is_safe_partial",
    "Adsi.walk_reads_outside"
   ],
   "note": "Missing: reads within the message for malformed messages of CLASS, CLIP, A-CLIP and of digits with only the end mark; there the code breaks the property."
  },
  {
   "property": "C67",
   "status": "partial",
   "theorems": [
    "Adsi.text_arrives_partial",
    "Adsi.text_is_garbled",
    "Adsi.baudot_reads_outside"
   ],
   "note": "Missing: text after a message which ended in figures, and octets from 128 on; there the code breaks the property."
  },
  {
   "property": "C68",
   "status": "partial",
   "theorems": [
    "Nego.frames_are_well_formed",
    "Nego.dis_says_what_a_terminal_has_partial",
    "Nego.grey_receiver_is_sent_colour",
    "Nego.hundred_dpi_is_never_sent"
   ],
   "note": "Missing: settings which share a bit with another, where the frame cannot tell them apart, and grey against colour, where the code sets a bit wrongly."
  },
  {
   "property": "C69",
   "status": "partial",
   "theorems": [
    "Nego.dcs_keeps_to_the_dis_partial",
    "Nego.twelve_bits_are_sent_unasked",
    "Nego.rescaled_page_has_two_widths"
   ],
   "note": "Missing: pages which have to be rescaled, and the bits for full colour and twelve bits; there the code breaks the property."
  },
  {
   "property": "C70",
   "status": "partial",
   "theorems": [
    "Nego.both_ends_agree_partial",
    "Nego.standard_page_always_sent",
    "Nego.unpaired_resolution_is_refused",
    "Nego.two_dimensional_only_is_refused",
    "Nego.shared_colour_bit_is_refused",
    "Nego.bilevel_200_is_refused_in_colour",
    "Nego.t43_only_is_refused"
   ],
   "note": "Missing: receivers with one of two settings which share a bit, or without one-dimensional coding, and rescaled pages; there the code breaks the property."
  },
  {
   "property": "C71",
   "status": "proved",
   "theorems": [
    "Nego.steps_down_end",
    "Nego.disabled_modem_is_used",
    "Nego.unoffered_modem_is_accepted"
   ],
   "note": ""
  },
  {
   "property": "C72",
   "status": "partial",
   "theorems": [
    "Nego.any_dcs_is_safe_partial",
    "Nego.long_dcs_overflows"
   ],
   "note": "Missing: frames of 26 octets or more, where the code writes outside of an array."
  },
  {
   "property": "C73",
   "status": "proved",
   "theorems": [
    "Nego.rows_last_long_enough",
    "Nego.requested_row_time_is_kept"
   ],
   "note": ""
  },
  {
   "property": "C74",
   "status": "proved",
   "theorems": [
    "V8.cm_arrives",
    "V8.cm_arrives_afresh",
    "V8.v92_not_told"
   ],
   "note": "The modulations which have a bit in the messages; V.92 has none."
  },
  {
   "property": "C75",
   "status": "partial",
   "theorems": [
    "V8.both_agree",
    "V8.protocols_differ",
    "V8.continue_garbles",
    "V8.continue_loses"
   ],
   "note": "Missing: the protocols, on which the ends may disagree in this code."
  },
  {
   "property": "C76",
   "status": "partial",
   "theorems": [
    "V8.any_bits_partial",
    "V8.decode_ends",
    "V8.nsf_never_ends",
    "V8.nsf_hangs"
   ],
   "note": "Missing: messages with an octet for non-standard facilities, on which the code hangs."
  },
  {
   "property": "C77",
   "status": "proved",
   "theorems": [
    "V8.cj_after_cm",
    "V8.seen_stays"
   ],
   "note": ""
  },
  {
   "property": "C78",
   "status": "partial",
   "theorems": [
    "V8.success_means",
    "V8.one_report_partial",
    "V8.offered_first",
    "V8.over_for_good",
    "V8.two_reports"
   ],
   "note": "Missing: answerers which hear a calling tone, where the code breaks the property."
  },
  {
   "property": "C79",
   "status": "proved",
   "theorems": [
    "V8.caller_in_time",
    "V8.ansam_heard",
    "V8.answerer_in_time",
    "V8.cj_in_time",
    "V8.ends_when_sent",
    "V8.waits_for_ever"
   ],
   "note": "The wait for an answer tone without CI is not bounded."
  },
  {
   "property": "C80",
   "status": "proved",
   "theorems": [
    "V8.caller_sends",
    "V8.cm_too_early",
    "V8.v92_too_late"
   ],
   "note": ""
  },
  {
   "property": "C81",
   "status": "partial",
   "theorems": [
    "G722.encode_any_partial",
    "G722.decode_any",
    "G722.odd_overreads"
   ],
   "note": "Missing: odd numbers of samples at 16000 samples a second, on which the code reads beyond the array."
  },
  {
   "property": "C82",
   "status": "proved",
   "theorems": [
    "G722.lockstep",
    "G722.embedded"
   ],
   "note": ""
  },
  {
   "property": "C83",
   "status": "proved",
   "theorems": [
    "G722.packed_lockstep",
    "G722.packed_lags"
   ],
   "note": ""
  },
  {
   "property": "C84",
   "status": "proved",
   "theorems": [
    "G722.follows_signal"
   ],
   "note": ""
  },
  {
   "property": "C85",
   "status": "proved",
   "theorems": [
    "ContactId.report_arrives",
    "ContactId.refused",
    "ContactId.reports_arrive",
    "ContactId.groups_of_sixteen",
    "ContactId.check_digit_D",
    "ContactId.too_long"
   ],
   "note": ""
  },
  {
   "property": "C86",
   "status": "partial",
   "theorems": [
    "ContactId.wrong_digit_partial",
    "ContactId.zero_for_D",
    "ContactId.lost_digit",
    "ContactId.lost_digit_wrong"
   ],
   "note": "Missing: 0 taken for D or the other way round, which the code does not notice; proved as such."
  },
  {
   "property": "C87",
   "status": "proved",
   "theorems": [
    "ContactId.any_digits",
    "ContactId.handshake_sent",
    "ContactId.kissoff_sent",
    "ContactId.message_in_kissoff"
   ],
   "note": ""
  },
  {
   "property": "C88",
   "status": "proved",
   "theorems": [
    "ContactId.report_delivered",
    "ContactId.heard_message",
    "ContactId.no_retry"
   ],
   "note": ""
  },
  {
   "property": "C89",
   "status": "partial",
   "theorems": [
    "ContactId.success_means",
    "ContactId.handshake_first",
    "ContactId.in_time_partial",
    "ContactId.fails_in_silence",
    "ContactId.rx_append",
    "ContactId.rx_block",
    "ContactId.busy_for_ever",
    "ContactId.two_results",
    "ContactId.success_of_nothing",
    "ContactId.second_not_watched",
    "ContactId.refused_fails",
    "ContactId.deaf"
   ],
   "note": "Missing: a result in time for reports after the first; the code has no timer for them, which is proved."
  },
  {
   "property": "C90",
   "status": "proved",
   "theorems": [
    "V8.jm_sent",
    "V8.jm_sent_on",
    "V8.gateway_waits",
    "V8.answerer_sends",
    "V8.answerer_sends_on",
    "V8.cj_in_time"
   ],
   "note": ""
  },
  {
   "property": "C91",
   "status": "proved",
   "theorems": [
    "G726.encode_any",
    "G726.decode_any",
    "G726.cfg_valid"
   ],
   "note": ""
  },
  {
   "property": "C92",
   "status": "proved",
   "theorems": [
    "G726.lockstep",
    "G726.heard"
   ],
   "note": ""
  },
  {
   "property": "C93",
   "status": "partial",
   "theorems": [
    "G726.same_cell",
    "G726.error_bound_partial",
    "G726.overload_wraps"
   ],
   "note": "Missing: values beyond full scale, which the linear decoder wraps; proved as such. The outermost codes have no outer level."
  },
  {
   "property": "C94",
   "status": "proved",
   "theorems": [
    "G726.tandem",
    "G726.tandem_step",
    "G726.alaw_lower",
    "G726.alaw_higher",
    "G726.ulaw_lower",
    "G726.ulaw_higher"
   ],
   "note": ""
  },
  {
   "property": "C95",
   "status": "proved",
   "theorems": [
    "ContactId.digits_in_order",
    "ContactId.put_whole"
   ],
   "note": ""
  },
  {
   "property": "C96",
   "status": "proved",
   "theorems": [
    "V18.text_arrives",
    "V18.own_echo"
   ],
   "note": "The modem is taken to ask for a code when it is ready for one and to hand over the codes it gets. The option for repeated shifts has no effect (V18.repeat_never)."
  },
  {
   "property": "C97",
   "status": "proved",
   "theorems": [
    "V18.dtmf_arrives",
    "V18.dtmf_in_order"
   ],
   "note": ""
  },
  {
   "property": "C98",
   "status": "partial",
   "theorems": [
    "V18.known_codes_partial",
    "V18.space_lost",
    "V18.unknown_code_undefined",
    "V18.letter_repeats",
    "V18.overflow"
   ],
   "note": "Proved for sequences of codes in the table other than ##0; false for others, with witnesses."
  },
  {
   "property": "C99",
   "status": "proved",
   "theorems": [
    "SuperTone.cadence",
    "SuperTone.fifth_level_unheard",
    "SuperTone.hangs"
   ],
   "note": "The last two show that the conditions are needed."
  },
  {
   "property": "C100",
   "status": "proved",
   "theorems": [
    "ToneGen.cadence",
    "ToneGen.hangs"
   ],
   "note": "The last shows that the condition is needed."
  },
  {
   "property": "C101",
   "status": "partial",
   "theorems": [
    "T31.data_goes_out_partial",
    "T31.stuff_text",
    "T31.last_lost",
    "T31.overrun",
    "T31.stuck"
   ],
   "note": "Proved if one octet of the room is left with double escapes. The last octet may be lost otherwise (last_lost), and a computer which is told to wait may never be told to go on (stuck)."
  },
  {
   "property": "C102",
   "status": "proved",
   "theorems": [
    "T31.page_told",
    "T31.stuff_text"
   ],
   "note": ""
  },
  {
   "property": "C103",
   "status": "partial",
   "theorems": [
    "T31.frame_told_partial",
    "T31.stuff_text",
    "T31.long_frame_overflows",
    "T31.dle_frame_overflows"
   ],
   "note": "Proved for frames which make up to 256 octets with escapes. Longer ones overflow."
  },
  {
   "property": "C104",
   "status": "partial",
   "theorems": [
    "T31.frames_go_out_partial",
    "T31.long_frame_from_computer"
   ],
   "note": "Proved for frames of up to 284 octets. Longer ones overflow."
  },
  {
   "property": "C105",
   "status": "proved",
   "theorems": [
    "At.safe",
    "At.divided",
    "At.line_runs",
    "At.long_line"
   ],
   "note": ""
  },
  {
   "property": "C106",
   "status": "partial",
   "theorems": [
    "At.in_order_partial",
    "At.exec_ends",
    "At.unknown_ok"
   ],
   "note": "A command which is not known is answered with OK (unknown_ok)."
  },
  {
   "property": "C107",
   "status": "partial",
   "theorems": [
    "At.num_partial",
    "At.num_overflows",
    "At.hex_partial",
    "At.hex_wrong"
   ],
   "note": "Larger decimal numbers overflow (num_overflows); the hexadecimal digits A to F are read as 0 to 5 (hex_wrong)."
  },
  {
   "property": "C108",
   "status": "proved",
   "theorems": [
    "At.found",
    "At.word_found",
    "At.command_found",
    "At.table_fits"
   ],
   "note": ""
  },
  {
   "property": "C109",
   "status": "proved",
   "theorems": [
    "Power.meter_range",
    "Power.meter_settles",
    "Power.rx_returns_zero"
   ],
   "note": "The last shows that the function for blocks returns 0 and not the reading."
  },
  {
   "property": "C110",
   "status": "partial",
   "theorems": [
    "Power.surge_range_partial",
    "Power.surge_overflows"
   ],
   "note": "Proved for ratios below 3 dB. With 6 dB a product overflows (surge_overflows)."
  },
  {
   "property": "C111",
   "status": "proved",
   "theorems": [
    "Calendar.date"
   ],
   "note": "Offsets are those a zone can have. Which offset a zone has at a time is not modelled."
  },
  {
   "property": "C112",
   "status": "proved",
   "theorems": [
    "Calendar.tomorrow",
    "Calendar.one_day"
   ],
   "note": "The second shows that the calendar of the specification has one day for each number of days."
  },
  {
   "property": "C113",
   "status": "proved",
   "theorems": [
    "T35.country",
    "T35.rev_bits",
    "T35.country_as_is",
    "T35.country_name"
   ],
   "note": "Turned round is told by rev_bits."
  },
  {
   "property": "C114",
   "status": "partial",
   "theorems": [
    "T35.maker_found",
    "T35.maker_right",
    "T35.machine_found_partial",
    "T35.decode_safe",
    "T35.machine_hidden",
    "T35.short_messages_overread"
   ],
   "note": "All makers, and all machines but one, for messages of three bytes or more. The last two show what fails for the rest."
  },
  {
   "property": "C115",
   "status": "proved",
   "theorems": [
    "Calendar.julian",
    "Calendar.day_of_year",
    "Calendar.nth_day"
   ],
   "note": "How rules are read is not modelled; their numbers are those which get_rule lets pass."
  },
  {
   "property": "C116",
   "status": "partial",
   "theorems": [
    "Calendar.summer_north_partial",
    "Calendar.winter_north_partial",
    "Calendar.summer_south_partial",
    "Calendar.winter_south_partial",
    "Calendar.standard_before",
    "Calendar.no_summer_after_2037",
    "Calendar.july_2038"
   ],
   "note": "Proved for the years 1970 to 2037. The last two show that it fails afterwards, as no changes of later years are listed."
  },
  {
   "property": "C117",
   "status": "proved",
   "theorems": [
    "Calendar.parse_zone",
    "Calendar.parse_bare",
    "Calendar.parse_fixed",
    "Calendar.semicolon"
   ],
   "note": "Names are of at most 254 characters, as the two share a buffer of 512."
  },
  {
   "property": "C118",
   "status": "proved",
   "theorems": [
    "Calendar.parse_in",
    "Calendar.answers",
    "Calendar.answers_fixed"
   ],
   "note": ""
  },
  {
   "property": "C119",
   "status": "proved",
   "theorems": [
    "Calendar.only_fixed",
    "Calendar.only_zone"
   ],
   "note": "A semicolon in place of the first comma is accepted after an offset of summer time."
  },
  {
   "property": "C120",
   "status": "proved",
   "theorems": [
    "VecInt.circular_dot"
   ],
   "note": ""
  },
  {
   "property": "C121",
   "status": "proved",
   "theorems": [
    "VecInt.circular_lms"
   ],
   "note": ""
  },
  {
   "property": "C122",
   "status": "proved",
   "theorems": [
    "VecInt.extremes"
   ],
   "note": ""
  },
  {
   "property": "C123",
   "status": "proved",
   "theorems": [
    "VecInt.circular_cdot"
   ],
   "note": ""
  },
  {
   "property": "C124",
   "status": "partial",
   "theorems": [
    "VecInt.circular_clms_partial",
    "VecInt.clms_overflow"
   ],
   "note": "Proved for errors whose real part is above -32768. The second shows that it fails where all parts are -32768."
  }
 ]
}