{"id": "C01", "title": "Byte queue is a bounded FIFO", "statement": "After queue_init(len), any sequence of queue_write, queue_write_byte, queue_read, queue_read_byte, queue_view and queue_flush calls returns exactly what a FIFO of capacity len returns: the bytes come out in the order they went in, nothing is lost, duplicated or invented, the returned counts and the -1/0 refusals (atomic and non-atomic modes) are those of the FIFO, and queue_contents / queue_free_space / queue_empty report its true occupancy. No call touches memory outside the buffer.", "quantifier": "every capacity, every flag setting, every finite sequence of calls with every argument", "why_tests_cant": "wrap-around positions times lengths times flags times histories is unbounded; off-by-one errors appear only at particular alignments", "anchors": ["src/queue.c: queue_init, queue_write, queue_write_byte, queue_read, queue_read_byte, queue_view, queue_flush, queue_contents, queue_free_space, queue_empty"]}
{"id": "C02", "title": "Lock-free single-producer/single-consumer queue", "statement": "With one thread writing and one thread reading the same queue without locks, for every interleaving of their individual memory accesses the bytes delivered to the reader are a prefix of the bytes accepted from the writer, and no accepted byte is overwritten before it is read.", "quantifier": "every interleaving of the loads, byte copies and pointer stores of one writer and one reader, every history", "why_tests_cant": "interleavings are unbounded in number and cannot be forced by a unit test", "anchors": ["src/queue.c: queue_write, queue_read", "src/spandsp/queue.h: lock free claim"]}
{"id": "C03", "title": "Message queue preserves message boundaries", "statement": "queue_write_msg / queue_read_msg / queue_state_test_msg behave as a FIFO of whole messages: a message is queued entirely or refused with -1, messages come out in order with their own boundaries, and a reader's buffer which is too short gets the first bytes of the message and the rest of exactly that message is discarded.", "quantifier": "every sequence of message writes and reads, every message length and buffer length, every wrap position (including the length field itself wrapping)", "why_tests_cant": "the length field can wrap at any point of the ring; the failing lengths are rare", "anchors": ["src/queue.c: queue_write_msg, queue_read_msg, queue_state_test_msg"]}
{"id": "C04", "title": "CRC append then check always accepts", "statement": "For every message, crc_itu16_append (crc_itu32_append) followed by crc_itu16_check (crc_itu32_check) over the extended message returns true.", "quantifier": "every message of every length", "why_tests_cant": "all messages of all lengths", "anchors": ["src/crc.c: crc_itu16_append, crc_itu16_check, crc_itu32_append, crc_itu32_check"]}
{"id": "C05", "title": "CRC check rejects every short burst error", "statement": "If a message with a valid appended CRC is corrupted by an error burst no longer than the CRC (16 bits or 32 bits), at any position, crc_itu16_check / crc_itu32_check returns false.", "quantifier": "every message of every length, every burst position and non-zero burst pattern of up to 16 (32) bits", "why_tests_cant": "2^16 or 2^32 patterns at every position of every message", "anchors": ["src/crc.c: crc_itu16_check, crc_itu32_check"]}
{"id": "C06", "title": "Table driven CRC equals the polynomial definition and is incremental", "statement": "crc_itu16_calc and crc_itu32_calc over a whole buffer equal the bit-serial CRC of the same bits (crc_itu16_bits for 16 bits), from any starting value, and computing a buffer in two pieces gives the value of computing it at once.", "quantifier": "every buffer, every split, every starting CRC value", "why_tests_cant": "all buffers and starting values", "anchors": ["src/crc.c: crc_itu16_calc, crc_itu16_bits, crc_itu32_calc, crc_itu16_table, crc_itu32_table"]}
{"id": "C07", "title": "Bit twiddling helpers meet their documentation for every word", "statement": "top_bit, bottom_bit, bit_reverse8/16/32/_4bytes/_8bytes, one_bits32, make_mask32/16, least/most_significant_one32, parity8/16/32 return, for every argument, the value their documentation describes, in every one of the alternative implementations in the source; bit_reverse over a buffer reverses each byte and nothing else.", "quantifier": "every 8, 16, 32 or 64 bit word, every buffer", "why_tests_cant": "2^32 and 2^64 argument domains", "anchors": ["src/spandsp/bit_operations.h", "src/bit_operations.c"]}
{"id": "C08", "title": "Bitstream put/get round trip", "statement": "Any sequence of fields written with bitstream_put and bitstream_flush, in either bit order, is read back unchanged by a bitstream_get sequence with the same widths; the output octets are exactly the concatenation of the field bits in the chosen bit order.", "quantifier": "every sequence of (value, width) pairs with widths up to the documented register limit, both bit orders", "why_tests_cant": "field/width sequences are unbounded and the residue makes them interact", "anchors": ["src/bitstream.c: bitstream_put, bitstream_get, bitstream_emit, bitstream_flush"]}
{"id": "C09", "title": "HDLC loopback delivers every frame exactly once", "statement": "Every sequence of frames accepted by hdlc_tx_frame and drained with hdlc_tx_get_bit / hdlc_tx_get_byte, when fed to hdlc_rx_put_bit, makes the receiver report exactly those frames, in order, each once, with ok = true; with CRC-16 and CRC-32.", "quantifier": "every frame content, every frame length up to the maximum, every number of frames", "why_tests_cant": "bit stuffing depends on content across octet boundaries and the flag phase rotates with each frame", "anchors": ["src/hdlc.c: hdlc_tx_frame, hdlc_tx_get_byte, hdlc_tx_get_bit, hdlc_rx_put_bit, hdlc_rx_put_byte"]}
{"id": "C10", "title": "HDLC receiver is safe and sound on arbitrary input", "statement": "For every stream of bits and status values, the receiver never writes outside its frame buffer, and every frame it reports with ok = true is no longer than the configured maximum and carries a valid CRC.", "quantifier": "every input bit/status stream, every configuration", "why_tests_cant": "all bit streams; error paths depend on exact alignment", "anchors": ["src/hdlc.c: hdlc_rx_put_bit_core, rx_flag_or_abort, hdlc_rx_set_max_frame_len, hdlc_rx_init"]}
{"id": "C11", "title": "HDLC octet and bit interfaces agree", "statement": "Feeding octets to hdlc_rx_put_byte / hdlc_rx_put is the same as feeding their bits, most significant first, to hdlc_rx_put_bit: the same reports in the same order and the same statistics.", "quantifier": "every reachable receiver state, every octet stream", "why_tests_cant": "all streams and all mid-frame states", "anchors": ["src/hdlc.c: hdlc_rx_put_bit, hdlc_rx_put_byte, hdlc_rx_put"]}
{"id": "C12", "title": "HDLC bit stuffing transparency", "statement": "Between flags, the transmitted bit stream never contains six consecutive ones, so that no data can imitate a flag or an abort, and removing the stuffed zeros gives back the frame bits.", "quantifier": "every frame content and length", "why_tests_cant": "any byte sequence, across octet boundaries", "anchors": ["src/hdlc.c: hdlc_tx_get_byte"]}
{"id": "C13", "title": "Async serial loopback", "statement": "Characters sent with async_tx_get_bit and received by async_rx_put_bit with the same data bits, parity and stop bits come out unchanged, in order, with no parity or framing errors, whatever idle or presend time separates them.", "quantifier": "every character sequence, all data bit counts, all parities, all stop bit counts the register can hold, every idle pattern", "why_tests_cant": "configurations times character sequences", "anchors": ["src/async.c: async_tx_get_bit, async_rx_put_bit, async_tx_init, async_rx_init"]}
{"id": "C14", "title": "Async receiver detects every single bit error in parity-protected characters", "statement": "With odd or even parity and up to 8 data bits, flipping any one data or parity bit of a transmitted character makes the receiver count one parity error and deliver nothing for it.", "quantifier": "every character, every bit position, every width", "why_tests_cant": "exhaustive over characters, positions and configurations", "anchors": ["src/async.c: async_rx_put_bit, async_tx_get_bit", "src/spandsp/bit_operations.h: parity8"]}
{"id": "C15", "title": "G.711 companding is idempotent", "statement": "Decoding a u-law or A-law code, encoding the result and decoding again gives the same sample for every code; the code itself is reproduced except for the u-law negative zero.", "quantifier": "all 256 codes of both laws and every sample buffer", "why_tests_cant": "needs the complete domain, in all buffer positions", "anchors": ["src/spandsp/g711.h: linear_to_ulaw, ulaw_to_linear, linear_to_alaw, alaw_to_linear", "src/g711.c: g711_encode, g711_decode"]}
{"id": "C16", "title": "G.711 encoding error is bounded and monotone", "statement": "For every linear sample the encode/decode error is at most half the local step (clipping aside), encoding is monotone, odd-symmetric, and out of range samples saturate to the extreme code.", "quantifier": "every 16 bit sample and every int argument", "why_tests_cant": "65536 samples per law and 2^32 ints", "anchors": ["src/spandsp/g711.h: linear_to_ulaw, linear_to_alaw"]}
{"id": "C17", "title": "G.711 transcoding tables agree with the codecs", "statement": "alaw_to_ulaw and ulaw_to_alaw map each code to a code whose decoded value is within the quantisation error of the original, preserve sign and are monotone.", "quantifier": "all 256 codes of both laws", "why_tests_cant": "complete table", "anchors": ["src/g711.c: ulaw_to_alaw_table, alaw_to_ulaw_table, g711_transcode"]}
{"id": "C18", "title": "Scheduler fires each event exactly once, on time", "statement": "An event scheduled with span_schedule_event runs exactly once, in the first span_schedule_update at or after its due time, never earlier; a deleted event never runs; span_schedule_next reports the earliest pending due time.", "quantifier": "every sequence of schedule, delete and update calls, including calls made from inside callbacks", "why_tests_cant": "event sets, slot reuse and re-entrancy are unbounded", "anchors": ["src/schedule.c"]}
{"id": "C19", "title": "IMA ADPCM encoder and decoder stay in step", "statement": "After any number of samples the decoder's reconstructed value and step size, driven by the encoder's codes, equal the encoder's own prediction state, for IMA4, DVI4 and VDVI packing; decoded samples always lie in the 16 bit range and the step index stays inside its table.", "quantifier": "every sample sequence", "why_tests_cant": "state evolves without bound", "anchors": ["src/ima_adpcm.c: encode, decode, ima_adpcm_encode, ima_adpcm_decode"]}
{"id": "C20", "title": "IMA ADPCM decoder accepts any stream safely", "statement": "ima_adpcm_decode never indexes outside its tables for any octet stream.", "quantifier": "every octet stream, every variant and chunk mode", "why_tests_cant": "hostile headers", "anchors": ["src/ima_adpcm.c: ima_adpcm_decode"]}
{"id": "C21", "title": "VDVI variable length packing round trip", "statement": "The sequence of 4 bit codes packed by the VDVI encoder is recovered exactly by the VDVI decoder, whatever the padding left in the last octet.", "quantifier": "every code sequence", "why_tests_cant": "variable length codes make positions interact", "anchors": ["src/ima_adpcm.c: vdvi_encode, vdvi_decode"]}
{"id": "C22", "title": "OKI ADPCM encoder and decoder stay in step", "statement": "With 32kbps operation the decoder driven by the encoder's output reproduces the encoder's internal estimate after every sample, the 12 bit range is never exceeded and the step index stays in its table.", "quantifier": "every sample sequence", "why_tests_cant": "state evolves without bound", "anchors": ["src/oki_adpcm.c: encode, decode, oki_adpcm_encode, oki_adpcm_decode"]}
{"id": "C23", "title": "Playout buffer conserves frames and keeps sender order", "statement": "Every frame given to playout_put is handed out at most once, none is lost while queued, and queued frames leave in sender timestamp order whatever order they arrived in.", "quantifier": "every arrival order, every mix of put/get", "why_tests_cant": "arrival permutations are unbounded", "anchors": ["src/playout.c: playout_put, playout_get, playout_get_unconditional, queue_get"]}
{"id": "C24", "title": "Saturating arithmetic clamps exactly", "statement": "saturate16, saturate15, saturateu16, saturateu8, sat_add16/32, sat_sub16/32 return the true result clamped to the type's range, for every argument.", "quantifier": "all argument pairs", "why_tests_cant": "2^64 pairs", "anchors": ["src/spandsp/saturated.h"]}
{"id": "C25", "title": "BERT loopback counts no errors", "statement": "For each pattern, a tester receiving exactly its own generator's bits synchronises and from then on never counts a bad bit, for any length of run, and each later single corrupted bit is counted as exactly one bad bit.", "quantifier": "every pattern, every run length, every error placement", "why_tests_cant": "runs of unbounded length; sequences repeat only after 2^23-1 bits", "anchors": ["src/bert.c: bert_get_bit, bert_put_bit, bert_init"]}
{"id": "C26", "title": "QM arithmetic coder round trip", "statement": "Decoding the bytes produced by t81_t82_arith_encode + flush, with the same context sequence, returns exactly the encoded decisions.", "quantifier": "every sequence of (context, decision) pairs", "why_tests_cant": "carry propagation through runs of 0xFF of unbounded length", "anchors": ["src/t81_t82_arith_coding.c"]}
{"id": "C27", "title": "QM coder output never contains a marker", "statement": "In the output of the arithmetic encoder every 0xFF byte is followed by 0x00, so a marker (0xFF followed by non-zero) can never be imitated.", "quantifier": "every sequence of decisions", "why_tests_cant": "stuffing interacts with carries and flush", "anchors": ["src/t81_t82_arith_coding.c: output_stuffed_byte, byteout, t81_t82_arith_encode_flush"]}
{"id": "C28", "title": "V.42bis round trip", "statement": "v42bis_decompress applied to the output of v42bis_compress (+ flush) delivers the original octets, for all compression modes and any split of the data into calls.", "quantifier": "every octet sequence, every split into calls, every dictionary size and string length negotiated, every mode", "why_tests_cant": "dictionary contents depend on the whole history", "anchors": ["src/v42bis.c: v42bis_compress, v42bis_compress_flush, v42bis_decompress, v42bis_decompress_flush"]}
{"id": "C29", "title": "V.42bis decompressor is safe on hostile input", "statement": "For every received octet stream v42bis_decompress stays inside its dictionary and string buffers, and either delivers data or returns -1.", "quantifier": "every octet stream", "why_tests_cant": "hostile streams", "anchors": ["src/v42bis.c: v42bis_decompress, expand_codeword_to_string, add_octet_to_dictionary"]}
{"id": "C30", "title": "Modem scramblers are inverted by the descramblers and self-synchronise", "statement": "For V.17, V.29, V.27ter and V.22bis the receiver's descrambler inverts the transmitter's scrambler for every bit stream, and from any mismatched register state it recovers after a bounded number of correct bits.", "quantifier": "every bit stream, every pair of initial register states", "why_tests_cant": "2^23 states times all streams", "anchors": ["src/v17tx.c: scramble", "src/v17rx.c: descramble", "src/v29tx.c", "src/v29rx.c: descramble", "src/v27ter_tx.c: scramble", "src/v27ter_rx.c: descramble", "src/v22bis_tx.c: scramble", "src/v22bis_rx.c: descramble"]}
{"id": "C31", "title": "GSM 06.10 frame packing round trip", "statement": "For each packing (none, WAV49, VoIP) unpacking a packed frame returns the same parameters for every frame whose fields are in range.", "quantifier": "every frame", "why_tests_cant": "2^260 frames", "anchors": ["src/gsm0610_encode.c: gsm0610_pack_none, gsm0610_pack_wav49, gsm0610_pack_voip", "src/gsm0610_decode.c: gsm0610_unpack_*"]}
{"id": "C32", "title": "T.38 non-ECM buffer never corrupts an image row", "statement": "The octets leaving the T.38 non-ECM buffer are the injected octets in order, with only fill octets added, and fill is inserted only at allowed points (before the first data, or just in front of an end of line).", "quantifier": "every injection/drain schedule within the buffer capacity", "why_tests_cant": "schedules are unbounded", "anchors": ["src/t38_non_ecm_buffer.c"]}
{"id": "C33", "title": "Silence generator accounting", "statement": "silence_gen produces exactly the number of samples requested by silence_gen_set/alter, in total over any sequence of calls, and reports completion exactly once.", "quantifier": "every sequence of set, alter and generate calls", "why_tests_cant": "call sequences are unbounded; INT_MAX is a special value", "anchors": ["src/silence_gen.c"]}
{"id": "C34", "title": "BERT patterns are the named ones", "statement": "bert_get_bit gives the pattern which was asked for: the fixed ratios, the sequences of O.151, O.152 and O.153 (with their polynomial, their inversion and their exact period), at most fourteen zeros in a row for the 2^20-1 pattern, and the text with seven bits to a character; with a limit it gives that many bits and then reports the end.", "quantifier": "every pattern, every position in the sequence, every limit", "why_tests_cant": "the sequences run to 2^23-1 bits and a test sees a part of them", "anchors": ["src/bert.c: bert_get_bit, bert_init"]}
{"id": "C35", "title": "BERT error rate reports", "statement": "The error rate which the tester reports is that of the bits it has checked: a decade is reported when, and only when, the verdict on the latest 10^(i+1) bits changes, and the tables used for it are never indexed beyond their ends.", "quantifier": "every sequence of bits put to the tester", "why_tests_cant": "the decades go up to 10^8 bits", "anchors": ["src/bert.c: assess_error_rate, bert_put_bit"]}
{"id": "C36", "title": "T.38 non-ECM buffer keeps rows long enough and leaves the RTC alone", "statement": "Every row which leaves the T.38 non-ECM buffer has at least as many bits as the minimum which was set, and as many as it had when it arrived, except that nothing is put between end of line codes which follow directly on each other, so that the end of a page is never stretched.", "quantifier": "every stream of octets, every schedule of arrivals and of bits taken which does not overflow the buffer, every minimum", "why_tests_cant": "the fill depends on how rows fall into octets and on the interleaving of input and output", "anchors": ["src/t38_non_ecm_buffer.c:t38_non_ecm_buffer_inject", "src/t38_non_ecm_buffer.c:t38_non_ecm_buffer_get_bit"]}
{"id": "C37", "title": "QM decoder is safe on any data and does not depend on its pieces", "statement": "For every octet stream, in any pieces, and every sequence of contexts, t81_t82_arith_decode keeps its probability table index and its registers in range, reads nothing but stuffed data, never reads a marker, answers -1 only when it has run out of data and -2 only in front of a marker, and gives the same decisions for any division of the data into pieces.", "quantifier": "every octet stream, every division into pieces, every sequence of contexts", "why_tests_cant": "hostile streams, and every split point inside an escape pair", "anchors": ["src/t81_t82_arith_coding.c: t81_t82_arith_decode, t81_t82_arith_decode_restart"]}
{"id": "C38", "title": "T.4 and T.6 page round trip", "statement": "For MMR (T.6), MR (T.4 two dimensional) and MH (T.4 one dimensional) coding, whatever the minimum number of bits per row (up to eight times the width less 13, see C40) and the number of two dimensional rows between one dimensional ones, a page given to the encoder row by row and read from it in pieces of any sizes is always the same octets; and these octets, given to the decoder of the same width in any mixture of single bits and groups of octets, followed by the call for the end of the data, make it deliver exactly the rows of the page, bit for bit and in order, with no row counted as bad.", "quantifier": "every page: every number of rows, every content, every width of whole octets; every coding, minimum row length and number of 2-D rows; every sequence of read sizes and of calls of the decoder", "why_tests_cant": "2^(width*rows) pages; every mode of the 2-D coding has to meet every position of the reference row, and every piece boundary falls inside codes and EOLs", "anchors": ["src/t4_t6_encode.c: t4_t6_encode_get, get_next_row, encode_row, encode_eol, encode_1d_row, encode_2d_row, row_to_run_lengths, put_1d_span, finalise_page", "src/t4_t6_decode.c: t4_t6_decode_put, t4_t6_decode_put_bit, put_bits, put_decoded_row, add_run_to_row, drop_rx_bits, force_drop_rx_bits"]}
{"id": "C39", "title": "T.4 and T.6 decoder is safe on hostile input", "statement": "For every octet stream t4_t6_decode_put stays inside its arrays of runs and its row buffer and does nothing undefined.", "quantifier": "every octet stream, every coding and width", "why_tests_cant": "hostile streams", "anchors": ["src/t4_t6_decode.c: put_bits, add_run_to_row, put_decoded_row"]}
{"id": "C40", "title": "T.4 and T.6 encoder stays inside its buffer", "statement": "For a width of whole octets and a minimum number of bits per row of no more than eight times the width less 13, t4_t6_encode_get never writes beyond the output buffer the encoder has allocated, whatever the page and however it is read; with T.6, whatever the minimum. With greater minimums it does write beyond it.", "quantifier": "every page of every width of whole octets, every coding, every sequence of reads", "why_tests_cant": "the longest code of a row depends on its content and on the row before; the worst case is one row among 2^(2*width)", "anchors": ["src/t4_t6_encode.c: put_bits, get_next_row, encode_row, encode_eol, finalise_page, t4_t6_encode_set_min_bits_per_row, t4_t6_encode_set_image_width"]}
{"id": "C41", "title": "T.38 packets over a lossy network", "statement": "Whatever valid messages an application sends through t38_core_send_indicator and t38_core_send_data(_multi_field), and whichever of the resulting packets a network delivers in whichever order, with losses, repeats and reordering of less than 2000 packets, the handlers of a receiver which gets them through t38_core_rx_ifp_packet hear exactly the messages of the packets which are later than all before, each once and as it was sent, and for each gap a report of missing packets with the two sequence numbers. An indicator sent again is not told again.", "quantifier": "every sequence of messages with packets of up to 996 octets, every starting sequence number (with roll-over), every schedule of deliveries", "why_tests_cant": "schedules and histories", "anchors": ["src/t38_core.c: t38_core_send_indicator, t38_core_send_data_multi_field, t38_encode_indicator, t38_encode_data, t38_core_rx_ifp_packet, classify_seq_no_offset"]}
{"id": "C42", "title": "T.38 over a stream in any pieces", "statement": "Over TCP, without or with TPKT headers, an application which keeps the octets it got and calls t38_core_rx_ifp_stream as long as packets are taken hears exactly the messages which were told, however the stream is cut into pieces, and has nothing left at the end. With TPKT it must wait for the four octets of a header.", "quantifier": "every sequence of messages, every cutting of the stream", "why_tests_cant": "every cutting of every stream", "anchors": ["src/t38_core.c: t38_core_rx_ifp_stream"]}
{"id": "C43", "title": "T.38 receiver is safe on hostile packets", "statement": "For every octet string and every state t38_core_rx_ifp_stream reads nothing outside of the octets, says it has taken no more than there are, and calls no data or indicator handler unless it has taken a whole packet; t38_core_rx_ifp_packet the same, returning 0 or -1.", "quantifier": "every octet string, every state, transport and version", "why_tests_cant": "hostile input", "anchors": ["src/t38_core.c: t38_core_rx_ifp_stream, t38_core_rx_ifp_packet"]}
{"id": "C44", "title": "V.42 delivers data in order without gaps or repeats", "statement": "On a V.42 (LAP-M) connection each application is handed exactly the first so many of the pieces of data the other application supplied, in order, none missing before another, none twice and none changed, whatever frames the line loses and whenever the timers expire, the HDLC transmitter asks for frames and the applications say they are busy, stop, or have data; at most fifteen pieces are outstanding at any time.", "quantifier": "every interleaving of what happens on both sides, every pattern of lost frames, every length of history", "why_tests_cant": "interleavings, losses and wraps of sequence numbers (modulo 128 and 16) cannot be enumerated", "anchors": ["src/v42.c: lapm_receive, lapm_hdlc_underflow, tx_information_frame, receive_information_frame, ack_info, reject_info, t401_expired, t403_expired"]}
{"id": "C45", "title": "A busy V.42 side is not handed data", "statement": "After v42_set_local_busy_status said busy, on a connection, no information frame makes V.42 hand data to the application, nor counts as received, so that the data is not lost.", "quantifier": "every state of a connection, every information frame", "why_tests_cant": "all states and frames", "anchors": ["src/v42.c: v42_set_local_busy_status, receive_information_frame"]}
{"id": "C46", "title": "V.42 XID frames do not change the link parameters", "statement": "Whatever a received XID frame says, the window and the longest frame stay those v42_init set.", "quantifier": "every XID frame", "why_tests_cant": "every frame content", "anchors": ["src/v42.c: receive_xid, set_param"]}
{"id": "C47", "title": "V.42 receiver uses no octets outside a frame", "statement": "lapm_receive, given any frame in any state, uses no octet which is not in the frame.", "quantifier": "every frame, every state", "why_tests_cant": "hostile frames", "anchors": ["src/v42.c: lapm_receive, receive_information_frame, receive_xid"]}
{"id": "C48", "title": "T.85 (JBIG) pages round-trip", "statement": "The decoder delivers exactly the rows which the encoder was given, with the bits behind the width cleared, reports no error and reports the end of the page, for every page, every setting of the options and however the code is cut into pieces on both sides. Rows which are missing are white, or make the page shorter if its length may vary.", "quantifier": "every width below 2^32 - 7, every length, every row content, stripe height, range of the adaptive pixel, option bits, every way to cut the stream into reads and puts, every limit which admits the page", "why_tests_cant": "adaptive arithmetic coding: every pixel changes the state of the coder for all which follow; pages of any size, markers cut at any byte", "anchors": ["src/t85_encode.c: t85_encode_get, get_next_row, t85_encode_set_options", "src/t85_decode.c: t85_decode_put, decode_pscd, finish_sde"]}
{"id": "C49", "title": "T.85 pages one after the other", "statement": "t85_encode_restart and t85_decode_restart begin a page which goes through as a first page does, whatever happened before.", "quantifier": "every history of the encoder, every state of the decoder, every next page", "why_tests_cant": "histories", "anchors": ["src/t85_encode.c: t85_encode_restart, t85_encode_set_image_width", "src/t85_decode.c: t85_decode_restart"]}
{"id": "C50", "title": "T.85 decoder and any data", "statement": "Whatever data is given to the decoder, in whatever pieces, it delivers no more rows than the header announces and the limits allow, each with the bytes for the announced width, and it has memory for the rows.", "quantifier": "every data, every partition, every limit", "why_tests_cant": "hostile data", "anchors": ["src/t85_decode.c: t85_decode_put, extract_bih, check_bih"]}
{"id": "C51", "title": "A look at a T.85 header", "statement": "t85_analyse_header gives the width and the length of the page whose code it is given, and refuses data which is not a whole header.", "quantifier": "every page", "why_tests_cant": "all sizes of pages", "anchors": ["src/t85_decode.c: t85_analyse_header"]}
{"id": "C52", "title": "T.85 image_complete", "statement": "t85_encode_image_complete says that the page is complete when all its bytes have been read, and not before.", "quantifier": "every page, every history of reads", "why_tests_cant": "all histories", "anchors": ["src/t85_encode.c: t85_encode_image_complete, t85_encode_get", "src/t30.c: get_partial_ecm_page"]}
{"id": "C53", "title": "Fax transfers with error correction deliver the document", "statement": "Between two stations of the library in error correction mode, the receiving application has at any time been given the document from its start: whole pages in order, each followed by less than a frame of zeros, then octets from the start of the next page. When the sending application is told that the document was sent, the receiving one has been given all of it.", "quantifier": "every document, frame length, sequence of lost frames and lost responses, timer expiries, busy periods of the receiver", "why_tests_cant": "the transfer is a history of any length over a line which loses any of its frames; page and block numbers wrap", "anchors": ["src/t30.c: get_partial_ecm_page, send_next_ecm_frame, process_rx_ppr, process_rx_pps, process_rx_fcd, process_state_iv_pps_null, process_state_iv_pps_q, process_state_iv_pps_rnr, repeat_last_command", "src/spandsp/t30.h: t30_set_phase_b_handler, t30_set_phase_d_handler"]}
{"id": "C54", "title": "Fax transfers with error correction recover", "statement": "When the line stops losing frames, a transfer which is under way is finished with success; so is every transfer on a line which loses none.", "quantifier": "every document, every history of the call up to that moment", "why_tests_cant": "histories of any length before the recovery", "anchors": ["src/t30.c: process_rx_ppr, send_first_ecm_frame, process_rx_pps, repeat_last_command, process_state_f_post_rcp_mcf, process_state_iv_pps_rnr"]}
{"id": "C55", "title": "Partial pages and any station", "statement": "Whatever the other station sends, the receiver hands over image data only in whole blocks, made of frames it has received, in the order of their numbers; its complaints name exactly the frames it lacks; a sender answers a complaint with exactly the frames complained of.", "quantifier": "every state of a station, every message, every history of messages and timers", "why_tests_cant": "hostile or faulty stations", "anchors": ["src/t30.c: process_rx_pps, process_rx_fcd, process_rx_ppr, send_next_ecm_frame, send_pps_frame"]}
{"id": "C56", "title": "SPRT reliable channels deliver in order, each payload once", "statement": "On the two reliable channels of the SPRT transport, an application is given the payloads which the application at the other end has given to the channel, each once, in order, without a gap and with consecutive sequence numbers, whatever datagrams are lost, duplicated, delayed or reordered. On the other channels it is given only what was given to them. The sender takes no more payloads than two windows beyond what the other application was given.", "quantifier": "every history of calls, arrivals, timers and busy periods of both applications, provided that no datagram arrives after more than 7000 further payloads were taken by a channel (sequence numbers have 14 bits)", "why_tests_cant": "histories of any length; sequence numbers wrap; losses and reordering in any combination", "anchors": ["src/sprt.c: sprt_tx, sprt_rx_packet, sprt_timer_expired, sprt_set_local_busy", "src/spandsp/sprt.h: sprt_init"]}
{"id": "C57", "title": "SPRT endpoints are safe against any datagrams", "statement": "Whatever datagrams arrive at an SPRT endpoint and whatever calls its application makes, no access is outside of an array, every loop ends, and every datagram made and payload kept fits into its buffer.", "quantifier": "every history of calls and of arbitrary datagrams", "why_tests_cant": "datagrams come from the network and may be anything", "anchors": ["src/sprt.c: sprt_rx_packet, process_acknowledgements, delete_timer_queue_entry, add_timer_queue_last_entry, retransmit_the_unacknowledged, build_and_send_packet, sprt_deliver"]}
{"id": "C58", "title": "SPRT parameters", "statement": "An SPRT endpoint which is made with parameters has them; parameters outside of their limits are refused.", "quantifier": "all parameters", "why_tests_cant": "each field has its own limits and uses", "anchors": ["src/sprt.c: sprt_init, sprt_set_local_tc_windows_size, sprt_set_far_tc_windows_size, sprt_set_local_tc_payload_bytes, sprt_set_far_tc_payload_bytes"]}
{"id": "C59", "title": "SPRT makes losses good", "statement": "As long as no payload has been given up and the receiving application is not busy, everything which was lost on a reliable channel of the SPRT transport is made good: once the longest timeout has passed since the last call, it is enough that the timers expire once at each end and that datagrams which are sent then arrive, and the application has all that was given to the channel, in order.", "quantifier": "every history of calls, losses, duplicates, arrivals, timers and busy periods of both applications, provided that no datagram arrives after more than 7000 further payloads were taken by a channel; endpoints whose types and payload sizes fit each other", "why_tests_cant": "the state from which recovery has to start can be any which losses and reordering lead to", "anchors": ["src/sprt.c: sprt_timer_expired, retransmit_the_unacknowledged, sprt_rx_packet, sprt_deliver"]}
{"id": "C60", "title": "SPRT never stalls", "statement": "As long as something which was given to a reliable channel is missing at an application which is not busy, or an acknowledgement waits to be sent, an endpoint has asked its application for a timer which expires no later than the longest timeout after the last call. When it expires, the acknowledgements are sent.", "quantifier": "every history of calls, losses, duplicates, arrivals, timers and busy periods of both applications", "why_tests_cant": "a stall shows only in histories where the last datagram of several kinds is lost", "anchors": ["src/sprt.c: update_timer, sprt_timer_expired, queue_acknowledgement, build_and_send_packet, sprt_set_local_busy"]}
{"id": "C61", "title": "SPRT leaves a busy application alone", "statement": "A reliable channel gives nothing to an application which has said that the channel is busy, also when it said so in a callback in the middle of a call, until it says that the channel is not busy.", "quantifier": "every state of an endpoint, every call and datagram, everything the application does in its callbacks", "why_tests_cant": "whether payloads wait in the buffer when the application becomes busy depends on losses and reordering", "anchors": ["src/sprt.c: sprt_set_local_busy, sprt_rx_packet, sprt_deliver, sprt_timer_expired"]}
{"id": "C62", "title": "Caller identity messages arrive", "statement": "A message which is given to the transmitter of caller identity (CLASS, CLIP, A-CLIP, J-CLIP) is given to the application of a receiver of its bits, once, in order with other messages, with its length filled in; whatever the preamble, and whatever the receiver heard before.", "quantifier": "all messages the transmitter takes, all lists of them, all settings of the preamble with at least 20 ones, all states of the receiver", "why_tests_cant": "the preamble looks like octets to the receiver; messages of any length and content, after any noise", "anchors": ["src/adsi.c: adsi_tx_put_message, adsi_tx_get_bit, adsi_rx_put_bit, adsi_tx_set_preamble"]}
{"id": "C63", "title": "Caller identity receivers are safe against anything", "statement": "Whatever bits, carrier changes, digits, times or characters come to a receiver of caller identity, it stays within its buffers and tables, and what it gives to the application is a message of the length it says it has, or one which ends with its end mark.", "quantifier": "every sequence of what a modem or a DTMF detector can give", "why_tests_cant": "noise may be anything", "anchors": ["src/adsi.c: adsi_rx_put_bit, adsi_rx_dtmf, adsi_tdd_put_async_byte, adsi_decode_baudot"]}
{"id": "C64", "title": "Damaged caller identity messages are not delivered", "statement": "A caller identity message of which one octet was changed on its way (J-CLIP: bits within 16 of each other) is not given to the application, if the change is covered by the check and is not to the octet with the length.", "quantifier": "all messages and all such changes", "why_tests_cant": "too many changes to try", "anchors": ["src/adsi.c: adsi_rx_put_bit, adsi_tx_put_message"]}
{"id": "C65", "title": "Caller identity fields arrive", "statement": "The fields which an application puts into a caller identity message are the fields which the application at the other end finds in it, with their types, bodies and order.", "quantifier": "all lists of fields which fit into a message", "why_tests_cant": "fields of any number, length and content", "anchors": ["src/adsi.c: adsi_add_field, adsi_next_field, adsi_tx_put_message, adsi_rx_put_bit, adsi_rx_dtmf"]}
{"id": "C66", "title": "Walking over caller identity fields is safe and ends", "statement": "Walking over the fields of a message which a receiver gave moves on with each step, ends, and reads only the message.", "quantifier": "all messages", "why_tests_cant": "messages come from the line and may be malformed", "anchors": ["src/adsi.c: adsi_next_field"]}
{"id": "C67", "title": "Text for the deaf arrives", "statement": "Text which is sent by TDD arrives, with letters as capitals and without what the Baudot code does not have.", "quantifier": "all texts", "why_tests_cant": "shifts depend on all that was sent before", "anchors": ["src/adsi.c: adsi_add_field, adsi_encode_baudot, adsi_decode_baudot, adsi_tdd_get_async_byte, adsi_tdd_put_async_byte"]}
{"id": "C68", "title": "A fax terminal says what it has", "statement": "From the capability frame (DIS) of a fax terminal another finds what both have: error correction, the bi-level compressions, the paper sizes, and the resolutions which have a bit of their own. The frames are of a length the standard allows, and each octet says truly whether another follows.", "quantifier": "all settings two applications can make with the functions of the interface, in any order", "why_tests_cant": "the settings are sets, of which there are far too many pairs to try", "anchors": ["src/t30.c: t30_build_dis_or_dtc, prune_dis_dtc, analyze_rx_dis_dtc", "src/t30_api.c: t30_set_supported_bilevel_resolutions, t30_set_supported_colour_resolutions, t30_set_supported_image_sizes, t30_set_supported_compressions"]}
{"id": "C69", "title": "A fax terminal asks only for what was offered", "statement": "Whatever DIS a terminal receives, its DCS asks only for compressions, resolutions, widths, lengths, error correction and modems which the DIS offers, and for compressions which need error correction only with it.", "quantifier": "all settings, all octet strings as the DIS, all pages, all steps down in speed", "why_tests_cant": "the DIS comes from any make of terminal", "anchors": ["src/t30.c: analyze_rx_dis_dtc, build_dcs, step_fallback_entry, start_sending_document", "src/t4_tx.c: t4_tx_set_tx_image_format"]}
{"id": "C70", "title": "Both ends of a fax call agree", "statement": "If a terminal decides to send a page after the DIS of another, then the DCS is accepted there, and both have the same compression, resolution, width, speed and use of error correction. The page every terminal must take is always sent.", "quantifier": "all settings of both ends, all pages, all steps down in speed", "why_tests_cant": "pairs of sets of settings", "anchors": ["src/t30.c: analyze_rx_dcs, build_dcs, analyze_rx_dis_dtc, t30_build_dis_or_dtc", "src/t4_tx.c: t4_tx_set_tx_image_format"]}
{"id": "C71", "title": "Steps down in speed end", "statement": "Each step down in speed is to another speed or modem, no faster, with a modem which the far end offered, and after at most seven there is none left.", "quantifier": "all settings, all octet strings as the DIS, any number of steps", "why_tests_cant": "depends on which modems are permitted", "anchors": ["src/t30.c: step_fallback_entry, analyze_rx_dis_dtc, build_dcs"]}
{"id": "C72", "title": "Any DCS is safe", "statement": "Whatever frame comes as a DCS, nothing is written outside of arrays, and what is accepted is a compression and a resolution the receiver has, a width of that resolution, and the speed and use of error correction the frame names.", "quantifier": "all settings, all octet strings", "why_tests_cant": "frames come from any make of terminal, or noise", "anchors": ["src/t30.c: analyze_rx_dcs, find_fallback_entry"]}
{"id": "C73", "title": "Rows last as long as the receiver asks", "statement": "Without error correction each row is padded so that at the speed in use it lasts as long as the DIS asks for at the resolution in use; between two terminals like this one, at least as long as the application of the receiver asked for.", "quantifier": "all settings, all octet strings as the DIS, all pages, all speeds", "why_tests_cant": "the tables for standard, fine and superfine rows differ", "anchors": ["src/t30.c: set_min_scan_time", "src/t30_api.c: t30_set_minimum_scan_line_time"]}
{"id": "C74", "title": "V.8 messages arrive", "statement": "When a CM or JM is sent three times or more the other end reports just the call function, modulations, protocols, access and other values sent, whatever bits came before which were not taken for a message, and one message later even if they were.", "quantifier": "all parameters of the sender, all bits before, any number of repeats", "why_tests_cant": "what came before is noise, and there are too many parameters to try", "anchors": ["src/v8.c: send_cm_jm, v8_put_bytes, v8_put_preamble, put_bit, cm_jm_decode, process_modulation_mode"]}
{"id": "C75", "title": "Both ends of V.8 agree", "statement": "The caller is told just the modulations and call function which the application of the answerer kept of those the caller offered.", "quantifier": "all parameters of both ends, all choices of the application, all bits before which are not taken for a message", "why_tests_cant": "pairs of sets of modulations and an arbitrary choice", "anchors": ["src/v8.c: send_cm_jm, cm_jm_decode, v8_rx, v8_restart"]}
{"id": "C76", "title": "V.8 takes any bits", "statement": "Whatever bits are received, the receiver stays within its arrays and the call returns.", "quantifier": "all strings of bits", "why_tests_cant": "bits are demodulated noise", "anchors": ["src/v8.c: put_bit, cm_jm_decode, ci_decode, process_non_standard_facilities"]}
{"id": "C77", "title": "Only CJ is taken for CJ", "statement": "CI, V.92 and CM messages are not taken for CJ; a CJ after a CM is seen at once, and what was told before stays.", "quantifier": "all parameters, any number of each message", "why_tests_cant": "orders and numbers of messages are unbounded", "anchors": ["src/v8.c: put_bit, ci_decode, cm_jm_decode, send_ci, v8_rx"]}
{"id": "C78", "title": "V.8 reports each result once and truly", "statement": "A negotiation ends with one final report, after which there are no others; success is reported only after the messages it stands for were received, and, by a caller, sent; an offer goes to the application of an answerer before anything is agreed.", "quantifier": "all parameters, all sequences of samples, tones, received bits and transmitted bits", "why_tests_cant": "any history of events", "anchors": ["src/v8.c: v8_rx, v8_tx, report_event, handle_calling_modem_connect_tone, handle_answering_modem_connect_tone, v8_restart"]}
{"id": "C79", "title": "V.8 ends in time", "statement": "A caller which has heard ANSam sends CJ or gives up within six seconds of samples; an answerer waits no more than 5.2 s for a CM and 5 s for a CJ; and when the last bits are sent, the next samples end the negotiation.", "quantifier": "all states, all sequences of events, however the samples are cut into calls", "why_tests_cant": "any cut of the time into calls", "anchors": ["src/v8.c: v8_rx, v8_restart, handle_calling_modem_connect_tone, handle_answering_modem_connect_tone"]}
{"id": "C80", "title": "A V.8 caller sends whole messages in order", "statement": "What a caller sends is a sequence of whole CI messages, then CMs with its own modulations, V.92 messages if wanted and more CMs, then CJ; nothing is lost for want of room in the queue.", "quantifier": "all parameters, all sequences of events", "why_tests_cant": "the queue is filled and emptied by different calls in any order", "anchors": ["src/v8.c: v8_rx, get_bit, send_ci, send_cm_jm, conditionally_send_v92, v8_restart"]}
{"id": "C81", "title": "The G.722 coder takes any samples and any data", "statement": "The encoder takes all 16 bit samples and the decoder all octets, without overflow or access outside of a table; the output does not depend on how the input is cut into calls, and unpacked there is one octet for each pair of samples (each sample at 8000 samples a second).", "quantifier": "all rates and options, all samples, all octets, all cuts into calls", "why_tests_cant": "the predictors carry the history of the whole signal", "anchors": ["src/g722.c: g722_encode, g722_decode, block4, g722_encode_init, g722_decode_init"]}
{"id": "C82", "title": "The G.722 decoder stays with the encoder", "statement": "After any samples the predictors and scales of the decoder are those of the encoder, at the same rate or with the lower bits cut off on the way.", "quantifier": "all samples, all rates and options", "why_tests_cant": "a difference may show only after any number of samples", "anchors": ["src/g722.c: g722_encode, g722_decode, block4"]}
{"id": "C83", "title": "Packed G.722 data arrives", "statement": "A decoder of packed data follows the encoder to all but the last two codes, and its state is that of an encoder after the samples it gave.", "quantifier": "all samples, all rates and options", "why_tests_cant": "bits left over move with the length", "anchors": ["src/g722.c: g722_encode, g722_decode"]}
{"id": "C84", "title": "Decoded G.722 follows the signal", "statement": "At 64000 bits and 8000 samples a second, after any samples, the next one is decoded to within a sixth of the present scale, unless it is further than about 1.4 times the scale from the prediction.", "quantifier": "all samples", "why_tests_cant": "the scale and the prediction depend on the whole history", "anchors": ["src/g722.c: g722_encode, g722_decode"]}
{"id": "C85", "title": "Contact ID reports arrive", "statement": "Every alarm report whose fields fit and which has no digit A is sent as sixteen DTMF digits, from which the receiver tells the same report; any number of reports arrive in order. Just the reports with a digit A are refused.", "quantifier": "all reports, all sequences of reports", "why_tests_cant": "there are 2^60 reports, and the digits of earlier messages stay in the receiver", "anchors": ["src/ademco_contactid.c: encode_msg, decode_msg, dtmf_digit_delivery, ademco_contactid_sender_put"]}
{"id": "C86", "title": "A damaged Contact ID message is not delivered", "statement": "If one digit of a good message is taken for another one, no report is told.", "quantifier": "all good messages, all digits", "why_tests_cant": "there are too many messages and digits to try", "anchors": ["src/ademco_contactid.c: decode_msg"]}
{"id": "C87", "title": "A Contact ID receiver plays its tones whole", "statement": "A receiver takes any digits within its array. However samples are asked for, first the handshake goes out and, for each good message taken while it waits, the kissoff, each from beginning to end; then it waits again.", "quantifier": "all digits, all cuts into calls, all reports", "why_tests_cant": "calls can end anywhere in a tone", "anchors": ["src/ademco_contactid.c: ademco_contactid_receiver_tx, dtmf_digit_delivery"]}
{"id": "C88", "title": "A Contact ID report is delivered", "statement": "A report put before the handshake goes out whole once the handshake was heard, however samples are asked for; a receiver tells the report from the digits in it; and the kissoff is told as success, after which the next report can be put.", "quantifier": "all reports, all lengths of the tones within limits, all cuts into calls", "why_tests_cant": "the sender is driven from both directions at once", "anchors": ["src/ademco_contactid.c: ademco_contactid_sender_put, ademco_contactid_sender_tx, ademco_contactid_sender_rx", "src/dtmf.c: dtmf_tx, dtmf_tx_put"]}
{"id": "C89", "title": "A Contact ID sender tells the truth in time", "statement": "Whatever is put, sent and heard, success is told only after a good kissoff was heard and the handshake is told first and once; after the handshake a result is told within 12.02 s, not counting kissoffs, and in silence it is failure. What is told does not depend on how the samples are cut into calls.", "quantifier": "all histories of reports, sending and hearing", "why_tests_cant": "histories are unbounded", "anchors": ["src/ademco_contactid.c: ademco_contactid_sender_rx, ademco_contactid_sender_put"]}
{"id": "C90", "title": "A V.8 answerer answers with whole JMs", "statement": "When a CM has come an answerer starts to send JM with the next samples, or when its application goes on if it is a gateway, with what the application made of the offer, and waits 5 s for CJ; all it sends are whole JMs, of which only the last may be cut short, by the end of the negotiation.", "quantifier": "all parameters, all sequences of samples, received bits and transmitted bits without a calling tone", "why_tests_cant": "the queue is filled and emptied by different calls in any order", "anchors": ["src/v8.c: v8_rx, v8_tx, get_bit, send_cm_jm, v8_continue"]}
{"id": "C91", "title": "G.726 takes anything in any portions", "statement": "At every rate, coding and packing, an encoder takes any samples and a decoder any octets, without undefined behaviour. How they are divided into calls makes no difference. Each sample gives one code, in an octet of its own or packed with the others; the decoder gives one sample for each code which the octets hold.", "quantifier": "all rates, codings and packings, all samples and octets, all cuts into calls", "why_tests_cant": "a table may be overrun or a shift be undefined in a state which only a long history reaches, and there are too many cuts to try", "anchors": ["src/g726.c: g726_encode, g726_decode, g726_init", "src/bitstream.c"]}
{"id": "C92", "title": "G.726 decoders stay with the encoder", "statement": "A decoder which is given all that an encoder of the same rate and packing sends comes to the very state of the encoder, whatever the codings are at both ends.", "quantifier": "all samples, rates, codings and packings", "why_tests_cant": "a difference would show only after histories which no test happens on", "anchors": ["src/g726.c: g726_encode, g726_decode"]}
{"id": "C93", "title": "G.726 output is close to the sample", "statement": "Whatever was coded before, a sample and the value which a linear decoder gives for it lie between the same decision levels around the prediction, so that the error is at most the distance of these levels.", "quantifier": "all samples after all histories", "why_tests_cant": "there are too many histories", "anchors": ["src/g726.c: quantize, reconstruct, g726_16_encoder, g726_24_encoder, g726_32_encoder, g726_40_encoder"]}
{"id": "C94", "title": "G.726 in tandem loses nothing more", "statement": "If A-law or u-law is coded, decoded and coded again, the second coding sends just what the first sent.", "quantifier": "all rates, both laws, all packings, all samples", "why_tests_cant": "holds only if for every state and code the adjusted output lies in the cell of the code, which cannot be tried for all states", "anchors": ["src/g726.c: tandem_adjust_alaw, tandem_adjust_ulaw"]}
{"id": "C95", "title": "DTMF digits go out in order", "statement": "Whatever digits are put into a DTMF generator and however samples are asked for, the digits which were taken go out in the order in which they were put, each with its whole tone and pause. A string is taken whole or not at all, and the caller is told how many digits there is no room for. Characters which are no digits are passed over.", "quantifier": "all strings, all histories of puts and requests for any number of samples", "why_tests_cant": "a digit may be cut or lost where a request ends just then, and there are too many places for it to end", "anchors": ["src/dtmf.c: dtmf_tx, dtmf_tx_put"]}
{"id": "C96", "title": "TDD text arrives", "statement": "Whatever text is put into a V.18 station in one of the modes for Weitbrecht TDDs, and whenever its modem asks for codes, another station which gets the codes tells the same text, as far as such telephones have the characters, in order. After its modem was told that there is nothing to send, all of it has been told. A station tells nothing which arrives within 300 ms of a code that it sent.", "quantifier": "all texts, all three modes at both ends, all histories of puts and requests", "why_tests_cant": "shifts depend on all that was sent before, and a shift may stay pending at any request", "anchors": ["src/v18.c: v18_put, v18_tdd_get_async_byte, v18_tdd_put_async_byte, encode_baudot, decode_baudot"]}
{"id": "C97", "title": "Text arrives as DTMF", "statement": "Text which a V.18 station sends as DTMF goes out in order and is told by the receiver, as far as such telephones have the characters, however the digits are divided into calls, as long as it is silent itself and calls are less than 5 s apart.", "quantifier": "all texts, all cuts into calls, all waits below 5 s", "why_tests_cant": "the receiver matches codes of one to four digits in a table by bisection, and keeps digits between calls", "anchors": ["src/v18.c: v18_dtmf_get, v18_dtmf_put, decode_dtmf, cmp_dtmf_to_ascii"]}
{"id": "C98", "title": "Any DTMF digits are decoded", "statement": "A V.18 receiver takes any DTMF digits without undefined behaviour and tells a character for each code in its table.", "quantifier": "all sequences of digits", "why_tests_cant": "there are too many sequences", "anchors": ["src/v18.c: v18_dtmf_put, decode_dtmf"]}
{"id": "C99", "title": "Supervisory tones keep their cadence", "statement": "A cadence of steps which may be nested and repeated, of at most four levels, in which whatever is repeated for ever has some sample, is played just as it is given, however the samples are asked for. Every call returns, and gives all that was asked for until the cadence is over.", "quantifier": "all cadences of up to four levels, all histories of requests", "why_tests_cant": "a request may end anywhere in a cadence, and repeats within repeats may be lost only in certain combinations", "anchors": ["src/super_tone_tx.c: super_tone_tx, super_tone_tx_init, super_tone_tx_make_step"]}
{"id": "C100", "title": "Tones keep their cadence", "statement": "A tone with a cadence of up to four sections is played just as it is given, once or for ever, however the samples are asked for, if it has any samples. Every call returns, and gives all that was asked for until the cadence is over.", "quantifier": "all durations, all histories of requests", "why_tests_cant": "a request may end anywhere in a cadence", "anchors": ["src/tone_generate.c: tone_gen, tone_gen_init, tone_gen_descriptor_init"]}
{"id": "C101", "title": "Data from the computer to a fast modem of a class 1 fax modem", "statement": "If the computer gives no more octets than it is told there is room for, and none after DLE ETX, the line gets the data they stand for, in order and complete, however it is divided into calls and however the calls are interleaved with those of the line. When there is none at hand the line is filled, with ones before the data and with zeros within it. The end comes after all data and only then. Nothing is written beyond the buffer. A computer which is told to wait is told to go on.", "quantifier": "all data, all escapes, all histories of calls", "why_tests_cant": "the state depends on how the rates of the computer and of the line are interleaved", "anchors": ["src/t31.c: t31_at_rx, t31_at_rx_free_space, dle_unstuff, non_ecm_get, non_ecm_get_bit"]}
{"id": "C102", "title": "Data from a fast modem to the computer of a class 1 fax modem", "statement": "Whatever bits a fast modem gets, the computer is told the octets they make, with DLE escaped, and DLE ETX at the end of the carrier, from which it gets them back; and nothing is written beyond the buffer.", "quantifier": "all sequences of bits of any length", "why_tests_cant": "an escape at the edge of the buffer shows only for certain data", "anchors": ["src/t31.c: non_ecm_put_bit, non_ecm_rx_status"]}
{"id": "C103", "title": "Frames from the line to the computer of a class 1 fax modem", "statement": "A frame which comes while the computer waits for it is told to it with its check, with DLE escaped, and with DLE ETX at its end; and nothing is written beyond the buffer.", "quantifier": "all frames", "why_tests_cant": "the length with escapes depends on the data", "anchors": ["src/t31.c: hdlc_accept_frame"]}
{"id": "C104", "title": "Frames from the computer to the line of a class 1 fax modem", "statement": "Frames which the computer gives with escapes are sent as they are and in order, however they are divided into calls; and nothing is written beyond the buffer.", "quantifier": "all sequences of frames, all divisions into calls", "why_tests_cant": "an escape may be divided between calls", "anchors": ["src/t31.c: dle_unstuff_hdlc, t31_at_rx"]}
{"id": "C105", "title": "Command lines are run as they are typed", "statement": "Whatever the computer sends to a modem which awaits commands, and however it is divided into calls, nothing is written beyond the line and every call returns. After anything without the letter A, a line of AT, some characters and deletions, and the end of line character, is run once, as what is left of it, and nothing of it stays for the next line.", "quantifier": "all sequences of octets, all divisions into calls, all sets of commands which take at least a character each", "why_tests_cant": "deletions and the edge of the line may meet anywhere", "anchors": ["src/at_interpreter.c: at_interpreter"]}
{"id": "C106", "title": "The commands of a line are run in order until one fails", "statement": "The commands of a line are run in order. If all of them are good there is one response, which is OK. If one fails or is not known there is one response, which is ERROR, and those after it are not run.", "quantifier": "all sets of commands, all lines", "why_tests_cant": "it is a statement of all sequences of commands", "anchors": ["src/at_interpreter.c: at_interpreter"]}
{"id": "C107", "title": "Numbers in commands are read as they are written", "statement": "A decimal number in a command, of any length, is read as its value, or refused if this is above the limit, and nothing but its digits is taken. A hexadecimal number of two digits is read as its value.", "quantifier": "all numbers, all limits", "why_tests_cant": "overflow depends on the number", "anchors": ["src/at_interpreter.c: parse_num, parse_hex_num"]}
{"id": "C108", "title": "Every command is found in the table of commands", "statement": "Whatever the list of commands is, the search goes as far into a line as the head of any command reaches, in any case of letters. If this is a command its number is found, and if it is not nothing is. Each of the commands of spandsp is found, whatever follows it, if this does not go on as another command does. The table has room for the tree, its numbers fit, and the search never reads beyond it or beyond the end of the line.", "quantifier": "all lists of commands, all lines", "why_tests_cant": "the table is generated, and the lines are arbitrary", "anchors": ["src/make_at_dictionary.c: trie_add, trie_recursive_add_node_numbers, trie_recursive_build_packed_trie, wordlist", "src/at_interpreter.c: command_search"]}
{"id": "C109", "title": "Power meters stay in range and settle", "statement": "Whatever the samples are, nothing overflows in a power meter, and its reading is never negative and never above the power of the loudest sample so far. A signal of constant magnitude is read as its power, but for less than two to the shift below it, once there were as many samples as the reading was off.", "quantifier": "all sequences of samples, all shifts below 32", "why_tests_cant": "the reading depends on all samples so far", "anchors": ["src/power_meter.c: power_meter_init, power_meter_update, power_meter_rx"]}
{"id": "C110", "title": "Surge detectors stay in range", "statement": "Whatever the samples are, nothing overflows in a surge detector, and it returns one power per sample, of up to 2 to the 30.", "quantifier": "all sequences of samples, all levels and ratios", "why_tests_cant": "the overflow needs a signal which grows slowly to a high level without being noticed", "anchors": ["src/power_meter.c: power_surge_detector_init, power_surge_detector"]}
{"id": "C111", "title": "Local times are dates of the calendar", "statement": "Every time within a thousand million years of 1970, on either side, and every offset of less than a week gives a date: the day is as many days after the first of January 1970 as there are whole days in the local time, by the rules of the calendar. The time of the day is the rest. The day of the week goes round with the days, from a Thursday. The day of the year is counted from the first of January of that year.", "quantifier": "all times up to 2 to the 55 seconds on either side of 1970, all offsets of less than a week", "why_tests_cant": "there are far too many times, and leap years, negative times and offsets over a new year meet only rarely", "anchors": ["src/timezone.c: time_sub, leaps_thru_end_of, add_with_overflow_detection, mon_lengths, year_lengths, isleap"]}
{"id": "C112", "title": "A day later it is the next day", "statement": "The local time 86400 seconds later, with the same offset, is the same time of the next day of the calendar, with the next day of the week, over ends of months, of years and of Februaries.", "quantifier": "all times up to 2 to the 55 seconds on either side of 1970, all offsets of less than a week", "why_tests_cant": "a wrong leap year shows on a single day of many years", "anchors": ["src/timezone.c: time_sub"]}
{"id": "C113", "title": "Country codes are understood either way round", "statement": "For every number the country of a code is found without a read beyond the table. The result is the code or the code with its bits turned round, and has a name, or says that neither way round has one. The six codes of countries which send no faxes and which are common ones turned round are always turned.", "quantifier": "all numbers", "why_tests_cant": "the table is one shorter than the numbers of a byte", "anchors": ["src/t35.c: t35_real_country_code, t35_real_country_code_to_str, t35_country_code_to_str, t35_country_codes"]}
{"id": "C114", "title": "Makers of fax machines are recognised", "statement": "A message of three bytes or more which starts with a country code and the identity of a maker who is listed there is recognised as of that maker, whatever follows, and nothing else is recognised. A listed machine is recognised by its bytes. No message is read beyond its end.", "quantifier": "all messages, all rows of the tables", "why_tests_cant": "messages of any content come from the far end; a row may be hidden by one before it", "anchors": ["src/t35.c: t35_decode, t35_vendor_to_str, find_vendor, vendor_00 and the other tables"]}
{"id": "C115", "title": "Clocks are changed on the day a rule names", "statement": "A rule Jn names the same day of the same month in every year, a rule n the day of the year, and a rule Mm.w.d the day d of the week in week w of the month m, which is the last such day of the month for w = 5. The time found is that of the day named, with the time of day and the offset added.", "quantifier": "all years from 1, all rules, times of day and offsets", "why_tests_cant": "a wrong day of the week or leap year shows in few years", "anchors": ["src/timezone.c: trans_time, get_rule"]}
{"id": "C116", "title": "Summer time holds between the changes of the clocks", "statement": "In a zone with summer time the local time is that of the offset of summer time, and is said to be summer time, from the time at which the rules let it start to the time at which they let it end, and that of the standard offset otherwise, both where summer time is within a year and where it goes over the end of the year.", "quantifier": "all zones whose changes are in order, all times", "why_tests_cant": "the changes of many years are listed, in an order which depends on the rules, and searched for each time", "anchors": ["src/timezone.c: tzparse, tz_localtime, trans_time"]}
{"id": "C117", "title": "The text of a zone is read as the zone it names", "statement": "The text of a zone, with names of three or more characters, offsets with or without signs, minutes and seconds, and rules with or without times, is read as the zone with those offsets and rules; an offset of summer time which is left out is an hour ahead of the standard one, rules which are left out are those of the default, and a zone without summer time is read as its offset alone.", "quantifier": "all texts of zones, with numbers in their ranges and any zeros before them", "why_tests_cant": "the parts of the text may be left out or of any length, and the end of each is found only by what follows it", "anchors": ["src/timezone.c: tzparse, get_tzname, get_num, get_secs, get_offset, get_rule"]}
{"id": "C118", "title": "Whatever the text of a zone, every time has a local date", "statement": "Any text whatever is either refused or read as a zone whose rules name days of the year and whose offsets are of at most about a week, and such a zone gives every time a date of the calendar, at its standard offset or at that of summer time, and says which of the two; no table is read beyond its end.", "quantifier": "all texts, well formed or not, all times within 2^55 seconds of 1970", "why_tests_cant": "the text comes from a user and its numbers index tables of months and decide the lengths of loops", "anchors": ["src/timezone.c: tzparse, get_rule, trans_time, tz_localtime"]}
{"id": "C119", "title": "Nothing but the text of a zone is read as one", "statement": "A text which is accepted is two names with their offsets and rules, or one name with its offset, and nothing more, with all numbers in their ranges, and the zone which is read of it is the one it names; any other text is refused.", "quantifier": "all texts, well formed or not", "why_tests_cant": "the texts which are to be refused are all those which are not of the form, of any length", "anchors": ["src/timezone.c: tzparse, get_tzname, get_num, get_secs, get_offset, get_rule"]}
{"id": "C120", "title": "The circular product goes round the vector", "statement": "vec_circular_dot_prodi16 gives the sum of the products of the numbers of the first vector, from the given position on and from its end round to its start, with those of the second in order, and reads neither vector outside of its bounds, wherever the sum of the sizes of the products is within 32 bits.", "quantifier": "all vectors of the same length, all positions in them, its end included", "why_tests_cant": "the vector is cut in two at the position, and each part is of any length", "anchors": ["src/vector_int.c: vec_circular_dot_prodi16, vec_dot_prodi16"]}
{"id": "C121", "title": "Circular adaption changes each coefficient once", "statement": "vec_circular_lmsi16 adds to each number of the second vector that of the first, taken from the given position on and round, times the error over 32768, rounded down, and changes nothing else; the result is exact where 16 bits hold it, and right but for multiples of 65536 otherwise.", "quantifier": "all vectors of the same length, all positions and errors", "why_tests_cant": "the vector is cut in two at the position, and no number may be changed twice or left out", "anchors": ["src/vector_int.c: vec_circular_lmsi16, vec_lmsi16"]}
{"id": "C122", "title": "The extremes of a vector are found", "statement": "vec_min_maxi16 stores the greatest and the least number of a vector, both of which are in it, and returns the greatest size of any, which is 32768 if -32768 is in it.", "quantifier": "all vectors of 16-bit numbers which are not empty", "why_tests_cant": "the extremes may be anywhere in a vector of any length and sign", "anchors": ["src/vector_int.c: vec_min_maxi16"]}
{"id": "C123", "title": "The circular product of complex vectors goes round the vector", "statement": "cvec_circular_dot_prodi16 gives the sum of the complex products of the numbers of the first vector, from the given position on and from its end round to its start, with those of the second in order, and reads neither vector outside of its bounds, wherever the sums of the sizes of the parts of the products are within 32 bits.", "quantifier": "all complex vectors of the same length, all positions in them, its end included", "why_tests_cant": "the vector is cut in two at the position, and each part is of any length", "anchors": ["src/complex_vector_int.c: cvec_circular_dot_prodi16, cvec_dot_prodi16"]}
{"id": "C124", "title": "Circular adaption of complex vectors changes each coefficient once", "statement": "cvec_circular_lmsi16 adds to each number of the second vector the conjugate of that of the first, taken from the given position on and round, times the error over 4096, each part rounded down, and changes nothing else; the result is right but for multiples of 65536, for all numbers and errors of 16 bits.", "quantifier": "all complex vectors of the same length, all positions and errors", "why_tests_cant": "the vector is cut in two at the position, and no number may be changed twice or left out", "anchors": ["src/complex_vector_int.c: cvec_circular_lmsi16, cvec_lmsi16"]}
