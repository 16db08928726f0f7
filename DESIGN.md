# Formal model of freeswitch/spandsp (Lean 4)

## Trusted base

* Lean 4.33.0's kernel. Every theorem may depend only on `propext`, `Classical.choice`
  and `Quot.sound`. No axioms of our own, no `sorry`, no `native_decide`/`bv_decide`.
* The hand translation from C to Lean. Each model definition cites the file and lines it
  models, and says where it simplifies. The C compiler, the platform headers and the
  build are not modelled. `int` is 32 bit two's complement, `long`-free code only, hosts
  are little-endian where the code's behaviour depends on it.
* Undefined behaviour is a distinct outcome: array accesses outside the object, shifts by
  at least the width and the like make the model return `none` (or carry an explicit
  in-range proof obligation); properties then say that this outcome is unreachable.

## Layout

`lean/Verif/<Component>/`:

* `Model.lean`  - the C code, function by function, with citations
* `Spec.lean`   - the small independent specification the property is stated against
* `Lemmas.lean` - helper lemmas
* `Props.lean`  - the property theorems, each with a non-vacuity `example`

## Plan, property by property

| id | model | method |
|----|-------|--------|
| C01 | ring buffer with `iptr`, `optr`, backing array, memcpy as array update with bounds check | refinement to `List UInt8` with capacity; invariant by induction over operations |
| C02 | reader and writer as small-step machines over shared `iptr`, `optr`, bytes | inductive invariant over all interleavings |
| C03 | `queue_write_msg`/`read_msg`/`test_msg` on the same state | refinement to a list of messages |
| C04-C06 | CRC tables as literal lists, loops as folds | table = 8 bit-serial steps by complete evaluation; linearity of the step over xor; residue; burst detection by injectivity of the step |
| C07 | each helper on `BitVec` | bit-level extensionality; complete evaluation of 8 bit tables |
| C08 | `bitstream` register on `BitVec 32`, output bytes as list | invariant: emitted bits ++ residue = concatenation of fields |
| C09-C12 | receiver and transmitter state machines, bit by bit | simulation: stuffed stream invariant, induction over frame bits |
| C13,C14 | async tx/rx state machines | induction over characters; bit-level lemmas per frame |
| C15-C17 | `linear_to_ulaw` etc. on `Int` | segment case analysis / complete evaluation over the 256 codes |
| C18 | scheduler slots as list, callbacks as arbitrary scripts | invariant relating slots to the set of pending events |
| C19-C22 | ADPCM steppers on `Int` | invariant and simulation |
| C23 | list of frames | multiset conservation; negation with witness for order |
| C24 | functions on `Int` ranges | case analysis |
| C25 | PRBS register machines | simulation relation between the two registers |
| C26,C27 | encoder with carry/stack machinery | interval refinement |
| C28,C29 | dictionary coder | lock-step dictionary invariant |
| C30 | scrambler step on `BitVec` | induction over bits |
| C31 | pack/unpack as bit operations | bit extensionality |
| C32,C33 | buffer machines | invariants |
| C34 | PRBS registers and their powers as polynomials | recurrence; order of the register by its primes |
| C35 | the snapshot tables of the error rate | invariant: each table entry is a block sum of the history |
| C36 | the same buffer machine, with the row lengths as a function of the bit stream | invariant: at the boundary of what may be sent stands an EOL which may be stretched |
| C37 | the decoder of the QM coder on arbitrary data | invariant on the registers; a call on a prefix of the data followed by one on the rest is a call on the whole |
| C38 | encoder and decoder of T.4/T.6, functions and tables as they are, down to the bit registers | the run lengths of a row are its changes of colour; each code emitted is taken by the decoder as the same run or mode (tables by kernel evaluation over all entries; 2-D by an invariant on where both are in the reference row); rows, fill, EOLs and the end of the page in sequence; reads and calls by prefixes |
| C39 | the same decoder | false: three witnesses |
| C40 | the same encoder, with the capacity of its buffer | bounds on the bits of a run (table, by kernel evaluation), of a row (six or eight bits a pixel and a constant) and of the fill; witness for greater minimums |
| C41 | T.38 core: coding and decoding of packets, sequence numbers, suppression of repeated indicators | packet round trip by cases on the message and induction on the fields; the history of the receiver by induction on the deliveries, with the next expected number as the invariant (modulo 65536) |
| C42 | the same receiver behind an application which collects octets | strict prefixes of a packet give 0 and no event, whole packets are taken; induction on the pieces and on the calls |
| C43 | the same receiver | every read is checked in the model; the checks of the first pass over the fields cover the second |
| C44 | two LAP-M state machines and a line which keeps order and loses frames | an invariant which ties the sequence numbers and the ring of each side, modulo 128 and 16, to positions in the data of the other, through all frames on their way; every part of every function keeps it; induction on the events |
| C45 | the same | by cases on the reception |
| C46 | XID parser | induction on groups and parameters; the default is a fixed point of the negotiation rule |
| C47 | the same | by cases on the frame; the code breaks it for information and supervisory frames of two octets and for XID frames which end early (witnesses) |
| C48 | encoder with template adaptation, typical prediction, stripes, newlen, on top of the Qm coder; decoder as a machine over pieces of data | the decoder runs in step with the decisions of the encoder; an invariant between calls of put over what is still to come |
| C49 | both restart functions on the models of C48 | the states after a restart are those of C48; for a change of the width the code breaks the property, which is proved |
| C50 | the model of C48, and the size of the row memory | an invariant kept by each marker and each pixel; for the memory a calculation on 32 bits, with two counterexamples |
| C51 | t85_analyse_header | the code breaks it for every usual page, which is proved from C48's stream |
| C52 | t85_encode_image_complete on the model of C48 | as long as rows are missing there are bytes to come; the converse is broken by the code |
| C53 | both stations of an ECM transfer from CFR on, the line with its frames under way, losses and timers as events | an invariant over both stations and the line: the receiver is at the block of the sender, or has it and the sender does not know; induction over the events. Two ways in which the code breaks it are proved |
| C54 | the model of C53 | from any state of the invariant at the start of a burst, or with the sender waiting, a run without losses is constructed by induction over what is left. For a lost last confirmation, and for complaints of a busy receiver, the code breaks it, which is proved |
| C55 | one station of the model of C53 and any messages | case analysis of each message; an invariant on where the frames in the buffer come from; the frames of a burst by induction |
| C56 | two endpoints with their channels, timers, buffers and acknowledgement queues; every datagram ever sent may arrive at any time until it is too old | an invariant which ties the buffers of both ends, the waiting acknowledgements and every datagram in the log to the list of what was given; kept by each function of the endpoint; induction over the events |
| C57 | one endpoint and arbitrary datagrams; the timer queue with its links as the code has it | an invariant: the links are those of a list without repetition, of slots which are in use; each function keeps it. The retransmission loop ends as the tries which are left decrease. An acknowledgement which comes for a payload which was given up breaks the property, which is proved |
| C58 | `sprt_init` with its parameters and the functions which set them | unfolding. The code checks the parameters and then does not use them, which is proved |
| C59 | as C56 | what a timer sends: every slot in use is in the queue of timers, and all which are due are sent; at a receiver which is not busy the head of the buffer is free, so its number is in a slot of the sender; it arrives and is delivered; induction over what is missing |
| C60 | as C56, with the time the endpoint has asked for | an invariant: each timer which runs is at most the longest timeout after the last call, what is asked for is the soonest of them, and a slot in use or a waiting acknowledgement has one which runs; kept by each function |
| C61 | as C57, with what the application does in each callback | a walk over what the endpoint does, with the channels which are busy; each function of the endpoint keeps to it |
| C62 | the transmitter down to the bits it gives to the modem, and the receiver from there | the bits of a buffer in closed form; an invariant of the receiver over the preamble; induction over octets and messages. Two cases where the code breaks the property are proved |
| C63 | the receivers, with accesses outside of arrays as faults | an invariant over the bits, digits and characters |
| C64 | as C62, with the buffer changed on its way | sums of octets; the linearity of the CRC |
| C65 | adding fields, sending, and walking over what arrives, for all standards | induction over fields, with the position of the walk tied to what is left. Cases where the code breaks the property are proved |
| C66 | `adsi_next_field` with reads outside of the message as faults | cases. The code breaks the property for some messages, which is proved |
| C67 | adding text, the characters given to the modem, and the receiver | each character with each shift of both sides by computation over the whole finite domain, then induction over the text. The code breaks the property for a second message, which is proved |
| C68 | the settings, `build_dis_or_dtc`, the pruning of frames and `analyze_rx_dis_dtc`, bit by bit | closed forms for the bits of a frame under construction; the pruning loop keeps them |
| C69 | the choice of format, modem and speed, and `build_dcs` | what the choice can give from what the frame says; the bits of the DCS in closed form |
| C70 | as C68 and C69, with `analyze_rx_dcs` | C69 composed with the bits of the receiver's own DIS. Where two settings share a bit the code breaks the property, which is proved by examples |
| C71 | the table of speeds, its search and the field in the DCS | induction over steps |
| C72 | `analyze_rx_dcs` with writes outside of arrays as faults | cases. The code breaks the property for frames of 26 octets or more, which is proved |
| C73 | `set_min_scan_time` and its tables | computation over all the entries of the tables |
| C74 | the octets of a message, its bits, the bit receiver and the decoder | closed forms for the octets; the receiver follows a message octet by octet; the comparison of repeats. V.92 among the modulations has no bit, which is proved |
| C75 | as C74, both ways | C74 twice. The protocols need not agree, which is proved by an example |
| C76 | the receiver with accesses outside of its arrays as faults and the loop of the decoder with a limit of rounds | invariant of the receiver; an exact condition for the loop to end. An octet for non-standard facilities hangs it, which is proved |
| C77 | as C74 | induction over the messages |
| C78 | the state machine of `v8_rx`, `v8_tx` and the tone handler, with tones and bits as inputs | invariants over runs. With a calling tone an answerer can report twice, which is proved |
| C79 | as C78 | a bound which falls with the samples |
| C80 | as C78, with the queue of bits and its limit | invariant over runs: bits sent and bits waiting are together of that form |
| C81 | both bands with their predictors, the quantisers, the filters, 16 bit values which overflow as faults | invariant of the state; append laws. An odd number of samples reads beyond the array, which is proved |
| C82 | as C81 | the code of six bits and its upper four bits determine the same step of the predictor; induction |
| C83 | the bit buffers of both ends | the bits as a list; the codes decoded are a prefix of those encoded. The last code may stay in the decoder, which is proved |
| C84 | as C81 | the levels of the quantiser and of its inverse interlace; the decision levels are monotone; C82 |
| C85 | printing, the translation of digits, the check digit, and reading them back; the digits kept by the receiver | digits of a number in base 16; the sum modulo 15; induction over messages. A check digit of 10 is sent as D, and fields which are too large overflow the buffer, which is proved |
| C86 | as C85 | the digits count differently, modulo 15. 0 and D count the same, and that such a change goes unnoticed is proved |
| C87 | the steps of the receiver with the tone generator as positions in a tone | what is still to be sent, as a function of the state; each call takes a prefix of it. A message which comes during a kissoff leaves the receiver sending what was in the array before, which is proved |
| C88 | the sender with its DTMF generator; the detector is any function of blocks of 55 samples | as C87 for sending; the states of the tone detector by blocks. That retries never go out, and that the second report is not watched, is proved |
| C89 | as C88 | invariant over histories; a bound on the blocks still to wait which each block lowers. Missing for reports after the first, of which nothing may ever be told, which is proved, as are two results for one report, success without a report, and a sender busy or deaf for ever |
| C90 | as C80 | invariant over runs: bits sent, waiting and dropped are together whole JMs |
| C91 | both functions with predictor, quantiser, tables and the packing of codes | ranges of the predictor as an invariant; the bits of octets and pending codes in order |
| C92 | as C91 | the codes found are a prefix of the codes sent; each side is the same function of the codes |
| C93 | as C91 | logarithm and antilogarithm of the code as monotone functions, each within the other; the tables. Missing beyond full scale, where the output takes the wrong sign, which is proved |
| C94 | as C91 with the adjustment for tandem | the quantiser and the laws are monotone; the neighbours of each code of a law; the sample which was coded shows that the cell holds a level of the law |
| C95 | the queue, the digit in progress and the samples by their place in the digit | what went out and what is still to go make up what was taken, as an invariant |
| C96 | the tables, both shifts, the queue and the pending code | each of the 128 characters in each pair of shifts by computation, then an invariant over histories |
| C97 | both tables, `bsearch` as in glibc, the timers | every character by computation, then induction over text and calls |
| C98 | as C97 | for all sequences of codes in the table but one; the general statement is false, which is proved |
| C99 | the tree of steps, the levels with their counts and the position; samples by their tone | what went out and what is to come make up the cadence, as an invariant over the loop; that the loop ends, by induction over the tree |
| C100 | sections, position and repeat; samples as tone or silence | as C99 |
| C101 | the buffer with both positions, the escape, flow control and the end | an invariant over histories: the text of what was given is what the line got and what is in the buffer; partial as the claim fails for the last octet of the room with double escapes, and for flow control |
| C102 | the octet in the making and the buffer of 256 octets | induction over octets, with the fill of the buffer as invariant |
| C103 | the buffer of 256 octets | an exact condition for what fits, by induction; partial as the claim fails for longer frames |
| C104 | the buffer of 284 octets and the escape | induction over frames; partial as the claim fails for longer frames |
| C105 | the line and its prefix, the registers for end of line and deletion; the commands are arbitrary functions | an invariant over characters for safety; induction over what is typed for the text |
| C106 | the loop over commands with its response | induction over the commands before the one which ends the line; partial as a command which is not known is answered with OK |
| C107 | both functions, with overflow as a fault | induction over digits; partial as decimal numbers overflow and the digits A to F are read as 0 to 5 |
| C108 | the tree as nested nodes, its table, and the search in it; the list of commands itself | search in the table is a walk in the tree, by induction over the line with the place of each node in the table; the walk is the longest head, from what adding a word does to every path |
| C109 | the reading and the shift, with overflow as a fault | the step towards the power never goes past it, as an invariant; a measure for settling |
| C110 | both meters and the comparison | the invariant of C109 for both meters; partial as the claim fails for ratios of 3 dB and more |
| C111 | the search for the year, the offset, the week day and the search for the month, with years of 32 bits | the days before a year plus the days in it are an invariant of all loops; the calendar is an inductive relation which says only which day comes next |
| C112 | as C111 | from C111, as the calendar has only one day for each number of days |
| C113 | the table as it is, reads beyond it as faults | all 255 codes of the table, and the range checks for all other numbers |
| C114 | the tables as they are, the search and the comparison, reads beyond a message as faults | by induction the loops are searches for a prefix; no identity begins another one of its list; partial as one machine is hidden and messages below three bytes are read beyond their end |
| C115 | the three kinds of rules, with the day of the week by Zeller's congruence | the congruence agrees with the days before a year modulo 7; the weeks loop by cases of the week; the days are told by the calendar of C111 |
| C116 | the list of changes and the search of it | the list is split at the year in question, with all changes before it not after the time; partial as only changes from 1970 to 2037 are listed |
| C117 | the readers of names, numbers, times, offsets, days, rules and zones | relations say what the texts are; each reader takes its text before any rest that cannot go on with it |
| C118 | all readers of the text, the list of changes and the date | the ranges of each number follow from its reader; the list of changes exists for rules in their ranges, and the date for offsets in theirs |
| C119 | the readers of C117 | each reader is inverted: what it took is a text of its relation, and the text is that and the rest |
| C120 | the two products | induction over the loop with partial sums bounded by those of the sizes; the sum is shifted for the second part |
| C121 | the two loops | induction over the loop: numbers in its range are changed and others are kept |
| C122 | the loop and what is returned | induction over the vector |
| C123 | the two complex products | as for C120, for both parts |
| C124 | the two loops | as for C121; partial, as the sum of two products is beyond 32 bits if all parts are -32768 |

Nothing on the list is excluded from being modelled in principle. Parts of the library
that are floating point DSP (filters, modems' equalisers, echo cancellation, tone
detection) are not modelled; the properties above are about the exact, integer parts.

## What is modelled so far

| component | source | modelled | not modelled |
|-----------|--------|----------|--------------|
| Queue | src/queue.c | all of the byte and message calls | allocation failure |
| BitOps | src/bit_operations.c, src/spandsp/bit_operations.h | all helpers, portable and mask variants | inline assembler variants |
| Crc | src/crc.c | all | |
| Bitstream | src/bitstream.c | all | |
| Async | src/async.c | transmitter and receiver | allocation |
| Hdlc | src/hdlc.c | receiver, transmitter (bit, octet, block interfaces) | allocation; the theorems about the transmitter exclude abort, corrupt_frame and restart calls |
| G711 | src/g711.c, src/spandsp/g711.h | all | allocation; the optional zero trap |
| Saturated | src/spandsp/saturated.h | the integer functions, plain C and x86 assembler | ARM assembler, floating point functions |
| Schedule | src/schedule.c | all, with callbacks calling back | allocation failure, logging |
| Ima | src/ima_adpcm.c | all | output buffer bounds |
| Oki | src/oki_adpcm.c | all | output buffer bounds; the arithmetic of the floating point filter, which is a parameter |
| Playout | src/playout.c | all | failure of the allocation in playout_init |
| Scrambler | src/v17tx.c, src/v17rx.c, src/v29tx.c, src/v29rx.c, src/v27ter_tx.c, src/v27ter_rx.c, src/v22bis_tx.c, src/v22bis_rx.c, src/v34tx.c, src/v34rx.c, src/v32bis.c | the scramblers and descramblers for data and for training | the rest of the modems |
| Bert | src/bert.c | all | the names of the reports (bert_event_to_str), the log, overflow of the counters after 2^31 bits |
| Silence | src/silence_gen.c | all of the generator: the samples, the status handler, the counts with their overflows | the dummy receive and send functions at the end of the file |
| Gsm | src/gsm0610_encode.c, src/gsm0610_decode.c | the three packings and their inverses, statement by statement | the codec itself |
| NonEcm | src/t38_non_ecm_buffer.c | set_mode, init, inject, push, get_bit: the whole buffer in both modes, over any schedule of arriving octets and bits taken | the counters which are only logged; `row_bits` beyond 2^31 |
| Qm | src/t81_t82_arith_coding.c | the probability table, the encoder with its carry and stuffing, the flush, the decoder with its lazy reading of data in pieces, both restarts | allocation, the range of the context index (taken as below 4096), the overflow of the int32 count of pending 0xFF bytes |
| V42bis | src/v42bis.c | the whole of the compressor and the decompressor: dictionary with recovery of entries, codewords and STEPUP, transparent mode with escapes, the three modes with the compressibility metric, both flushes, init | allocation and release, logging, the value returned by the handler; max_output_len is taken as at least 1; after v42bis_decompress has returned -1 the stream is over |
| T4 | src/t4_t6_encode.c, src/t4_t6_decode.c, src/t4_t6_decode_states.h | the encoder from row_to_run_lengths to t4_t6_encode_get with the capacity of its buffer, the decoder from t4_t6_decode_restart to t4_t6_decode_put and t4_t6_decode_put_bit, with the code tables of both | t4_t6_encode_get_bit; handlers which fail; the counters of run and image sizes; 32 bit overflow of row_bits |
| T38 | src/t38_core.c | the coding of indicators and data, t38_core_send_indicator, t38_core_send_data, t38_core_send_data_multi_field, t38_core_rx_ifp_stream, t38_core_rx_ifp_packet, with all transports and versions | names and rates of types, logging, the options' setters; handlers which call the core again; t38_core_send_training_delay and t38_core_send_flags_delay |
| V42 | src/v42.c | LAP-M: lapm_receive, lapm_hdlc_underflow, the timers T401 and T403, connect, disconnect, XID, busy status, v42_stop | the detection phase (ODP and ADP), the HDLC layer under it (see Hdlc), the times of the timers (a running timer may expire at any moment), config values other than those of v42_init, logging |
| T85 | src/t85_encode.c, src/t85_decode.c | the whole coder for one bit plane: header, template adaptation, typical prediction, both templates, stripes, newlen, atmove, the decoder's machine for markers in pieces, restarts, image_complete, t85_analyse_header, the size of the row memory | encoder: comments, abort, calls of set_image_length by the application during a page, negative option arguments; decoder: a comment handler, interrupts by the row handler, new_plane, what happens after a header was rejected (but see C50), compressed_image_size; allocation failures |
| Ecm | src/t30.c | error correction mode from CFR to DCN for a document of pages of one format: partial pages, bursts, PPS, PPR, MCF, RNR, RR, CTC, CTR, EOR, ERR, DCN, timers T2, T4 and T5, retry limits, for both stations, with a lossy half duplex line between them | EOM, EOS and the return to phase B; PRI and PIN; CRP and FNV; modems and phases; SSL fax; what the receiver does after T2; a receiving application which wants no more data |
| Sprt | src/sprt.c, src/spandsp/private/sprt.h | endpoints with four channels, buffers, acknowledgement queue, timers and timer queues, busy periods; two of them with a network which loses, duplicates, delays and reorders | logging; the return values of the callbacks; calls into the library from the callback which takes a datagram; the application changing parameters after the start; wrapping time stamps |
| Adsi | src/adsi.c, src/spandsp/private/adsi.h | messages, fields, bits, digits and characters of both directions for CLASS, CLIP, A-CLIP, J-CLIP, DTMF and TDD | the modems, the DTMF generator and detector and the alert tone: what goes into the modem of one side comes out of that of the other, or anything does; room in the DTMF generator; room in the message an application builds |
| Nego | src/t30.c, src/t30_api.c, src/t4_tx.c, src/spandsp/private/t30_dis_dtc_dcs_bits.h | the settings, DIS and DCS frames, what each end makes of them, the choice of format, modem and speed, minimum row times | the state machine of a call around them, identification frames, the DTC of polling but for its kind, the effect of the continuous flow mode (which clears bits of the DIS in place of the DCS), reading and converting TIFF pages |
| V8 | src/v8.c | CI, CM, JM, CJ and V.92 messages, the receiver of bits and the decoder, the state machine of both ends, timers, the bit queue | the V.21 modem, the tone generator and the tone receivers (bits and tones are inputs), the time the answer tone takes, logging |
| G722 | src/g722.c | encoder and decoder at 48000, 56000 and 64000 bits a second, at 16000 and 8000 samples a second, packed and unpacked, the transmit and receive filters | the test mode of the ITU (no call sets it), assembler variants of the dot product, the quality of the two band filters |
| ContactId | src/ademco_contactid.c, src/dtmf.c | messages, receiver and sender with tones as positions, `dtmf_tx` with its queue; the tone detector of the sender as any function of a block | the samples of the tones and the energies of the detector, the DTMF detector (property of its own), logging and the names of events |
| G726 | src/g726.c, src/bitstream.c | encoder and decoder at all rates with predictor, adaptation, quantiser, tandem adjustment and packing | allocation and release; the shift of a negative number, taken as multiplication |
| V18 | src/v18.c | Baudot and DTMF text: tables, shifts, queue, bisection, suppression timers | automoding, carrier and tones; the other modes, of which EDT, Bell 103, Videotex and textphone have receive functions with no body, so that their text is never told; FSK and DTMF detection |
| SuperTone, ToneGen | src/super_tone_tx.c, src/tone_generate.c | cadences: levels, cycles, sections, positions | values of samples; `super_tone_tx_make_step` leaves two of the four tones of a step unset, which `super_tone_tx` reads if the first two are in use; negative lengths; overflow of lengths in ms |
| T31 | src/t31.c | the data path of a class 1 modem on an audio channel | commands, responses, timers, carriers and training; T.38; the queue of frames which come while the computer does not wait (which overflows in the same way); the HDLC of the frames is C09 to C12 |
| At | src/at_interpreter.c | lines, the loop over commands, responses, numbers | the commands themselves, which are arbitrary functions; echo; formats of responses; modes |
| At (Trie, Words) | src/make_at_dictionary.c, src/at_interpreter.c | the generator of the table of commands, the list of commands, and the search | the children of a node as an array of 128; memory which cannot be had; the text of the generated file |
| Power | src/power_meter.c | meters and surge detectors | levels in dB, which are floating point; ratios and levels are integers here |
| Calendar | src/timezone.c | the date of a time and an offset | leap seconds, of which zones have none; rules for the offset of a zone, and its text |
| T35 | src/t35.c | all functions and tables | the order of a station's identity, which no function uses |
| Calendar | src/timezone.c | the time at which a rule takes effect in a year | the reading of rules, and the list of changes of a zone |
| Calendar | src/timezone.c | the list of the changes of a zone, and the search of it | zones without summer time, which have one offset |
| Calendar | src/timezone.c | the reading of a zone's text | the text of the names in the zone that is read; `tz_set`, which reads a text which is refused as "GMT" |
| Calendar | src/timezone.c | what is read of any text, and the local time in it | the arithmetic of `long int`, as the numbers stay far within it |
| Calendar | src/timezone.c | what is accepted as the text of a zone | as for C117 |
| VecInt | src/vector_int.c | all functions, as the C code has them | the MMX assembler of `vec_dot_prodi16` and `vec_min_maxi16`, which is compiled only if it is asked for |
| VecInt | src/complex_vector_int.c | products and adaption of 16-bit complex vectors | `cvec_dot_prodi32` |

## Properties the code does not have

Each is a theorem about the model with a concrete witness.

* C03: a message of 65536 bytes or more is queued with its length cut to 16 bits
  (`Queue.message_queue_fails_at_65536`).
* C08: a field of 26 bits or more can lose bits (`Bitstream.bitstream_drops_26_bits`). The
  header documents the limit of 25.
* C10: before framing is found, the HDLC receiver counts bits in an `int` without limit;
  after 2^31 zero bits the count overflows (`Hdlc.hdlc_rx_bit_count_overflows`).
* C13: with more than 16 bits in a character, stop bits are sent as zero
  (`Async.async_too_many_stop_bits`).
* C14: with nine data bits the parity ignores the ninth (`Async.async_parity_misses_bit_8`).
* C16: `linear_to_ulaw` overflows for ints within 132 of the ends of the range, and
  `linear_to_alaw` for the least int (`G711.ulaw_defined_iff`, `G711.alaw_defined_iff`).
* C18: an event scheduled with a negative time before the clock has reached it wraps to the far
  future (`Schedule.scheduler_negative_time_wraps`).
* C24: the plain C `sat_add32` is undefined in standard C exactly when it should clamp
  (`Saturated.sat_add32_undefined_iff`).
* C19: in DVI4 with headers a chunk of an odd number of samples puts the link out of step
  (`Ima.dvi4_odd_chunk_breaks`); without headers the count of samples overflows an `int`
  (`Ima.ima_encode_overflow`).
* C20: the step index in a header is not checked, nor the length of the header
  (`Ima.ima_decode_undefined_iff`, `Ima.ima_decode_bad_header`).
* C22: the encoder's count of samples overflows an `int` (`Oki.oki_encode_overflow`), and at 24kbps
  an empty call to the encoder reads outside the buffer (`Oki.oki_encode_empty_24k`).
* C23: a frame which belongs between the first and the second in the queue is put before the first
  (`Playout.playout_order_broken`); with a variable length the first speech frame overflows
  `since_last_step` (`Playout.playout_step_count_overflows`); `playout_restart` loses the frames which are
  queued (`Playout.playout_restart_leaks`).
* C30: V.22bis and V.27ter need not get into step, for a guard count which differs can differ for ever
  (`Scrambler.v22bis_never_synchronises`, `Scrambler.v27ter_never_synchronises`).
* C25: with the text pattern a tester counts bad characters, not bad bits, so that two inverted bits can count once
  (`Bert.text_undercounts`). A tester which joins a running generator of the 2^20-1 pattern can count a false bad bit,
  because it does not know how long the run of zeros is (`Bert.late_join_false_error`).
* C33: a generator cut short to nothing never tells of its completion (`silence_cut_not_reported`); the count of generated samples includes what was only added (`silence_generated_counts_alterations`); after silence was taken away from a fresh generator the next call overflows an `int` (`silence_shortened_undefined`); an endless generator can be altered into a finite one, or into an overflow (`silence_always_altered`).
* C31: nothing checks the signature of a frame (`voip_magic_unchecked`), and the fields of an unpacked frame may be out of range (`none_unchecked`).
* C32: when 16384 octets arrive before any is taken, all are lost (`NonEcm.overrun`); the theorems are about schedules which do not overflow the buffer (`NonEcm.Room`). In TCF mode the octet in which the zeros begin is held back, and zero octets may be sent before it, so that zeros appear among the ones (`NonEcm.zeros_before_transition`).
* C36: the first row of an image is counted eight bits short: an EOL right behind the first EOL is stretched (`NonEcm.first_row_stretched`), and a first row of 20 bits is not extended to the minimum (`NonEcm.first_row_short`).
* C28: v42bis_init accepts P1 up to 65535, the dictionary has 4096 entries (init_accepts_too_much). The theorems are for P1 up to 4096.
* C28: two flushes within one string of the transparent mode make the compressor lose track of the length of the string, and the far end then delivers other data (close_flushes_lose_data). The theorems are for flushes with at least N7 octets between them. The same on the other side: decompress_flush_changes_data.
* C28: a flush while a dictionary update is outstanding does nothing (flush_may_not_deliver). The round trip theorem is for a flush which leaves nothing in the output buffer; never_mode_round_trip and always_mode_round_trip say when this is so.
* C29: the check on STEPUP is against N2 >> 3, not against the size of a code, so nine octets make the decompressor read beyond its dictionary (step_up_to_a_fault).
* C40: nothing keeps the minimum number of bits per row within what the buffer of the encoder has room for: encoder_overrun.
* C39: the decoder is not safe on hostile data. zero_runs_fault (runs of no pixels are stored without a bound), pass_codes_fault (the runs of the reference row are read without a bound), after_the_end_fault (bits after the end of the page pile up until a shift by 32).
* C38: for a width which is not a multiple of eight the decoder delivers other rows, odd_width_fails: the pixels left over from a row are put in front of the next.
* C41: in version 0 fields without octets which are not the last (version0_empty_fields) and messages with 128 fields or more (many_fields) are not heard as they were sent; a message of more than about 990 octets overruns the buffer of 1000 octets (send_overrun); the count of missing packets goes down at a roll-over (missing_goes_down).
* C42: with TPKT and one to three octets of a header t38_core_rx_ifp_stream takes them as a packet (tpkt_short_header).
* C44: when the answering side's UA and its first information frames are lost, the repeated SABME makes it throw away data it has taken from its application, and later data is delivered without it (`V42.early_data_lost`); `in_order_partial` assumes that no side repeats its SABME. Also, without any loss, a poll between information frames can end the connection (`V42.spurious_disconnect`, src/v42.c:679-690): the go-back after the answer makes V(S) smaller than a later N(R).
* C46 holds, which means there is no negotiation: src/v42.c:265-272 with a parameter at its default never leaves it. The XID frame which is sent is also malformed (src/v42.c:428 does not move on after the option octets), see `V42.xidFrame`.
* C47: lapm_receive does not check the length of a frame: information and supervisory frames of two octets, and XID frames which end in the middle of a parameter, make it read beyond them (`V42.short_frames`).
- C49: after a page has been sent a page of another width is sent with the old width, because `t85_encode_restart` sets the width before it clears the row
  count (`T85.t85_next_page_width_lost`).
- C50: a header with a width above 2^32 - 8 is accepted if there is no limit, and gets no row memory; a rejected header leaves a page size behind for which there is
  no row memory, and later data is decoded (`T85.t85_row_memory_missing`).
- C51: `t85_analyse_header` reads the width and the length two bytes too late (`T85.t85_analyse_header_wrong`).
- C52: `t85_encode_image_complete` reports the end as soon as the last row is coded, with its bytes unread (`T85.t85_image_complete_early`). `get_partial_ecm_page` in
  src/t30.c relies on it when a partial page is full.
- C53: the sender's response timer may run out while the response is under way; the second answer to the repeated PPS is taken for the answer to the next page, which may
  be lost (`Ecm.early_timer_loses_a_page`). With an encoder which says too early that its page is complete (as the one of C52 does), a page of more than 256 frames is
  cut off after them and reported as sent (`Ecm.early_complete_truncates`).
- C54: when the confirmation of the last page is lost, the receiver hangs up on the repeated PPS, and the sender reports an error for a document which was received
  (`Ecm.lost_confirmation_fails`). After RNR and RR the sender does not accept a PPR and hangs up (`Ecm.busy_receiver_fails`).
- C57: a payload which was sent as often as is allowed is taken out of the timer queue but stays in its buffer. When an acknowledgement comes for it while another payload
  is in the queue, `delete_timer_queue_entry` writes to index 255 of arrays of 96 (`Sprt.late_ack_is_unsafe`).
- C58: `sprt_init` checks the parameters it is given and then uses the default ones (`Sprt.parameters_are_ignored`).
- C62: a J-CLIP message with 16 octets after the length is never received, as the length is doubled by the transmitter only (`Adsi.sixteen_octets_are_lost`). With 12 or more stop
  bits nothing is received (`Adsi.many_stop_bits_lose_messages`).
- C65: a field of 16 octets is misread in CLASS, CLIP and A-CLIP, as its length is doubled when it is added (`Adsi.sixteen_octets_are_misread`). In J-CLIP a body with DLE is misread (`Adsi.dle_is_misread`).
- C66: `adsi_next_field` reads beyond messages which end after the type of a field, and beyond a message of digits which has only its end mark (`Adsi.walk_reads_outside`).
- C67: a message in figures which follows a message in figures arrives as letters (`Adsi.text_is_garbled`). Octets from 128 on are looked up outside of the table (`Adsi.baudot_reads_outside`).
- C68: a receiver of grey pages only says that it takes colour (`Nego.grey_receiver_is_sent_colour`). Pages of 100 by 100 are never sent though both ends have that (`Nego.hundred_dpi_is_never_sent`).
- C69: pages of twelve bits are sent to those who did not offer that (`Nego.twelve_bits_are_sent_unasked`). Rescaled pages are sent with the wrong width (`Nego.rescaled_page_has_two_widths`).
- C70: a receiver with one of two resolutions which share a bit is sent the other and refuses it (`Nego.unpaired_resolution_is_refused`, `Nego.shared_colour_bit_is_refused`,
  `Nego.bilevel_200_is_refused_in_colour`); likewise one with T.43 only, or without one-dimensional coding (`Nego.t43_only_is_refused`, `Nego.two_dimensional_only_is_refused`).
- C71: modems which the application took away are used all the same (`Nego.disabled_modem_is_used`), and accepted (`Nego.unoffered_modem_is_accepted`).
- C72: a DCS of 26 octets or more overflows the text kept for the application (`Nego.long_dcs_overflows`).
- C74: V.92 as a modulation is never told (`V8.v92_not_told`).
- C75: the ends may disagree on the protocols (`V8.protocols_differ`). `v8_continue` garbles the parameters it is given, so that a JM goes out without them (`V8.continue_garbles`, `V8.continue_loses`).
- C76: a CM with an octet for non-standard facilities hangs the receiver (`V8.nsf_hangs`).
- C78: an answerer can report both a calling tone and a failure or a success (`V8.two_reports`).
- C79: a caller which sends no CI waits for an answer tone for ever (`V8.waits_for_ever`).
- C80: CM may go out before the wait after ANSam is over (`V8.cm_too_early`), and the V.92 messages after a CM (`V8.v92_too_late`).
- C81: an odd number of samples at 16000 samples a second reads beyond the array (`G722.odd_overreads`).
- C83: the last code of packed data stays in the decoder though all its bits are there (`G722.packed_lags`).
- C85: a check digit of 10 is sent although digits A are refused (`ContactId.check_digit_D`); large fields overflow (`ContactId.too_long`).
- C86: a 0 taken for a D goes unnoticed (`ContactId.zero_for_D`); after a lost digit a report which was never sent may be told (`ContactId.lost_digit_wrong`).
- C87: a message during a kissoff leaves the receiver sending stale samples for ever (`ContactId.message_in_kissoff`).
- C88: retries never go out (`ContactId.no_retry`).
- C89: busy for ever after a failure (`ContactId.busy_for_ever`), two results (`ContactId.two_results`), success of nothing (`ContactId.success_of_nothing`), no result for a second report (`ContactId.second_not_watched`), failure of a refused report (`ContactId.refused_fails`), deaf after four bad kissoffs (`ContactId.deaf`).
- C93: samples at full scale come out with the wrong sign (`G726.overload_wraps`).

- C98: the code `##0` is out of order in the table and never found (`V18.space_lost`); after it, and after digits which are in no code, the next digit copies between areas which overlap (`V18.unknown_code_undefined`); a letter A to D makes text lag and repeat (`V18.letter_repeats`); more than 257 times `#` writes beyond the message (`V18.overflow`). The option for repeated shifts has no effect (`V18.repeat_never`).

- C99: with more than four levels a step on the fourth goes on for ever (`SuperTone.fifth_level_unheard`), and an endless step without samples hangs the call (`SuperTone.hangs`).
- C100: an endless cadence without samples hangs the call (`ToneGen.hangs`).

- C101: with double escapes the last octet of the room may be lost (`T31.last_lost`); a computer which ignores the room has octets written beyond the buffer (`T31.overrun`); and one which is told to wait may never be told to go on, although the buffer is empty (`T31.stuck`).
- C103: every frame of 255 octets or more, which the other end chooses, is written beyond the buffer (`T31.long_frame_overflows`), and so are shorter ones with escapes (`T31.dle_frame_overflows`).
- C104: a frame of more than 284 octets is written beyond the buffer (`T31.long_frame_from_computer`).

- C106: a line with a command which is not known is answered with OK (`At.unknown_ok`).
- C107: a decimal number of 2147483648 or more overflows (`At.num_overflows`); a hexadecimal "FF" is read as 85 (`At.hex_wrong`).
- C105: of a line of more than 253 characters the first 253 are run (`At.long_line`), where V.250 asks for ERROR.

- C109: `power_meter_rx` returns 0 where its documentation promises the reading (`Power.rx_returns_zero`).
- C110: with a ratio of 6 dB a signal which grows slowly makes a product overflow (`Power.surge_overflows`).

- C114: one machine is never recognised, as another with the same five bytes is listed before it (`T35.machine_hidden`).
- C114: messages below three bytes are read beyond their end, as the length is compared with that of the identity without the country code (`T35.short_messages_overread`).

- C116: after 2037 there is no summer time (`Calendar.july_2038`, `Calendar.no_summer_after_2037`).

- C117: `tzparse` accepts a semicolon before the rules, but after a name (with no offset between) the reader of the name takes it for part of the name: "EST5EDT;M3.2.0,M11.1.0" is refused (`Calendar.semicolon`). A semicolon is not POSIX syntax, so C117 does not claim it.

- C124: with all parts of a number and of the error at -32768 the sum in `cvec_lmsi16` is 2^31, which is signed overflow (`VecInt.clms_overflow`).


## Axioms

Every theorem named in MANIFEST.json depends on a subset of `propext`, `Classical.choice` and
`Quot.sound`; nothing else is used. (`vcheck` audits this for each of them.)
