{"id": "C01", "title": "Message buffer never points outside its storage", "statement": "After any sequence of message-buffer operations each performed within its documented room (push <= headroom, put <= tailroom, pull/get <= length, reserve on an empty buffer <= tailroom), the payload lies inside the allocated storage: head <= data <= tail <= head + size, headroom + length + tailroom = size, and no operation touches a byte outside the storage.", "quantifier": "every allocation size, every finite sequence of reserve/put/push/pull/get/trim/reset operations with every argument", "why_tests_cant": "the number of operation sequences is unbounded; a test exercises a handful of orders and sizes", "anchors": ["include/osmocom/core/msgb.h: msgb_put msgb_get msgb_push msgb_pull msgb_trim msgb_reserve msgb_headroom msgb_tailroom msgb_test_invariant", "src/core/msgb.c: msgb_reset"]}
{"id": "C02", "title": "Message buffer behaves as a double-ended byte sequence", "statement": "put appends exactly the given bytes to the payload, push prepends them, pull removes a prefix, get removes a suffix; bytes of the payload that are not added or removed never change, and multi-byte integer put/get and push/pull pairs return the pushed value in network order.", "quantifier": "every payload, every byte string, every sequence of operations within room", "why_tests_cant": "content preservation must hold for all payloads and interleavings of head and tail operations", "anchors": ["include/osmocom/core/msgb.h: msgb_put_u8 msgb_put_u16 msgb_put_u32 msgb_get_u8 msgb_get_u16 msgb_get_u32 msgb_push_u8 msgb_push_u16 msgb_push_u32 msgb_pull_u8 msgb_pull_u16 msgb_pull_u32"]}
{"id": "C03", "title": "Resizing operations keep the payload inside the storage", "statement": "msgb_trim, msgb_resize_area and msgb_copy_resize, whenever they report success, leave the payload inside the storage and preserve all bytes outside the resized area, for every headroom.", "quantifier": "every buffer geometry (headroom, length, size) and every requested length", "why_tests_cant": "the failing geometries need a non-zero headroom combined with a large requested length; unit tests use only a few geometries", "anchors": ["include/osmocom/core/msgb.h: msgb_trim", "src/core/msgb.c: msgb_resize_area msgb_copy_resize_c"]}
{"id": "C04", "title": "Message queue is FIFO and its counter is exact", "statement": "Messages come out of a message queue in exactly the order they were enqueued, none lost or duplicated, and the counter kept by the counting variants equals the queue length at all times, provided only the counting variants are used on that queue.", "quantifier": "every interleaving of enqueue and dequeue operations of any length", "why_tests_cant": "an unbounded history property", "anchors": ["src/core/msgb.c: msgb_enqueue msgb_dequeue", "include/osmocom/core/msgb.h: msgb_enqueue_count msgb_dequeue_count"]}
{"id": "C05", "title": "Packed/unpacked bit conversion is lossless", "statement": "Unpacking packed bytes and packing them again gives the same bytes; packing n unpacked bits and unpacking n bits gives the same bits; the number of bytes used is ceil(n/8) and unused low bits of the last byte are zero.", "quantifier": "every bit string of every length (including lengths that are not a multiple of 8)", "why_tests_cant": "2^n inputs for every n", "anchors": ["src/core/bits.c: osmo_ubit2pbit osmo_pbit2ubit", "include/osmocom/core/bits.h: osmo_pbit_bytesize"]}
{"id": "C06", "title": "Offset bit copies touch exactly the addressed bits", "statement": "osmo_ubit2pbit_ext / osmo_pbit2ubit_ext with any source/destination bit offset and either bit order transfer exactly num_bits bits to positions [dst_ofs, dst_ofs+num_bits) and leave every other destination bit unchanged; writing then reading at the same offset and order returns the bits written.", "quantifier": "every offset, length, destination content and bit order", "why_tests_cant": "offset/length/order combinations are unbounded; tests fix a few offsets", "anchors": ["src/core/bits.c: osmo_ubit2pbit_ext osmo_pbit2ubit_ext"]}
{"id": "C07", "title": "Bit reversal functions are involutions and agree with positional reversal", "statement": "osmo_revbytebits_8/_32/_buf place input bit i at output bit (w-1-i) of each byte; applying them twice is the identity; osmo_bit_reversal with the bit/nibble/byte masks obeys its documented permutation for every 32 bit value.", "quantifier": "every 8- and 32-bit value and every byte buffer", "why_tests_cant": "2^32 values, buffers of any length", "anchors": ["src/core/bits.c: osmo_bit_reversal osmo_revbytebits_32 osmo_revbytebits_8 osmo_revbytebits_buf flip_table"]}
{"id": "C08", "title": "Bit vector integer fields round-trip and leave neighbours unchanged", "statement": "Writing an n-bit unsigned value (n <= 64) at a bit position and reading n bits from that position returns the value modulo 2^n; the cursor advances by n; bits outside the field are unchanged; writes beyond the end report an error and never write outside the vector.", "quantifier": "every vector content, position, width 0..64 and value", "why_tests_cant": "position x width x value x content space is astronomically large", "anchors": ["src/core/bitvec.c: bitvec_set_u64 bitvec_set_uint bitvec_get_uint bitvec_set_bit bitvec_get_bit_pos bitvec_set_bit_pos"]}
{"id": "C09", "title": "L/H-relative bits are decoded independently of position", "statement": "For every byte-position, setting a bit to L or H and reading it back in high/low mode yields the same L/H symbol, using the 0x2b padding octet pattern repeated over the vector; spare padding fills the rest of the vector with L.", "quantifier": "every vector, position and symbol", "why_tests_cant": "position space is unbounded", "anchors": ["src/core/bitvec.c: bitvec_get_bit_pos_high bitvec_set_bit_pos bitval2mask bitvec_spare_padding"]}
{"id": "C10", "title": "Bit vector field and byte-array transfers round-trip at any alignment", "statement": "bitvec_write_field followed by bitvec_read_field at the same index returns the value modulo 2^len; bitvec_set_bytes followed by bitvec_get_bytes at the same (possibly unaligned) position returns the bytes; both leave the rest of the vector unchanged.", "quantifier": "every alignment, length and content", "why_tests_cant": "alignment-by-length combinations and contents are unbounded", "anchors": ["src/core/bitvec.c: bitvec_write_field bitvec_read_field bitvec_set_bytes bitvec_get_bytes"]}
{"id": "C11", "title": "Run-length and search functions on bit vectors are exact", "statement": "bitvec_rl and bitvec_rl_curbit return the length of the longest run of the given bit value from the start/cursor within the valid bits (and the latter moves the cursor to its end); bitvec_find_bit_pos returns the first position >= n holding the value or -1 iff there is none; bitvec_get_nth_set_bit returns the position of the n-th set bit.", "quantifier": "every vector, cursor, total and n", "why_tests_cant": "requires all bit patterns of all lengths", "anchors": ["src/core/bitvec.c: bitvec_rl bitvec_rl_curbit bitvec_find_bit_pos bitvec_get_nth_set_bit"]}
{"id": "C12", "title": "BCD text conversion is a faithful round trip", "statement": "osmo_str2bcd followed by osmo_bcd2str over the same nibble range reproduces every digit string; osmo_bcd2str never writes beyond dst_size, always NUL-terminates and returns the length that would have been written.", "quantifier": "every digit string, every nibble range, every destination size", "why_tests_cant": "digit strings of any length and any range", "anchors": ["src/core/utils.c: osmo_str2bcd osmo_bcd2str osmo_bcd2char osmo_char2bcd"]}
{"id": "C13", "title": "Hex dump and hex parse are inverse", "statement": "Parsing the hex dump of a byte string returns exactly that byte string; parsing rejects any string with a non-hex character outside the permitted separators or with an odd digit count; the dump never overruns its buffer.", "quantifier": "every byte string, every delimiter accepted by the parser, every buffer size", "why_tests_cant": "256^n inputs, every buffer size", "anchors": ["src/core/utils.c: osmo_hexparse osmo_hexdump_buf osmo_hexdump_nospc"]}
{"id": "C14", "title": "Integer square root is exact", "statement": "osmo_isqrt32(x) returns the greatest r with r*r <= x and terminates for every 32-bit x.", "quantifier": "all 2^32 inputs", "why_tests_cant": "exhaustive testing is impractical in a unit test and termination is not observable", "anchors": ["src/core/utils.c: osmo_isqrt32"]}
{"id": "C15", "title": "Luhn check digit completes the number and detects all single-digit errors", "statement": "Appending the digit computed by osmo_luhn makes the standard Luhn sum divisible by ten, and changing any single digit or the check digit changes the outcome.", "quantifier": "digit strings of every length, every error position and value", "why_tests_cant": "unbounded strings x positions x substitutions", "anchors": ["src/core/utils.c: osmo_luhn"]}
{"id": "C16", "title": "Decimal fixed-point text conversion round-trips", "statement": "Rendering an integer scaled by 10^-precision and parsing it with the same precision returns the same integer, for every precision; rendering produces no trailing zeros and parsing truncates surplus digits toward zero; out of range values are rejected and not wrapped.", "quantifier": "all int64 values, all precisions", "why_tests_cant": "2^64 values x precisions", "anchors": ["src/core/utils.c: osmo_float_str_to_int osmo_int_to_float_str_buf"]}
{"id": "C17", "title": "String to integer conversion is exact or an error", "statement": "osmo_str_to_int64/osmo_str_to_int succeed exactly when the whole string is a number in the base and within [min,max], then return that value; trailing characters, overflow and out-of-range are errors with the documented code and clamped value.", "quantifier": "every string, base and range", "why_tests_cant": "unbounded strings", "anchors": ["src/core/utils.c: osmo_str_to_int64 osmo_str_to_int"]}
{"id": "C18", "title": "Escaped strings are safe to print and bounded", "statement": "The output of osmo_escape_str_buf / osmo_quote_str_buf contains no raw control character and no unescaped double quote or backslash for the C-style variant, is NUL-terminated within bufsize, and unescaping it yields the original string when it was not truncated.", "quantifier": "every byte string and every buffer size", "why_tests_cant": "256^n inputs and all truncation points", "anchors": ["src/core/utils.c: osmo_escape_str_buf3 osmo_escape_cstr_buf osmo_quote_cstr_buf"]}
{"id": "C19", "title": "String-buffer appends are truncation-safe", "statement": "For any sequence of OSMO_STRBUF appends the buffer holds the longest prefix of the concatenated output fitting in len-1 bytes followed by NUL, never writes outside the buffer, and chars_needed equals the total length of all output.", "quantifier": "every sequence of appends and every buffer length including 0", "why_tests_cant": "all truncation points of all append sequences", "anchors": ["include/osmocom/core/utils.h: OSMO_STRBUF_APPEND OSMO_STRBUF_APPEND_NOLEN OSMO_STRBUF_PRINTF struct osmo_strbuf", "src/core/utils.c: osmo_strbuf_drop_tail osmo_strbuf_added_tail osmo_print_n"]}
{"id": "C20", "title": "Timers fire exactly once, only when due, and never after deletion", "statement": "A pass of the timer loop at time now runs the callback of exactly those timers that were pending with expiry <= now at the beginning and were not deleted or rescheduled by an earlier callback of the same pass; a timer fires at most once per schedule; after the pass no pending timer has expiry <= now unless a callback scheduled it; nearest is the minimum remaining time, clamped at 0.", "quantifier": "every set of timers, every callback behaviour (arbitrary add/del of any timers), every clock value", "why_tests_cant": "callback interleavings are unbounded", "anchors": ["src/core/timer.c: osmo_timer_add osmo_timer_schedule osmo_timer_del osmo_timer_pending osmo_timers_prepare osmo_timers_update osmo_timers_nearest"]}
{"id": "C21", "title": "Use counts equal the sum of gets minus puts", "statement": "For every non-NULL token, the count reported by osmo_use_count_by equals the sum of all accepted changes; a change is refused (-ERANGE, nothing changes) exactly if the count would leave the int32 range; changes of one token never affect another; the total is the sum over tokens, clamped to the int32 range; an error returned by the callback is passed on and does not undo the change.", "quantifier": "every history of get/put/free/static-entry operations with arbitrary tokens and amounts, every callback verdict", "why_tests_cant": "unbounded histories", "anchors": ["src/core/use_count.c: osmo_use_count_get_put _osmo_use_count_get_put osmo_use_count_by osmo_use_count_total osmo_use_count_make_static_entries"]}
{"id": "C22", "title": "SERCOMM framing transports messages unchanged", "statement": "Feeding the byte stream produced by the transmitter into the receiver delivers exactly the enqueued messages, in order per priority, to the handler of the DLCI they were sent on, for every payload shorter than the receive buffer; the encoded payload never contains an unescaped flag.", "quantifier": "every payload content, every sequence of messages over every DLCI", "why_tests_cant": "byte contents and framing interactions between consecutive frames are unbounded", "anchors": ["src/core/sercomm.c: osmo_sercomm_sendmsg osmo_sercomm_drv_pull osmo_sercomm_drv_rx_char"]}
{"id": "C23", "title": "String ring buffer returns the newest strings in order", "statement": "After any sequence of adds, a ring buffer of capacity n holds the last min(k,n-1) strings, truncated to the entry size; get_nth(i) returns the i-th oldest held string and NULL for every other index.", "quantifier": "every capacity, every history of additions, every index", "why_tests_cant": "wrap-around states for all capacities and histories", "anchors": ["src/core/strrb.c: osmo_strrb_add osmo_strrb_get_nth osmo_strrb_elements osmo_strrb_is_empty"]}
{"id": "C24", "title": "CRC set/check consistency and error detection", "statement": "The CRC register after a block is the remainder of the division of init*x^len + data*x^n by the generator over GF(2); a block whose CRC bits were set verifies and no other CRC bits do; the CRC is linear; any non-zero burst error no longer than the CRC width, in data and/or CRC bits, makes the check fail.", "quantifier": "every code width the implementation defines (1..W, below W for the 32 and 64 bit variants), every generator (with non-zero constant term for bursts), init, remainder, data length and content, every burst position", "why_tests_cant": "data lengths, contents and error patterns are unbounded", "anchors": ["src/core/crcXXgen.c.tpl: osmo_crcXXgen_compute_bits osmo_crcXXgen_check_bits osmo_crcXXgen_set_bits"]}
{"id": "C25", "title": "Table-driven CRC-16 equals bit-serial polynomial division", "statement": "osmo_crc16 and osmo_crc16_ccitt over any buffer equal the bit-serial division by their documented polynomial, and can be computed incrementally over any split of the buffer.", "quantifier": "every buffer and every split point", "why_tests_cant": "unbounded buffers; a single wrong table entry is only hit by particular bytes/states", "anchors": ["src/core/crc16.c: osmo_crc16 osmo_crc16_byte osmo_crc16_ccitt osmo_crc16_table osmo_crc16_ccitt_table"]}
{"id": "C26", "title": "TLV parsing never reads outside the buffer and only reports in-bounds values", "statement": "For every definition table and every input, tlv_parse_one either fails or returns a value window inside the input and a consumed length that is positive and not beyond the buffer; tlv_parse over the whole buffer terminates.", "quantifier": "every definition table, every buffer content and length", "why_tests_cant": "all malformed inputs must be covered", "anchors": ["src/gsm/tlv_parser.c: tlv_parse_one tlv_parse tlv_parse2"]}
{"id": "C27", "title": "TLV encode/parse round trip", "statement": "Encoding a value with the definition of its tag and parsing it again with the same definition returns the same tag and value, for all definition types; encoding a parsed set and parsing it again gives the same set.", "quantifier": "every definition type, tag, value length and content", "why_tests_cant": "length encodings switch form at several boundaries and values are unbounded", "anchors": ["src/gsm/tlv_parser.c: tlv_encode_one tlv_encode tlv_parse_one", "include/osmocom/gsm/tlv.h: tlv_put tvlv_put t16lv_put vtvlv_gan_put"]}
{"id": "C28", "title": "PLMN BCD coding round-trips", "statement": "Encoding an MCC/MNC (with its two/three digit flag) into 3 octets puts the digits where 3GPP TS 24.008 wants them; decoding returns the same MCC, MNC and digit flag (the flag counts as set for an MNC above 99, as documented in gsm23003.h); the encoding is injective up to that; valid octets are reproduced by decoding and encoding.", "quantifier": "all MCC 0..999, MNC 0..999, both digit counts; all octets with decimal digits", "why_tests_cant": "the two- versus three-digit distinction for small MNCs is easily lost; a million combinations", "anchors": ["src/gsm/gsm23003.c: osmo_plmn_to_bcd osmo_plmn_from_bcd"]}
{"id": "C29", "title": "Network identity comparison functions are total orders", "statement": "osmo_mnc_cmp, osmo_plmn_cmp, osmo_lai_cmp, osmo_rai_cmp, osmo_cgi_cmp, osmo_cgi_ps_cmp, osmo_rnc_id_cmp, osmo_mme_id_cmp and osmo_gummei_cmp return -1, 0 or 1 by the lexicographic order of their parts, are reflexive, antisymmetric and transitive and return 0 exactly for identities that denote the same network element: those with the same printed name and the same code on the air.", "quantifier": "all identities", "why_tests_cant": "transitivity and antisymmetry range over pairs and triples", "anchors": ["src/gsm/gsm23003.c: osmo_mnc_cmp osmo_plmn_cmp osmo_lai_cmp osmo_rai_cmp osmo_cgi_cmp osmo_cgi_ps_cmp osmo_rnc_id_cmp osmo_mme_id_cmp osmo_gummei_cmp"]}
{"id": "C30", "title": "GSM 7-bit packing round-trips", "statement": "gsm_septet_pack writes the 7-bit digits of its septets as one number, low bits first, after the padding bits; the number of octets is ceil((7n+padding)/8); unpacking the same number of septets (also after a user data header) gives the text of exactly these septets, without reading outside of the packed octets, and text and NUL fit the buffer.", "quantifier": "every septet string of every length, every padding, every buffer size", "why_tests_cant": "128^n strings; boundary behaviour depends on length mod 8", "anchors": ["src/gsm/gsm_utils.c: gsm_septet_pack gsm_7bit_decode_n_hdr gsm_get_octet_len"]}
{"id": "C31", "title": "GSM frame number decomposition is a bijection", "statement": "Converting a frame number to T1/T2/T3 and back is the identity on [0, 2715648) and every reachable (T1,T2,T3) maps to a unique frame number.", "quantifier": "all 2715648 frame numbers and all valid T1/T2/T3 triples", "why_tests_cant": "relies on the Chinese remainder argument over the full range", "anchors": ["src/gsm/gsm_utils.c: gsm_fn2gsmtime gsm_gsmtime2fn"]}
{"id": "C32", "title": "Reduced frame number expansion picks the closest frame", "statement": "gsm_rfn2fn(rfn, cur) is congruent to rfn modulo 42432 and is within half a period of the current frame number modulo the hyperframe.", "quantifier": "every rfn and current frame number", "why_tests_cant": "42432 x 2715648 pairs", "anchors": ["src/gsm/gsm_utils.c: gsm_rfn2fn"]}
{"id": "C33", "title": "ARFCN/frequency mapping is invertible", "statement": "For every valid ARFCN (with PCS flag) in either direction the frequency conversion and its inverse return the same ARFCN and band flags; invalid ARFCNs and frequencies return 0xffff.", "quantifier": "all 65536 ARFCN encodings x 2 directions, all 65536 frequencies", "why_tests_cant": "overlapping ranges are resolved by table order; only full enumeration shows no range shadows another", "anchors": ["src/gsm/gsm_utils.c: gsm_arfcn2freq10 gsm_freq102arfcn gsm_arfcn2band_rc gsm_ranges"]}
{"id": "C34", "title": "TDMA frame arithmetic and ordering", "statement": "GSM_TDMA_FN_SUM/SUB form addition/subtraction modulo the hyperframe; GSM_TDMA_FN_DIFF is the symmetric circular distance; gsm0502_fncmp is antisymmetric and agrees with the direction of the shorter circular distance.", "quantifier": "all pairs of frame numbers", "why_tests_cant": "7.4e12 pairs", "anchors": ["include/osmocom/gsm/gsm0502.h: GSM_TDMA_FN_SUM GSM_TDMA_FN_SUB GSM_TDMA_FN_DIFF gsm0502_fncmp"]}
{"id": "C35", "title": "Frequency hopping stays within the allocation and is collision free", "statement": "gsm0502_hop_seq_gen always returns an index inside the mobile allocation, never indexes its random table out of bounds for hsn < 64, and two channels with the same hopping sequence number and different MAIO never use the same frequency at the same time.", "quantifier": "every frame number, hsn 0..63, maio, and allocation size 1..64", "why_tests_cant": "billions of combinations; collision freedom relates pairs of channels", "anchors": ["src/gsm/gsm0502.c: gsm0502_hop_seq_gen rn_table"]}
{"id": "C36", "title": "Block-begin frame remapping is consistent with the block maps", "statement": "gsm0502_fn_remap maps the last frame of a block to the first frame of the same block according to the published block maps, for every frame number, wrapping correctly at the hyperframe; frames which end no block are returned unchanged.", "quantifier": "every frame number and channel type", "why_tests_cant": "2.7 million frames x channel types with wrap", "anchors": ["src/gsm/gsm0502.c: gsm0502_fn_remap fn_remap_tables_build"]}
{"id": "C37", "title": "Convolutional encoder output length is exact", "statement": "osmo_conv_encode writes exactly osmo_conv_get_output_length bits for every code (N, K, termination, sorted in-range puncturing) and every input.", "quantifier": "every code description, puncture table and input", "why_tests_cant": "puncture tables and lengths are unbounded", "anchors": ["src/core/conv.c: osmo_conv_get_output_length osmo_conv_encode osmo_conv_encode_raw osmo_conv_encode_flush"]}
{"id": "C38", "title": "Generic Viterbi decoder finds a minimum-metric path", "statement": "The survivor metric of every trellis state after any number of steps equals the minimum, over all input sequences reaching the state, of the summed branch metrics (while below the saturation value), and the traced back sequence attains it; hence error-free encoded input decodes to the original bits with metric 0-equivalent minimum.", "quantifier": "every code, every soft input, every length", "why_tests_cant": "optimality ranges over exponentially many competing paths", "anchors": ["src/core/conv.c: osmo_conv_decode_scan osmo_conv_decode_flush osmo_conv_decode_get_output osmo_conv_decode_get_best_end_state"]}
{"id": "C39", "title": "FSM instances only make permitted transitions", "statement": "In every execution of any user callbacks, every state change of an instance is one permitted by the out-state mask of the state left, events reach a state's action only if in its event mask (or the all-state mask), and a terminating instance accepts neither events nor state changes.", "quantifier": "every FSM description, every sequence of events/state change requests/timeouts/termination", "why_tests_cant": "unbounded histories", "anchors": ["src/core/fsm.c: state_chg _osmo_fsm_inst_dispatch _osmo_fsm_inst_term"]}
{"id": "C40", "title": "FSM timer follows the last state change", "statement": "After an accepted state change the timer is running iff a timeout was requested (or, with the keep variants, iff it was already running or one was requested), and a pending timer always belongs to the latest accepted change.", "quantifier": "every history of state changes with every mix of keep/start variants", "why_tests_cant": "unbounded histories", "anchors": ["src/core/fsm.c: state_chg fsm_tmr_cb"]}
{"id": "C41", "title": "Terminating an FSM instance terminates its whole subtree", "statement": "Terminating an instance terminates all its direct and indirect children (each exactly once, children before their parent's cleanup), removes it from its parent and notifies the parent exactly once unless the parent caused the termination.", "quantifier": "every tree of instances", "why_tests_cant": "trees of unbounded depth and width", "anchors": ["src/core/fsm.c: _osmo_fsm_inst_term _osmo_fsm_inst_term_children"]}
{"id": "C42", "title": "Soft UART transports characters for every framing", "statement": "Characters sent by the soft UART transmitter and fed bit by bit to a receiver of the same configuration are received unchanged, without parity or framing errors, for every data-bit/parity/stop-bit configuration (data truncated to num_data_bits); a single flipped data bit under even/odd parity is flagged.", "quantifier": "every configuration and every character string", "why_tests_cant": "5 parities x widths x unbounded strings", "anchors": ["src/core/soft_uart.c: suart_rx_bit suart_tx_bit osmo_soft_uart_rx_ubits osmo_soft_uart_tx_ubits"]}
{"id": "C43", "title": "Soft UART receive buffer never overflows", "statement": "For any sequence of configuration changes and received bits the receive buffer is never written beyond its allocated size.", "quantifier": "every history of (re)configuration, flushes, timer expiry and received bits", "why_tests_cant": "unbounded histories", "anchors": ["src/core/soft_uart.c: osmo_soft_uart_configure suart_rx_ch osmo_soft_uart_set_rx osmo_soft_uart_flush_rx"]}
{"id": "C44", "title": "Base64 decode inverts encode", "statement": "Decoding the base64 encoding of any byte string returns it; the encoded length is 4*ceil(n/3); the encoder and decoder never write beyond dlen; the decoder rejects characters outside the alphabet.", "quantifier": "every byte string and destination size", "why_tests_cant": "256^n inputs", "anchors": ["src/core/base64.c: osmo_base64_encode osmo_base64_decode"]}
{"id": "C45", "title": "ISDN HDLC framing is transparent", "statement": "A frame's bit stream produced by HDLC encoding (bit stuffing, CRC, flags) decodes to the same payload with a good CRC; the stuffed payload never contains six consecutive ones.", "quantifier": "every payload", "why_tests_cant": "bit stuffing depends on all bit patterns and alignments", "anchors": ["src/core/isdnhdlc.c: osmo_isdnhdlc_encode osmo_isdnhdlc_decode"]}
{"id": "C46", "title": "Range 128..1024 channel lists preserve the frequency set", "statement": "A sorted frequency list encoded by the range encoder and decoded with the 3GPP 44.018 annex J formulas yields the same set of ARFCNs.", "quantifier": "every list of ARFCNs within the size and span limits", "why_tests_cant": "the number of frequency sets is combinatorial", "anchors": ["src/gsm/gsm48_arfcn_range_encode.c: osmo_gsm48_range_enc_arfcns osmo_gsm48_range_enc_determine_range osmo_gsm48_range_enc_filter_arfcns write_all_wn", "src/gsm/gsm48_ie.c: gsm48_decode_freq_list"]}
{"id": "C47", "title": "TMSI/TLLI derivation and classification are consistent", "statement": "The TLLI derived from a TMSI for a given type is classified as that type, converting it back yields the TMSI's 30 significant bits, and every 32-bit value has exactly one classification as in 3GPP TS 23.003.", "quantifier": "all 2^32 values and all types", "why_tests_cant": "2^32 values", "anchors": ["src/gsm/gsm_utils.c: gprs_tlli_type gprs_tmsi2tlli gprs_tlli2tmsi"]}
{"id": "C48", "title": "Floor and Euclidean modulus macros satisfy their definitions", "statement": "OSMO_MOD_FLR(x,y) has the sign of y and OSMO_MOD_EUC(x,y) is in [0,|y|), both congruent to x modulo y.", "quantifier": "all integers x and non-zero y", "why_tests_cant": "unbounded range", "anchors": ["include/osmocom/core/utils.h: OSMO_MOD_FLR OSMO_MOD_EUC"]}
{"id": "C49", "title": "Reset clears the message", "statement": "msgb_reset leaves an empty message whose whole storage is tail room and with no layer header pointer set.", "quantifier": "every message state reachable by the API", "why_tests_cant": "histories before the reset are unbounded", "anchors": ["src/core/msgb.c: msgb_reset"]}
{"id": "C50", "title": "Endian load/store are exact and mutually inverse", "statement": "For widths 16/32/64 and every octet count n up to the width, little/big endian loads return the numeric value of the n octets (in the documented half of the word), stores emit the octets of the value modulo 2^(8n), and store/load are mutually inverse.", "quantifier": "all values, all octet counts, all byte strings", "why_tests_cant": "2^64 values x widths x octet counts", "anchors": ["include/osmocom/core/bitXXgen.h.tpl: osmo_loadXXle_ext osmo_loadXXbe_ext osmo_loadXXbe_ext_2 osmo_storeXXle_ext osmo_storeXXbe_ext"]}
{"id": "C51", "title": "Formatted append to a message is all-or-nothing", "statement": "msgb_printf either appends the complete rendered string and returns 0 or returns -EINVAL and leaves the payload and both rooms unchanged; it succeeds exactly when string plus terminator fit the tail room and never writes outside the storage.", "quantifier": "every message state and every rendered string", "why_tests_cant": "all truncation boundaries for all room sizes", "anchors": ["src/core/msgb.c: msgb_printf"]}
{"id": "C52", "title": "Nibble shifts, soft bits and rotation are lossless", "statement": "osmo_nibble_shift_right followed by osmo_nibble_shift_left_unal returns the original nibbles for every nibble count; hard bits survive conversion to soft bits and back; osmo_rol16 moves input bit (i-s) mod 16 to output bit i for every shift 0..16.", "quantifier": "every buffer, nibble count, value and shift", "why_tests_cant": "all lengths and contents", "anchors": ["src/core/bits.c: osmo_nibble_shift_right osmo_nibble_shift_left_unal osmo_ubit2sbit osmo_sbit2ubit", "include/osmocom/core/bits.h: osmo_rol16"]}
{"id": "C53", "title": "Bit vector left shift moves every bit", "statement": "After bitvec_shiftl(bv, n), bit i of the vector is the former bit i+n for every i inside the remaining valid bits, the cursor is reduced by n, and nothing outside the vector is accessed.", "quantifier": "every vector size and content, every cursor and n", "why_tests_cant": "sizes x shifts x contents unbounded", "anchors": ["src/core/bitvec.c: bitvec_shiftl"]}
{"id": "C54", "title": "CSN.1 array append is exact and announced exactly", "statement": "bitvec_add_array appends exactly the repetition {1 <element>} ** 0, its dry run returns exactly the number of bits appended, other bits are unchanged, and different arrays have prefix-free encodings.", "quantifier": "every array, element width 0..64, vector and cursor", "why_tests_cant": "arrays of any length", "anchors": ["src/core/bitvec.c: bitvec_add_array"]}
{"id": "C55", "title": "The poll timeout is never shorter than the time to the next timer", "statement": "osmo_timers_nearest_ms returns the remaining time of the nearest timer in milliseconds rounded up: never less than the remaining time, never a millisecond or more above it, 0 only if the timer is due, and -1 exactly if no timer is pending.", "quantifier": "every remaining time a timer can have", "why_tests_cant": "one millisecond roundings and integer conversions depend on the exact value of 64-bit seconds", "anchors": ["src/core/timer.c: osmo_timers_nearest_ms"]}
{"id": "C56", "title": "The use count listing shows exactly the entries in use", "statement": "osmo_use_count_to_str_buf prints the total and the comma separated list of all tokens with non-zero count, each with its count unless it is 1, or a dash if there are none; it returns the full length and the buffer holds as much as fits, always terminated.", "quantifier": "every list of entries, every buffer size including 0", "why_tests_cant": "all lengths of listings against all buffer sizes", "anchors": ["src/core/use_count.c: osmo_use_count_to_str_buf"]}
{"id": "C57", "title": "TLV cursor functions", "statement": "osmo_shift_v_fixed, osmo_shift_tlv, osmo_shift_lv and the matching variants take exactly one complete element from the front of the data and report its value, leave the data alone when another tag is there, and consume everything with -1 when the data are truncated; they never reach outside of the data.", "quantifier": "every buffer, tag and length", "why_tests_cant": "unbounded buffers, all truncations", "anchors": ["src/gsm/tlv_parser.c: osmo_shift_v_fixed osmo_match_shift_tv_fixed osmo_match_shift_tlv osmo_shift_tlv osmo_shift_lv"]}
{"id": "C58", "title": "TLV definition patching and message validation", "statement": "tlv_def_patch fills only undefined slots and is idempotent; osmo_tlv_prot_validate_tp succeeds exactly if all mandatory IEs are present and all IEs present have their minimum length, and reports a missing IE before a short one.", "quantifier": "every definition table, set of mandatory IEs, minimum lengths and parsed set", "why_tests_cant": "256 slots with arbitrary contents", "anchors": ["src/gsm/tlv_parser.c: tlv_def_patch osmo_tlv_prot_validate_tp"]}
{"id": "C59", "title": "Copy and merge of parsed TLV sets", "statement": "osmo_tlvp_copy returns a set with the same values; osmo_tlvp_merge gives dst the values of src, with their lengths, and keeps the others.", "quantifier": "every pair of sets", "why_tests_cant": "arbitrary values", "anchors": ["src/gsm/tlv_parser.c: osmo_tlvp_copy osmo_tlvp_merge"]}
{"id": "C60", "title": "Subscriber number validators accept exactly the documented digit strings", "statement": "osmo_imsi_str_valid accepts exactly strings of 6 to 15 digits, osmo_msisdn_str_valid 1 to 15 digits, osmo_imei_str_valid 14 digits, or 15 digits passing the Luhn test; NULL is refused.", "quantifier": "all strings of any length", "why_tests_cant": "the accepted set is a condition on unboundedly many strings, the check digit on all 10^15", "anchors": ["src/gsm/gsm23003.c: is_n_digits osmo_imsi_str_valid osmo_msisdn_str_valid osmo_imei_str_valid"]}
{"id": "C61", "title": "MNC text is parsed exactly and round-trips", "statement": "osmo_mnc_from_str accepts exactly one to three digits, yields their value and the three digit flag, refuses everything else (NULL, signs, blanks, surplus characters) with -EINVAL leaving the out-arguments alone; what osmo_mnc_name prints is read back with the same number of digits.", "quantifier": "all strings; all MNC 0..999, both flags", "why_tests_cant": "acceptance is a condition on all strings; leading zeros carry meaning", "anchors": ["src/gsm/gsm23003.c: osmo_mnc_from_str osmo_mnc_name_buf"]}
{"id": "C62", "title": "3GPP domain names are generated within the buffer and parse back", "statement": "osmo_gen_home_network_domain, osmo_gen_mme_domain and osmo_gen_mme_group_domain write a NUL-terminated text of 33/54/47 characters within a buffer of the documented size or refuse PLMNs beyond 999; osmo_parse_home_network_domain and osmo_parse_mme_domain return the identity the domain was generated from and refuse text of another form.", "quantifier": "all PLMNs, MME groups and codes, all buffers", "why_tests_cant": "a million PLMNs times 2^24 MME identities; off-by-one of the NUL shows only with an exact buffer", "anchors": ["src/gsm/gsm23003.c: osmo_gen_home_network_domain osmo_parse_home_network_domain osmo_gen_mme_domain osmo_parse_mme_domain osmo_gen_mme_group_domain"]}
{"id": "C63", "title": "GSM 7-bit characters are those of TS 23.038", "statement": "gsm_septet_encode emits for each character of the default alphabet and its extension table the septets of TS 23.038, and encoding and decoding a text of such characters returns it; the encoder never writes more than its limit of octets.", "quantifier": "every text of every length and every limit", "why_tests_cant": "unbounded strings; escape sequences and packing boundaries interact", "anchors": ["src/gsm/gsm_utils.c: gsm_septet_encode gsm_7bit_encode_n gsm_7bit_decode_n gsm_7bit_alphabet"]}
{"id": "C64", "title": "USSD text survives its padding rules", "statement": "Text encoded by gsm_7bit_encode_n_ussd and decoded by gsm_7bit_decode_n_ussd from the octets produced is the text, with the <CR> added for padding removed.", "quantifier": "every text of every length", "why_tests_cant": "the padding depends on the number of septets mod 8 and on the last character", "anchors": ["src/gsm/gsm_utils.c: gsm_7bit_encode_n_ussd gsm_7bit_decode_n_ussd"]}
{"id": "C65", "title": "Power levels and reception levels", "statement": "ms_pwr_ctl_lvl picks in every band a valid level whose power is nearest to the one asked for (below 1 GHz rounded up), is monotone, and is inverted by ms_pwr_dbm on valid levels; rxlev2dbm and dbm2rxlev are inverse on -110..-47 dBm and clamp outside.", "quantifier": "every band, every power (unbounded), every level", "why_tests_cant": "the power is an unbounded unsigned int; nearest quantifies over all other levels", "anchors": ["src/gsm/gsm_utils.c: ms_pwr_ctl_lvl ms_pwr_dbm rxlev2dbm dbm2rxlev"]}
{"id": "C66", "title": "Band names and frame time texts", "statement": "gsm_band_parse accepts the name of every band, and reads the number at the first digits of any text; osmo_dump_gsmtime_buf writes fn/T1/T2/T3/fn mod 52.", "quantifier": "every text, every gsm_time and buffer size", "why_tests_cant": "unbounded texts, truncation at any size", "anchors": ["src/gsm/gsm_utils.c: gsm_band_parse gsm_band_name osmo_dump_gsmtime_buf"]}
{"id": "C67", "title": "Paging groups and CCCH blocks", "statement": "For every allowed control channel description and IMSI, CCCH_GROUP and PAGING_GROUP are within the number of CCCHs and paging blocks of TS 45.002 and together identify the paging block IMSI mod 1000 mod (BS_CC_CHANS x N); no description causes a division by zero; gsm0502_fn2ccch_block names for every frame the CCCH block of the 51-multiframe it belongs to.", "quantifier": "every description, IMSI and frame number", "why_tests_cant": "2^64 IMSIs x 512 descriptions; unsigned wrap in invalid ones", "anchors": ["src/gsm/gsm0502.c: gsm0502_calc_paging_group gsm0502_fn2ccch_block ccch_block_table", "include/osmocom/gsm/gsm0502.h: gsm0502_get_n_pag_blocks gsm0502_get_ccch_group gsm0502_get_paging_group", "src/gsm/gsm48.c: gsm48_number_of_paging_subchannels", "src/gsm/rsl.c: rsl_ccch_conf_to_bs_cc_chans"]}
{"id": "C68", "title": "Soft UART characters do not stay in the receive buffer past the timeout", "statement": "Once the soft UART was configured, whenever its receive buffer holds characters the receive timer is running, and when the timer expires all of them are passed to the receive call-back in one message.", "quantifier": "every history of (re)configuration, enabling, flushes, timer expiry and received bits", "why_tests_cant": "unbounded histories; the bug classes are rare interleavings", "anchors": ["src/core/soft_uart.c: suart_rx_ch suart_rx_timer_cb osmo_soft_uart_flush_rx osmo_soft_uart_configure"]}
{"id": "C69", "title": "Soft UART transmitter honours flow control", "statement": "While DSR (DTR/DSR mode) or CTS (RTS/CTS mode) is not asserted, osmo_soft_uart_tx_ubits takes no character from the application and emits at most the rest of the frame in progress; otherwise it emits exactly the number of bits asked for, and no character taken from the application is lost.", "quantifier": "every configuration, transmitter state, status mask, number of bits and supply", "why_tests_cant": "state space of framing x position x status x lengths", "anchors": ["src/core/soft_uart.c: osmo_soft_uart_tx_ubits suart_tx_pending"]}
{"id": "C70", "title": "The frequency list decoder stays within its input and its array", "statement": "gsm48_decode_freq_list, given any message of at least one octet, reads no octet beyond the given length and sets no element beyond the 1024 of the array; bits of the array other than the requested ones keep their value; a frequency it gets from a shortened message it also gets from the complete one.", "quantifier": "every message, length, mask, frequency type and array", "why_tests_cant": "a read beyond the end depends on format and length together and is not visible in the result", "anchors": ["src/gsm/gsm48_ie.c: gsm48_decode_freq_list smod"]}
{"id": "C71", "title": "ISDN HDLC decoding is memory safe and ends for every input", "statement": "Whatever octets are on the line, and with any features, each call of osmo_isdnhdlc_decode ends, reads only within the source and its tables, writes only within the first dsize octets of the destination, and returns -1, -2, -3, 0 or a length of at most dsize - 2; a return value of 0 means that all of the source has been used.", "quantifier": "every sequence of sources, every dsize, every feature set, any number of calls", "why_tests_cant": "the decoder has six states with table lookups at every bit offset; noise can reach any combination", "anchors": ["src/core/isdnhdlc.c: osmo_isdnhdlc_decode osmo_isdnhdlc_rcv_init"]}
{"id": "C72", "title": "Write queue: nothing lost, order kept, bounded, always heeded", "statement": "Whatever sequence of enqueue, clear, set_maxlen and descriptor events occurs on a struct osmo_wqueue, with callbacks that use the queue themselves: every message accepted is still queued, or was handed to the write callback for good exactly once, or was dropped exactly once by clear or set_maxlen; without those two, messages go out in the order they were accepted, also across -EAGAIN; current_length is the length of the list; the queue never exceeds max_length, except by one message when a write callback that returned -EAGAIN has itself filled the queue; while messages are queued OSMO_FD_WRITE is set (unless a callback returned -EBADF); set_maxlen drops exactly the oldest messages that are too many and returns their number.", "quantifier": "every sequence of operations and events, every behaviour of callbacks, every maximum below 2^32 - 1", "why_tests_cant": "re-entrant callbacks at every point of long histories", "anchors": ["src/core/write_queue.c: osmo_wqueue_bfd_cb osmo_wqueue_enqueue_quiet osmo_wqueue_enqueue osmo_wqueue_clear osmo_wqueue_set_maxlen"]}
{"id": "C73", "title": "Inter-thread queue: no lost wake-up, FIFO, bounded", "statement": "For a struct osmo_it_q used by any number of threads: the queue never has more than max_length items and current_length is its length; whenever no enqueue is between unlock and the eventfd and the reader is outside its callback, a queue that is not empty has a readable eventfd; without flush, items come out in the order they went in, each once; one run of the callback takes out as many items as the eventfd counted, or all.", "quantifier": "every interleaving of any number of threads, any items, any maximum below 2^32 - 1", "why_tests_cant": "a lost wake-up needs one particular interleaving", "anchors": ["src/core/it_q.c: osmo_it_q_fd_cb _osmo_it_q_enqueue _osmo_it_q_dequeue osmo_it_q_flush"]}
{"id": "C74", "title": "PRBS generators are maximal-length sequences", "statement": "The bits of osmo_prbs_get_ubit(s) for osmo_prbs7, 9, 11 and 15 fulfil the recurrence of the polynomial named for them; the sequence repeats after 2^n - 1 bits and its periods are exactly the multiples of that; there is no run of n zeroes; how the bits are split over calls does not matter. In one period every pattern of n bits other than all zeroes occurs at exactly one position.", "quantifier": "every position of the infinite sequence, every candidate period, every split", "why_tests_cant": "a test compares a prefix; the exact period is a statement on all of the sequence", "anchors": ["src/core/prbs.c: osmo_prbs_process_bit osmo_prbs_get_ubit osmo_prbs_get_ubits"]}
{"id": "C75", "title": "Timer definitions: values convert to the least duration not shorter, stay in range, and give a state change its timeout", "statement": "osmo_tdef_get() returns, for the first table entry of the asked number, the least number of the asked unit that is not shorter than the configured duration (ULONG_MAX when that is greater; a custom unit is never converted), zero exactly for zero, and the given default for a number not in the table. osmo_tdef_set() stores the value so converted into the timer's unit, changing nothing else, unless the number is unknown (-EEXIST) or the converted value is outside the entry's limits (-ERANGE), when nothing changes. Reading back in the unit set gives no less than was set and less than one unit of the timer more. After a reset, no sequence of sets and resets brings a timer outside its limits. osmo_tdef_fsm_inst_state_chg() changes state plainly, keeping the timer, with the timer's milliseconds, or keeping-or-starting, exactly as the state's table entry says, a custom unit counting as seconds while that many milliseconds fit an unsigned long.", "quantifier": "all tables, timer numbers, values, units, limits, state timeout tables, and all sequences of calls", "why_tests_cant": "Rounding, clamping and range checks over 64-bit values in five units are sampled by tests; the range invariant is about every sequence of calls.", "anchors": ["src/core/tdef.c:89-146", "src/core/tdef.c:154-166", "src/core/tdef.c:208-266", "src/core/tdef.c:320-371"]}
{"id": "C76", "title": "The time counter shows the time the flag was true", "statement": "An osmo_time_cc's rate counter has, at every moment at which its timer is not overdue, gone up by the number of periods of gran_usec of which round_threshold_usec has passed in the time the flag was true (floor, round or ceil as configured), where that time starts anew after the flag has been false for forget_sum_usec; with timers on time this depends on the history of the flag alone. While the flag is true a timer is pending for the first moment at which the counter is to go up. total_sum is the whole time true. (Configuration values fixed, threshold at least one microsecond, a clock that can be read and does not go back.)", "quantifier": "all configurations, all sequences of flag reports and timer firings at all times, of any length", "why_tests_cant": "Tests replay a few scenarios with a fake clock; that rounding errors never accumulate over any sequence of flag changes and late timers is an invariant of all executions.", "anchors": ["src/core/time_cc.c:47-50", "src/core/time_cc.c:62-85", "src/core/time_cc.c:99-153", "src/core/time_cc.c:162-224"]}
{"id": "C77", "title": "Access point names: labels, bounds and round trip", "statement": "osmo_apn_from_str writes each label of the dotted text after a byte with its length, returns the number of bytes, refuses a text that needs more than max_apn_enc_len bytes and never writes beyond them; osmo_apn_to_str of such labels (1 to 255 bytes each) gives the text back, ends at a length of zero, returns NULL for a label longer than what is left, and stays within the documented max(len,1) bytes for any input; osmo_apn_qualify_buf gives NI.mncNNN.mccNNN.gprs.", "quantifier": "all texts, encodings and buffer sizes", "why_tests_cant": "tests use a few names; the bounds and malformed encodings are unbounded in number", "anchors": ["src/gsm/apn.c:36", "src/gsm/apn.c:57", "src/gsm/apn.c:98", "src/gsm/apn.c:133"]}
{"id": "C78", "title": "NRI range lists are sets of values in canonical form", "statement": "After any sequence of osmo_nri_ranges_add and osmo_nri_ranges_del the list is sorted, without overlapping or adjacent ranges and with valid ranges only, and osmo_nri_v_matches_ranges is true exactly for the union / difference of the ranges given; invalid ranges are refused and change nothing; the list of a set is unique; osmo_nri_range_overlaps_ranges is true exactly if there is a common value.", "quantifier": "all histories of add and del, all ranges", "why_tests_cant": "unit tests run one history of ranges", "anchors": ["src/gsm/gsm23236.c:34", "src/gsm/gsm23236.c:80", "src/gsm/gsm23236.c:239", "src/gsm/gsm23236.c:296", "src/gsm/gsm23236.c:347"]}
{"id": "C79", "title": "Text of an NRI range list", "statement": "osmo_nri_ranges_to_str_buf prints the ranges as first..last with commas between, as documented, like snprintf in any buffer.", "quantifier": "all lists and buffer sizes", "why_tests_cant": "tests print lists and record what is printed", "anchors": ["src/gsm/gsm23236.c:402"]}
{"id": "C80", "title": "NRI in a TMSI and choice by range", "statement": "osmo_nri_v_limit_by_ranges chooses the value with number v modulo the number of values of the list within the bit length, in ascending order; osmo_tmsi_nri_v_get/set read and replace exactly the bits 23 down to 24-bitlen; a value set is read back; osmo_tmsi_nri_v_limit_by_ranges gives a TMSI with an NRI of the list and the other bits unchanged; lengths other than 1 to 15 are refused.", "quantifier": "all values, TMSIs, canonical lists, bit lengths", "why_tests_cant": "tests use a handful of TMSIs and lists", "anchors": ["src/gsm/gsm23236.c:99", "src/gsm/gsm23236.c:147", "src/gsm/gsm23236.c:176", "src/gsm/gsm23236.c:201"]}
{"id": "C81", "title": "osmo_io cuts a byte stream into its messages", "statement": "With a segmentation callback that waits (-EAGAIN) or gives the length of the first message, and sticks to it, the read callback of an osmo_io_fd gets exactly the messages of the stream, each whole and in order, however the stream is cut into reads; the rest is kept for later reads; no read of at most the room offered overflows the buffer; without a callback each read is a message; a message refused by the callback is thrown away with what was read.", "quantifier": "all streams, all ways to cut them into reads, all well-behaved segmentation callbacks and buffer sizes", "why_tests_cant": "tests cut a few streams in a few places", "anchors": ["src/core/osmo_io.c:268", "src/core/osmo_io.c:328", "src/core/osmo_io_poll.c:50"]}
{"id": "C82", "title": "osmo_io sends messages in order and whole", "statement": "The bytes sent by the poll backend are those of the messages accepted by osmo_iofd_write_msgb, in the order they were accepted, each once and whole, through EAGAIN, partial sends, writes in callbacks, close and register; the queue never exceeds its limit (refused with -ENOSPC), its count is its length, and a non-empty queue of an open descriptor is waited for with OSMO_FD_WRITE; each accepted message ends once: sent or failed with the result given to the callback, or dropped by a clear or close.", "quantifier": "all histories of writes, results of sendmsg, callbacks, clear, close, register", "why_tests_cant": "needs many interleavings; partial sends do not occur in the tests", "anchors": ["src/core/osmo_io.c:210", "src/core/osmo_io.c:381", "src/core/osmo_io.c:438", "src/core/osmo_io.c:832", "src/core/osmo_io_poll.c:83"]}
{"id": "C83", "title": "One send request at a time with io_uring", "statement": "With the io_uring backend at most one message of a descriptor is with the kernel at any time, it is the one noted in write_msghdr, and no message waits in the queue while the kernel has none.", "quantifier": "all histories of writes and completions with writes in callbacks", "why_tests_cant": "needs interleavings of completions and callbacks", "anchors": ["src/core/osmo_io_uring.c:207", "src/core/osmo_io_uring.c:291", "src/core/osmo_io_uring.c:371"]}
{"id": "C84", "title": "IPA messages are received whole from a stream", "statement": "ipa_msg_recv_buffered gives exactly the non-empty messages of the IPA frames sent, each whole and in order, however the kernel splits the stream over calls and whether calls are interrupted by EAGAIN or EINTR; what has been received of an unfinished frame is kept in *tmp_msg; a header announcing more than the buffer holds is refused without a write outside of it; end of file and errors drop the unfinished part; without tmp_msg nothing is kept and what is returned is a whole message.", "quantifier": "all sequences of frames, all ways to split the stream, all contents", "why_tests_cant": "tests split a stream in few places, if at all", "anchors": ["src/gsm/ipa.c:597", "src/gsm/ipa.c:568", "src/gsm/ipa.c:718"]}
{"id": "C85", "title": "Parsing IPA CCM identity elements stays inside the message", "statement": "ipa_ccm_id_get_parse, ipa_ccm_id_resp_parse and ipa_ccm_idtag_parse accept a buffer of elements with each tag pointing to the value of its last element, of exactly its length and inside the buffer; a buffer with an element reaching beyond its end is refused; no value points outside of the buffer.", "quantifier": "all buffers, all lists of elements", "why_tests_cant": "only a few messages are tried; the faults are at length 0 and 256", "anchors": ["src/gsm/ipa.c:163", "src/gsm/ipa.c:204", "src/gsm/ipa.c:116"]}
{"id": "C86", "title": "An IPA identity response answers the identities asked for", "statement": "ipa_ccm_make_id_resp_from_req answers a request with an IPA CCM identity response holding the string of each identity asked for, in order, NUL-terminated, which ipa_ccm_id_resp_parse reads back and ipa_parse_unitid turns into the unit's numbers; an unknown identity gives NULL; no request makes it write out of bounds or abort.", "quantifier": "all unit data, all requests", "why_tests_cant": "only a few requests are tried; the fault needs hundreds of tags", "anchors": ["src/gsm/ipa.c:330", "src/gsm/ipa.c:412"]}
{"id": "C87", "title": "Interleaving puts each bit where GSM 05.03 says and is undone by deinterleaving", "statement": "gsm0503_xcch_interleave, gsm0503_tch_fr_interleave and the E-TCH/F9.6 interleaver put coded bit k at the burst and place of the formulas of 3GPP TS 45.003, and so do the MCS-5 to MCS-9 header and MCS-7/8/9 data interleavers; each interleaver (xCCH, TCH/F, TCH/H, TCH/F9.6, MCS-1 to MCS-4, MCS-5/6, MCS-7, MCS-8/9, up- and downlink) followed by its deinterleaver gives back all bits whatever the buffers held before, and no access is outside of the buffers; MCS-8 halves share no burst; MCS-7 bits go round the four bursts; no burst of TCH/F9.6 holds more than 24 bits of a block.", "quantifier": "all contents of all buffers", "why_tests_cant": "tests use a few random blocks; one wrong place in a table of 1248 is easily missed", "anchors": ["src/coding/gsm0503_interleaving.c:82", "src/coding/gsm0503_interleaving.c:96", "src/coding/gsm0503_interleaving.c:112", "src/coding/gsm0503_interleaving.c:153", "src/coding/gsm0503_interleaving.c:259", "src/coding/gsm0503_interleaving.c:358", "src/coding/gsm0503_interleaving.c:482", "src/coding/gsm0503_interleaving.c:642", "src/coding/gsm0503_interleaving.c:670", "src/coding/gsm0503_interleaving.c:704"]}
{"id": "C88", "title": "Blocks survive burst mapping with diagonal interleaving, however many are sent", "statement": "A control channel block comes back from its four bursts, with the stealing flags; full rate blocks sent one every four bursts and half rate blocks one every two bursts all come back, each with its own stealing flags, though each shares its bursts with its neighbours; a FACCH/H block comes back from its six bursts and sets all eight flags; an EDGE block comes back from its four bursts with header, data, USF and the flags of its scheme; the bit swap of MCS-5/6 bursts exchanges fourteen pairs and undoes itself.", "quantifier": "all contents, all numbers of blocks in a stream, all former contents of the buffers", "why_tests_cant": "tests map single blocks; overlap of neighbouring blocks is not looked at", "anchors": ["src/coding/gsm0503_mapping.c:36", "src/coding/gsm0503_mapping.c:49", "src/coding/gsm0503_mapping.c:61", "src/coding/gsm0503_mapping.c:81", "src/coding/gsm0503_mapping.c:96", "src/coding/gsm0503_mapping.c:138", "src/coding/gsm0503_mapping.c:170", "src/coding/gsm0503_mapping.c:212", "src/coding/gsm0503_mapping.c:246", "src/coding/gsm0503_coding.c:1866", "src/coding/gsm0503_coding.c:1989"]}
{"id": "C89", "title": "I.460 sub-channels are carried apart", "statement": "Each sub-channel of an I.460 time slot sends its queued bits, in order and asking its callback for more when there are none, at its place in each byte (ones when it has nothing; ones at places of no sub-channel); the demultiplexer hands each sub-channel exactly the bits at its place, in buffers of the size asked for, independent of how the stream is cut into calls and of the other sub-channels; so bits sent on a sub-channel are the bits got at the other end. A new sub-channel takes an unused one, and nothing of a former user is left.", "quantifier": "all layouts of non-overlapping sub-channels, queues, callbacks, streams and ways to cut them, all histories of add and delete", "why_tests_cant": "needs all combinations of rates, offsets, buffer sizes and cuts", "anchors": ["src/isdn/i460_mux.c:29", "src/isdn/i460_mux.c:58", "src/isdn/i460_mux.c:83", "src/isdn/i460_mux.c:128", "src/isdn/i460_mux.c:163", "src/isdn/i460_mux.c:170", "src/isdn/i460_mux.c:202", "src/isdn/i460_mux.c:246", "src/isdn/i460_mux.c:269", "src/isdn/i460_mux.c:302", "src/isdn/i460_mux.c:315", "src/isdn/i460_mux.c:352", "src/isdn/i460_mux.c:382"]}
{"id": "C90", "title": "RLP frames survive the air", "statement": "A decoded RLP frame (U, S or I+S, versions 0 and 1) with its fields in range is encoded to 30 or 72 octets that decode to the same frame; received octets are reproduced by encoding what they were decoded to exactly if their check sequence was right and the bits without meaning were zero; other sizes, versions, types and too long information are refused; nothing outside of the buffers is touched. The check sequence is the complemented remainder of the division by the generator of TS 24.022, and notices every burst of up to 24 bits, and up to six wrong bits anywhere in a frame of 240 bits.", "quantifier": "all frames, all octets, all error patterns", "why_tests_cant": "there are 2^240 frames, and the table of the check sequence could be wrong in one entry", "anchors": ["src/gsm/rlp.c:69", "src/gsm/rlp.c:122", "src/gsm/rlp.c:191", "src/gsm/rlp.c:230"]}
{"id": "C91", "title": "Mobile identities are read, written and found in messages exactly as TS 24.008 lays them out", "statement": "A mobile identity octet string is accepted by osmo_mobile_identity_decode exactly when it is the TS 24.008 10.5.1.4 coding of an IMSI of 6..15, IMEI of 14..15 or IMEISV of 16 decimal (or, on request, hexadecimal) digits or of a TMSI, and the result is that identity; osmo_mobile_identity_encode_buf writes exactly that coding for every well formed identity that fits the buffer and refuses others; decode after encode gives back the identity; decode_from_l3 finds the identity of LU, CM service, re-establishment, IMSI detach, identity response, paging response and talker indication messages at its place whatever surrounds it, without reading outside; cmp is a total order by type and value, 0 only for equal identities; the text form, gsm48_generate_mid and gsm48_mi_to_string agree with the same layout.", "quantifier": "for all octet strings, identities, buffers and messages", "why_tests_cant": "identities have 10^15 values, and the failure modes are length and parity combinations at every buffer size", "anchors": ["src/gsm/gsm48.c:664", "src/gsm/gsm48.c:773", "src/gsm/gsm48.c:820", "src/gsm/gsm48.c:902", "src/gsm/gsm48.c:1048", "src/gsm/gsm48.c:1088", "src/gsm/gsm48.c:1272", "src/gsm/gsm48.c:1290", "src/gsm/gsm48.c:1340"]}
{"id": "C92", "title": "Location and routing area identities are coded as TS 24.008 draws them, and every coder agrees with every decoder", "statement": "osmo_routing_area_id_encode_buf, gsm48_encode_ra, gsm48_construct_ra and gsm48_generate_lai2 write the semi-octet layout of TS 24.008 10.5.1.3 / 10.5.5.15 (MNC of three digits iff flagged or above 99, filler 1111 otherwise), nothing outside it, and refuse too small buffers untouched; decoding what was encoded returns the same identity, encoding what was decoded returns the same octets; gsm48_parse_ra and osmo_routing_area_id_decode agree; gsm48_ra_equal is equality; the msgb variants append exactly the encoding to the message, or leave it unchanged on failure.", "quantifier": "for all identities, buffers, messages and received octets", "why_tests_cant": "six octets with 10^6 PLMNs times 2^24 codes; the digit order and the filler only matter for some of them", "anchors": ["src/gsm/gsm48.c:1142", "src/gsm/gsm48.c:1155", "src/gsm/gsm48.c:1169", "src/gsm/gsm48.c:1186", "src/gsm/gsm48.c:1201", "src/gsm/gsm48.c:1217", "src/gsm/gsm48.c:1385", "src/gsm/gsm48.c:1405", "src/gsm/gsm48.c:1425", "src/gsm/gsm48.c:1439", "src/gsm/gsm48.c:1466", "src/gsm/gsm48.c:1498", "src/gsm/gsm48.c:882"]}
{"id": "C93", "title": "The classmark store holds the latest classmarks, and A5, release and DTX questions are answered from the right bits", "statement": "After any sequence of osmo_gsm48_classmark_update the structure holds, of each classmark, the octets and length last received; osmo_gsm48_classmark_supports_a5 answers 1 or 0 by the TS 24.008 bit of that classmark (A5/1 inverted), minus the classmark number if it is not known or too short, 0 for n above 7, never from octets not received; is_r99 is revision level 2 or 3 of classmark 1 or else 2; osmo_gsm48_classmark_a5_name is complete in its 128 bytes and names exactly the supported algorithms; the RF power class is field+1 within the classes of the band; gsm48_set_dtx sets the code point of TS 44.018 for the two modes (BCCH: one) and no other bit.", "quantifier": "for all classmark contents, lengths, update sequences, algorithm numbers, octets and modes", "why_tests_cant": "the answer depends on which of several partial messages arrived last; code points form tables with exceptions", "anchors": ["src/gsm/gsm48.c:1926", "src/gsm/gsm48.c:1931", "src/gsm/gsm48.c:1942", "src/gsm/gsm48.c:1953", "src/gsm/gsm48.c:2012", "src/gsm/gsm48.c:2037", "src/gsm/gsm48.c:2080", "src/gsm/gsm48.c:1234"]}
{"id": "C94", "title": "The fast Viterbi decoder for K = 5 and 7 finds a most likely input", "statement": "For a code with 2 to 4 outputs and constraint length 5 or 7 (flushed or truncated, recursive or not, punctured or not) osmo_conv_decode uses 16 bit sums which are renormalized at intervals and a trellis with bit-reversed state numbers. Whatever the block length, these sums never leave 16 bits, and the bits returned have a code word whose correlation with the soft bits is the largest of all inputs, provided the soft bits against some code word amount to less than half the head start of state 0, or all soft bits are at most 105 in size (for the codes of GSM). Received without errors, the output has the code word sent. Any other N, K or length 0 is refused with -EINVAL. At full amplitude and without the proviso the claim is false: input from another start state can win.", "quantifier": "all codes meeting the structural conditions, all block lengths, all soft bits within -127..127, all puncturing lists", "why_tests_cant": "The sums overflow or the normalization misorders states only for particular long sequences; tests decode a few random blocks", "anchors": ["src/core/conv_acc.c:731-754", "src/core/conv_acc.c:484-530", "src/core/conv_acc.c:550-624", "src/core/conv_acc_generic.c:32-127", "utils/conv_codes_gsm.py:17-856"]}
{"id": "C95", "title": "Wrong bits up to half the free distance are corrected by the fast Viterbi decoder, and tail biting headers survive one", "statement": "For every GSM convolutional code with at most four polynomials, flushed and not punctured, of any block length: whatever input was encoded, if up to t of the coded bits are received inverted, wherever they are, osmo_conv_decode returns exactly the input (t = 3 for the signalling channels and TCH/F9.6, 5 for TCH/F4.8, 6 for EDGE, up to 9). For the tail biting codes of EDGE headers of at least 8 bits the input is found if at most one bit is wrong. In general, for a tail biting code the output belongs to a walk over two passes that is best among those to its end state, and if the word sent is more likely than any other walk it is returned.", "quantifier": "all inputs, all block lengths, all positions of the errors", "why_tests_cant": "Tests send single blocks with a few errors; there are millions of error patterns per block", "anchors": ["src/core/conv_acc.c:731-754", "src/core/conv_acc.c:484-530", "src/core/conv_acc.c:667-684", "utils/conv_codes_gsm.py:17-856"]}
{"id": "C96", "title": "Rate counters show the sum of their increments and the sum over the last complete second, minute, hour and day", "statement": "After any sequence of counter group allocation, rate_ctr_add, rate_ctr_difference, resets, frees of other groups and timer expirations (also several at once), each counter of a live group has as value the sum, as 64 bit number, of its own increments since creation or reset; rate_ctr_difference returns the sum of the increments since the previous call; and the rate of each interval is 0 before a period has ended, and from then on the sum of the increments in the last complete period, periods being aligned to the seconds counted since rate_ctr_init.", "quantifier": "all runs of the program, all numbers of groups and counters, all increments", "why_tests_cant": "Long histories with timer expirations at minute, hour and day boundaries and resets in between are never executed in unit tests; the rate after a reset or across the day boundary needs 86400 expirations.", "anchors": ["src/core/rate_ctr.c:286-299", "src/core/rate_ctr.c:303-309", "src/core/rate_ctr.c:315-361", "src/core/rate_ctr.c:481-497"]}
{"id": "C97", "title": "Counter groups of one name get distinct indices and are found by name and index", "statement": "rate_ctr_group_alloc with a valid name gives the group the requested index if no group of that name has it, otherwise one that none of them has; after that rate_ctr_get_group_by_name_idx finds exactly this group, and lookups return NULL only if no such group exists; rate_ctr_get_by_name finds the first counter of the name. Allocation fails exactly if some name is not a valid identifier even after replacing dots by colons. False for names with dots, which are looked up before they are replaced, and after a group had index 4294967295.", "quantifier": "all groups allocated before, all names, indices and counter descriptions", "why_tests_cant": "Collisions after explicit indices and dotted legacy names need particular allocation histories.", "anchors": ["src/core/rate_ctr.c:75-99", "src/core/rate_ctr.c:106-187", "src/core/rate_ctr.c:189-253", "src/core/rate_ctr.c:396-437"]}
{"id": "C98", "title": "Stat items report count, sum, minimum, maximum and last of the levels since the last flush", "statement": "As long as the level of an osmo_stat_item stays within int32_t, no sequence of set, inc, dec, flush and reset overflows; the last value is always the level; value holds the number, sum, smallest, largest and last of the levels set since the last flush or reset (smallest and largest being the level kept if none), and reported holds this for the period that ended with the last flush, whatever is set afterwards. Fewer than 2^32 changes per period: beyond, the count wraps to zero and the period starts anew.", "quantifier": "all sequences of operations, all values, all lengths below 2^32 per period", "why_tests_cant": "Tests flush after a handful of values; that sums cannot overflow however long the period needs the wrapping count.", "anchors": ["src/core/stat_item.c:260-315", "src/core/stat_item.c:429-445"]}
{"id": "C99", "title": "Identifiers are valid exactly if printable without the reserved characters, and sanitizing makes printable strings valid", "statement": "osmo_identifier_valid accepts exactly the non-empty strings of printable ASCII characters other than blank and the reserved punctuation, osmo_separated_identifiers_valid also the separators given; osmo_identifier_sanitize_buf keeps the length and all legal characters that are not separators and replaces the others, and the result is a valid identifier if and only if the string was non-empty and all its characters outside the separators are printable (control and 8 bit characters stay).", "quantifier": "all strings, separator sets and replacement characters", "why_tests_cant": "The character classes are checked on samples only; what is not replaced shows only with control or 8 bit input.", "anchors": ["src/core/utils.c:644-703"]}
{"id": "C100", "title": "Red-black trees stay ordered, linked and balanced", "statement": "After any sequence of insertions (descending with a strict weak order and rb_link_node, rb_insert_color), rb_erase of nodes in the tree and rb_replace_node of a node by one of equal rank, starting from an empty root, no null pointer is followed and the nodes in memory form a binary tree with all parent pointers right, a black root, no red node with a red child and equally many black nodes on every way down; its nodes from left to right are exactly the inserted and not erased ones in order, later inserted ones behind earlier ones of equal rank; rb_first, rb_last, rb_next and rb_prev deliver the ends and the neighbours in this sequence and null beyond; its height is at most 2 log2(n+1), and no loop runs more often than that plus one.", "quantifier": "all sequences of operations of any length, all orders, all numbers of nodes, all prior contents of memory", "why_tests_cant": "Tests insert a few timers and see them fire in order; a wrong colour or a wrong parent pointer shows only with particular shapes, and lost balance shows only as slowness.", "anchors": ["src/core/rbtree.c:23-67", "src/core/rbtree.c:69-132", "src/core/rbtree.c:134-212", "src/core/rbtree.c:214-279", "src/core/rbtree.c:284-381"]}
{"id": "C101", "title": "The timers in the red-black tree in memory behave as a list sorted by expiry", "statement": "osmo_timer_add, osmo_timer_schedule, osmo_timer_del, osmo_timers_update with any callbacks, osmo_timers_prepare and osmo_timers_check, working on the red-black tree in memory through __add_timer, rb_erase, rb_first and rb_next, give the same results and run the same callbacks in the same order as on a list of timers sorted by expiry with first come first served among equals; thus what C20 and C55 state of the list holds for the tree.", "quantifier": "all sequences of timer operations, all callbacks adding and deleting timers, all states reached", "why_tests_cant": "The tests look at a few timers on shallow trees; the callbacks change the tree while the update loop runs.", "anchors": ["src/core/timer.c:44-63", "src/core/timer.c:80-125", "src/core/timer.c:224-297"]}
{"id": "C102", "title": "V.110 frames and the GSM 04.21 frames of 60 and 36 bits carry every bit at its place", "statement": "osmo_v110_encode_frame writes exactly the 80 bits of V.110 table 2 (alignment, D, E, S and X bits), osmo_csd_12k_6k_encode_frame and osmo_csd_3k6_encode_frame the 60 and 36 bits of 3GPP TS 44.021, nothing beyond, and nothing into a shorter buffer; the decoders take every bit from its place, refuse fewer bits, and leave what is not carried alone. Decoding an encoded frame restores all bits but S2, S5, S7 (and E1 to E3 in the GSM frames); the 36 bit frame replaces D2, D4, .. by copies of D1, D3, ..; encoding a decoded frame of 80 bits restores the bits if the alignment bits were right.", "quantifier": "all frame contents, all buffers of all lengths", "why_tests_cant": "The test vectors contain mostly equal neighbouring bits, so exchanged positions go unnoticed.", "anchors": ["src/isdn/v110.c:45-121", "src/gsm/gsm44021.c:27-266"]}
{"id": "C103", "title": "Synchronous RA1 rate adaptation passes user bits unchanged at every rate", "statement": "For each of the twelve rates osmo_v110_sync_ra1_user_to_ir places the user bits at D1 to D48 as in V.110 table 6, fill bits being 1, sets E1 to E3 as in table 5 and leaves S, X and E4 to E7 alone, and refuses any other number of user bits; osmo_v110_sync_ra1_ir_to_user refuses a small buffer or other E1 to E3 and otherwise delivers the user bits and their number. Adapted, encoded to 80 bits, decoded and adapted back the user bits are unchanged; also through the 60 bit frame, and for 600, 1200, 2400 bit/s through the 36 bit frame, provided E1 to E3 are set from elsewhere. Frames at the intermediate rate carry exactly the data rate. Numbers beyond the enum give -EINVAL.", "quantifier": "all rates, all user bits, all frames and buffers", "why_tests_cant": "The tests compare one pattern per rate in one direction.", "anchors": ["src/isdn/v110.c:147-432", "src/isdn/v110.c:434-590", "include/osmocom/isdn/v110.h:6-47"]}
{"id": "C104", "title": "Punctured convolutional codes correct what the distance of the sent bits allows", "statement": "For the punctured GSM codes of TCH/F9.6, TCH/F14.4, 11-bit RACH, CS-2, CS-3, TCH/HS and the AMR modes of rate at least 1/4: the bits that are sent after osmo_conv_encode has dropped the punctured ones are decoded by osmo_conv_decode to the very input, with return value 0, whenever at most t of the sent bits are wrong, where t is 2 for TCH/F9.6, 1 for TCH/F14.4, 2 for 11-bit RACH, 2 for CS-2, 1 for CS-3, 4 for TCH/HS, 1 to 5 for TCH/AFS (12.2 to 5.9) and 1 to 3 for TCH/AHS; more generally whenever the soft bits that contradict what was sent amount to less than half the distance in units of the weakest soft bit. Bits that follow in the buffer do not matter.", "quantifier": "all inputs of the code's length, all error patterns of weight at most t (and all soft inputs within -127..127 under the stated bound), all 18 codes", "why_tests_cant": "A test of the decoder tries some words and some error patterns; the number of patterns of up to five errors in several hundred bits times all words is out of reach, and puncturing makes the distance depend on the position of the errors.", "anchors": ["utils/conv_codes_gsm.py:106-165", "utils/conv_codes_gsm.py:176-227", "src/core/conv_acc.c:731-754", "src/core/conv.c:206-226"]}
{"id": "C105", "title": "Control channel blocks and FACCH survive errors on the air, and the error count is right", "statement": "gsm0503_xcch_encode turns 23 bytes into four bursts (gsm0503_tch_fr_facch_encode eight, gsm0503_tch_hr_facch_encode six) exactly as TS 05.03: low bits first, 40 Fire parity bits, rate 1/2 code, interleaving, stealing flags 1, no other bit of the bursts written by FACCH/F. gsm0503_xcch_decode, gsm0503_tch_fr_facch_decode and gsm0503_tch_hr_facch_decode return the very 23 bytes, and as n_errors the number of wrong bits out of 456, whenever at most three of the 456 bits are wrong, more generally whenever the soft bits against what was sent amount to less than 7/2 of the weakest one; FACCH needs the stealing flags together to be negative, otherwise nothing is written. Whatever is received, decoding succeeds or returns -1 with the buffer unchanged, and on success the bytes returned, encoded again, differ from what was received in n_errors places.", "quantifier": "all 23 byte blocks, all soft bits within -127..127 (under the stated bound for the first part), all prior contents of all buffers", "why_tests_cant": "Tests encode a few messages and decode them without errors; three errors among 456 bits are 15 million patterns per message.", "anchors": ["src/coding/gsm0503_coding.c:592-670", "src/coding/gsm0503_coding.c:3743-3866", "src/coding/gsm0503_parity.c:40-45", "src/coding/gsm0503_coding.c:534-584"]}
{"id": "C106", "title": "Access and synchronization bursts are decoded for the right cell only", "statement": "gsm0503_rach_ext_encode and gsm0503_rach_encode turn a request of 8 or 11 bits and a BSIC into 36 bits, gsm0503_sch_encode 25 bits into 78, exactly as TS 05.03 (bit order, 6 or 10 parity bits, BSIC added to the parity, code, puncturing), and write nothing beyond. With at most three wrong bits (two for 11 bits), more generally if the soft bits against what was sent amount to less than 7/2 (5/2) of the weakest one, the decoders return the request if the six low bits of the BSIC are those it was encoded with, refuse it for every other BSIC, and count the wrong bits; SCH returns the 25 bits and keeps the other bits of the buffer. Whatever is received, the RACH decoder refuses it without writing or returns a request below 2048 (256) that, encoded for this BSIC, differs from it in n_errors places.", "quantifier": "all requests, all BSIC values, all soft bits within -127..127, all buffers", "why_tests_cant": "The tests decode what was encoded with the same BSIC and without errors.", "anchors": ["src/coding/gsm0503_coding.c:3201-3379", "src/coding/gsm0503_parity.c:82-98", "utils/conv_codes_gsm.py:151-173"]}
{"id": "C107", "title": "Full rate and enhanced full rate speech survives errors on the air; the parity decides what is returned", "statement": "gsm0503_tch_fr_encode with net_order 1 sends a FR frame (33 bytes) or an EFR frame (31 bytes) in the even bits of four bursts and the odd bits of the next four exactly as TS 05.03 (EFR: 8 parity bits of 65 bits, four bits sent thrice; order of importance; 3 parity bits of the first 50; rate 1/2 code of the first 182; the others uncoded), with the stealing flags 0 and nothing else written; no data (length 0) as a block every receiver refuses; 23 bytes as FACCH; any other length is refused. gsm0503_tch_fr_decode returns the 182 most important bits as sent and of the others what the soft bits say (by majority for the four sent thrice), with the right signature, and as n_errors the number of wrong bits out of 378, whenever at most three of those are wrong, more generally if the soft bits against what was sent amount to less than 7/2 of the weakest one, and the flags do not say stolen. An undisturbed frame comes back byte for byte. Whatever is received, decoding returns -1 with the buffer unchanged, or a frame that, encoded again, differs from what was received in n_errors of the coded bits and in no uncoded bit. With net_order 0, a table is read one element beyond its end.", "quantifier": "all frames, all soft bits within -127..127 (under the stated bound for the first part), all prior contents of all buffers and of memory behind the table", "why_tests_cant": "The tests send a few frames without errors and compare with themselves; neither the patterns of errors nor an over-read that is not used can be seen.", "anchors": ["src/coding/gsm0503_coding.c:1538-1634", "src/coding/gsm0503_coding.c:1689-1834", "src/coding/gsm0503_coding.c:1858-1997", "src/coding/gsm0503_parity.c:104-120"]}
{"id": "C108", "title": "Half rate speech survives errors on the air, in both modes", "statement": "gsm0503_tch_hr_encode sends a HR frame of 14 bytes (or 15, of which the first is left out) in the even bits of two bursts and the odd bits of the next two exactly as TS 05.03 (order of importance by the mode of the frame, 3 parity bits of 22, rate 1/3 code of 95 + 3 bits punctured to 211, 17 bits uncoded), with the stealing flags 0 and nothing else written; no data as a block every receiver refuses; 23 bytes as FACCH; any other length is refused. gsm0503_tch_hr_decode2 returns the 95 most important bits as sent and of the 17 others what the soft bits say, and as n_errors the number of wrong bits out of 211, whenever at most four of those are wrong, more generally if the soft bits against what was sent amount to less than 9/2 of the weakest one, and it is an odd block or the flags do not say stolen. An undisturbed frame comes back byte for byte, whatever the flags of the neighbouring blocks. Whatever is received, decoding returns -1 with the buffer unchanged, or a frame that, encoded again, differs in n_errors coded bits and no uncoded one. gsm0503_tch_hr_decode returns the same with a zero byte in front.", "quantifier": "all frames, all soft bits within -127..127 (under the stated bound for the first part), all prior contents of all buffers", "why_tests_cant": "The order of the bits depends on two bits of the frame which are themselves decoded first; tests do not send errors, and compare the encoder only with the decoder.", "anchors": ["src/coding/gsm0503_coding.c:1599-1614", "src/coding/gsm0503_coding.c:1707-1735", "src/coding/gsm0503_coding.c:2006-2157", "utils/conv_codes_gsm.py:494-514"]}
{"id": "C109", "title": "Receive level statistics list exactly the channels measured", "statement": "After a reset and any sequence of inputs to the receive level statistics, going through a level with rxlev_stat_get_next from -1 on gives, in ascending order, each once, exactly the ARFCNs below 1024 that were input with that level, and then ends; levels of 31 and above count as one level. An input changes nothing but its own ARFCN at its own level.", "quantifier": "all sequences of (ARFCN, level) inputs of any length, all levels asked for, all starting ARFCNs", "why_tests_cant": "Tests look at a few inputs; the claim is about every history, and that stepping through a 1024 bit vector neither skips nor repeats a channel at any byte boundary.", "anchors": ["src/gsm/rxlev_stat.c:32-43 rxlev_stat_input", "src/gsm/rxlev_stat.c:46-61 rxlev_stat_get_next", "src/gsm/rxlev_stat.c:63-66 rxlev_stat_reset"]}
{"id": "C110", "title": "LAPD: messages over a link that loses frames", "statement": "Two LAPD data links (src/isdn/lapd_core.c) with the same modulus and N201 are connected by a line that keeps the order of the frames but may lose any of them. After lapd_dl_init2 and the SABM/UA exchange, whatever messages are given to DL-DATA requests on either side, whatever frames are lost and whichever timers expire: as long as both sides keep the link, (1) no event leads to an endless loop or an access outside the transmit history; (2) the messages a side hands to its layer 3 are the first ones the other was asked to send, each once, whole and in order, if none is longer than MAXF; (3) when a side's queue, send buffer and history are empty the other has delivered all of its messages; (4) at most k segments are sent and not acknowledged, and in MF_EST messages wait only while exactly k are; (5) while segments are not acknowledged T200 runs, or N200 is exceeded; (6) a side leaves the link only for SABM_SENT. Amended by findings: messages longer than MAXF are delivered with a hole, a working link may be given up, and after re-establishment by the peer old segments are put before a new message.", "quantifier": "for all windows, powers of two up to 128 as modulus, N201 \u2265 1, MAXF, N200, settings, messages, and all sequences of requests, deliveries, losses and timer expiries on both sides", "why_tests_cant": "tests replay a few LAPD exchanges; interleavings of losses, wrap-around of sequence numbers, segmentation and timers are unbounded", "anchors": ["src/isdn/lapd_core.c:1935", "src/isdn/lapd_core.c:801", "src/isdn/lapd_core.c:1574", "src/isdn/lapd_core.c:1353", "src/isdn/lapd_core.c:305"]}
{"id": "C111", "title": "LAPD: frames sent in answer", "statement": "In an established LAPD data link: an I frame that moves V(R) on is acknowledged at once by a frame with the new N(R); a well-formed I frame out of sequence is not delivered and is answered by a REJ response with N(R) = V(R) and the F bit of its P bit (unless a second REJ is to be dropped); an RR poll is answered first of all by an RR response with the F bit when the side is neither busy nor missing frames; malformed I and S frames are reported with their cause and change nothing else; T200 leads to timer recovery and a command with the P bit (the last I frame if not acknowledged, or RR), counted against N200; beyond N200 the layer above is told and the link is asked for anew or left alone, as set; T203 leads to a poll.", "quantifier": "for all states of a data link and all frames", "why_tests_cant": "tests see a few exchanges", "anchors": ["src/isdn/lapd_core.c:1574", "src/isdn/lapd_core.c:1353", "src/isdn/lapd_core.c:645", "src/isdn/lapd_core.c:770"]}
{"id": "C112", "title": "LAPD: an idle link is supervised", "statement": "In a LAPD data link T203 runs only in MF_EST, whatever is received, sent or expires; with T203 enabled, a link that is in MF_EST always has T200 or T203 running, so that the loss of the other side is noticed.", "quantifier": "for all states of a data link and all frames", "why_tests_cant": "an unsupervised link shows only when the peer disappears after a particular sequence of losses", "anchors": ["src/isdn/lapd_core.c:276", "src/isdn/lapd_core.c:801", "src/isdn/lapd_core.c:1470"]}
{"id": "C113", "title": "The language of control interface commands", "statement": "A line received on the control interface is accepted as a command exactly if it is one by the grammar: GET id variable; SET id variable value; GET_REPLY, SET_REPLY and TRAP id variable text; ERROR id text; with the name of the command in either case, an id that is a number, and variables of letters, digits and the characters allowed in identifiers with dots. What is refused is described by an ERROR with the id given if the head of the line could be read. A command that can be made of fields as of the grammar is sent as a line that is read back as the same command, and only such a command is; every command accepted is one.", "quantifier": "for all lines and all commands", "why_tests_cant": "tests have a list of a few dozen lines", "anchors": ["src/ctrl/control_cmd.c:312", "src/ctrl/control_cmd.c:343", "src/ctrl/control_cmd.c:524"]}
{"id": "C114", "title": "Control interface requests call the element they name and are answered", "statement": "A request on the control interface calls exactly the call-backs it should: a GET calls the get of the element found for the words of its variable, at most once; a SET calls verify first and set only if that returned 0; nothing else calls anything. The element found is the first whose words are those the request begins with, where a word that starts with * stands for the rest. The answer has the id and variable of the request, and the text of the call-back: a reply if it returned CTRL_CMD_REPLY, an ERROR if CTRL_CMD_ERROR, none if CTRL_CMD_HANDLED or deferred; without an element or a call-back it is an ERROR that says so. A line that is no command is answered by an ERROR; an ERROR or an OK reply is never answered.", "quantifier": "for all trees of elements, look-up functions, call-backs and lines", "why_tests_cant": "tests have a few elements and requests", "anchors": ["src/ctrl/control_cmd.c:59", "src/ctrl/control_cmd.c:95", "src/ctrl/control_if.c:219", "src/ctrl/control_if.c:393"]}
{"id": "C115", "title": "BSSGP flow control queues nothing twice and loses nothing", "statement": "Every message given to BSSGP flow control gets one verdict in order: passed on, queued, or refused and freed. Those queued leave the queue in the order they entered it, each once; no more than max_queue_depth wait. A message is refused for its size exactly if it is longer than the bucket, and for the queue only if max_queue_depth messages wait. Messages are passed on in the order they were given.", "quantifier": "for all parameters and all sequences of messages, timer events, flow control PDUs, flushes and times", "why_tests_cant": "the state of the queue after flushes and parameter changes depends on long histories", "anchors": ["src/gb/gprs_bssgp.c:742", "src/gb/gprs_bssgp.c:819", "src/gb/gprs_bssgp.c:890", "src/gb/gprs_bssgp.c:1452"]}
{"id": "C116", "title": "BSSGP flow control keeps to the leak rate", "statement": "BSSGP flow control passes on no more than the bucket size and what leaks at the leak rate; a message that fits is queued only if the bucket, with what leaked since the last message, has no room for it; FLOW CONTROL BVC sets the bucket size in units of 100 octets and the rate in units of 100 bit/s.", "quantifier": "for all parameters, histories, message sizes and times", "why_tests_cant": "the excess depends on the timing of many messages", "anchors": ["src/gb/gprs_bssgp.c:845", "src/gb/gprs_bssgp.c:951"]}
{"id": "C117", "title": "What waits for BSSGP flow control is sent in the end", "statement": "While a message waits in BSSGP flow control and the leak rate is not 0, the timer runs. The message waiting longest is sent once the bucket has run empty and the timer had its period.", "quantifier": "for all histories and any lateness of the timer", "why_tests_cant": "liveness is about all continuations", "anchors": ["src/gb/gprs_bssgp.c:742", "src/gb/gprs_bssgp.c:790"]}
{"id": "C118", "title": "Linked lists hold what was put into them", "statement": "Any number of lists are worked on with INIT_LLIST_HEAD, llist_add, llist_add_tail, llist_del, llist_del_init, llist_move, llist_move_tail, llist_splice and llist_splice_init, where an entry added is in no list. At each moment each list holds exactly the entries put into it and not taken out, in the order the calls ask for; reading it forward, backward, by its ends, by llist_empty and by llist_count agrees; and memory of other entries is never touched. llist_for_each_safe visits all entries in order even if any of them are removed and freed on the way, and the others stay. An entry deleted twice with llist_del makes a write to a poison address.", "quantifier": "for all numbers of lists and entries, all sequences of calls, all choices of entries removed in a loop", "why_tests_cant": "a wrong pointer shows only with particular shapes: one entry, neighbours, the same list twice; the shapes are unbounded", "anchors": ["include/osmocom/core/linuxlist.h:75", "include/osmocom/core/linuxlist.h:128", "include/osmocom/core/linuxlist.h:148", "include/osmocom/core/linuxlist.h:174", "include/osmocom/core/linuxlist.h:204", "include/osmocom/core/linuxlist.h:290"]}
{"id": "C119", "title": "Lists with a single pointer as head hold what was put into them", "statement": "Any number of such lists are worked on with INIT_HLIST_HEAD, INIT_HLIST_NODE, hlist_add_head, hlist_add_before, hlist_add_behind, hlist_add_fake, hlist_del, hlist_del_init and hlist_move_list, where a node added is in no list. At each moment each list holds exactly the nodes put into it and not taken out, in the order the calls ask for, and loops read just those. hlist_unhashed, hlist_fake and hlist_is_singular_node tell whether a node is in no list, a fake list, or the only one of a list. hlist_del_init may be repeated. hlist_for_each_safe visits all nodes even if any of them are removed and freed on the way. A node deleted twice with hlist_del makes a write to a poison address.", "quantifier": "for all numbers of lists and nodes, all sequences of calls, all choices of nodes removed in a loop", "why_tests_cant": "the pointer back to the pointer matters only when a node is removed much later; sequences are unbounded", "anchors": ["include/osmocom/core/linuxlist.h:465", "include/osmocom/core/linuxlist.h:493", "include/osmocom/core/linuxlist.h:508", "include/osmocom/core/linuxlist.h:522", "include/osmocom/core/linuxlist.h:535", "include/osmocom/core/linuxlist.h:586", "include/osmocom/core/linuxlist.h:600"]}
{"id": "C120", "title": "Hash tables find what was added", "statement": "In a hash table of 2, 4, 8 and so on up to 2^30 buckets, set up by hash_init, after any hash_add and hash_del calls, hash_for_each visits each node added and not deleted exactly once; hash_for_each_possible with a key visits all nodes with this key; a loop left with break leaves the object at the node found, and otherwise the object is NULL; hash_empty and hash_hashed agree. The bucket of a key of 32 or 64 bits is always one of the table.", "quantifier": "for all such sizes, all keys, all sequences of calls and all loop bodies", "why_tests_cant": "collisions depend on keys and sizes; the bucket is chosen by two macros for the logarithm and two multiplications", "anchors": ["include/osmocom/core/hashtable.h:23", "include/osmocom/core/hashtable.h:52", "include/osmocom/core/hashtable.h:88", "include/osmocom/core/hashtable.h:100", "include/osmocom/core/hashtable.h:127", "include/osmocom/core/hash.h:67", "include/osmocom/core/log2.h:98"]}
{"id": "C121", "title": "Milenage vectors are those of TS 33.102, and the USIM accepts them", "statement": "osmo_auth_gen_vec2 with Milenage fills the vector with the RAND, the AUTN, RES, CK and IK of TS 35.206 for the key, the OPc (stored, or computed from OP) and the AMF of the subscriber, with Kc and SRES by the conversion functions c3 and c2. A USIM with the same keys answers the vector with the RES, CK and IK in it if the SQN is new to it, and with AUTS otherwise, never with MAC failure. osmo_auth_gen_vec_auts2 takes an AUTS exactly if a USIM with these keys can have made it for the RAND given; the vector then returned is accepted by that USIM. Any other AUTS is refused and nothing changes.", "quantifier": "for all block ciphers in place of AES (which does not fail), all keys, SQN, AMF, RAND and all AUTS", "why_tests_cant": "a wrong rotation or constant is found by test vectors only for the functions tested, and no set of vectors shows that only a genuine AUTS passes", "anchors": ["src/gsm/milenage/milenage.c:45", "src/gsm/milenage/milenage.c:97", "src/gsm/milenage/milenage.c:182", "src/gsm/milenage/milenage.c:217", "src/gsm/milenage/milenage.c:327", "src/gsm/auth_milenage.c:46", "src/gsm/auth_milenage.c:151", "src/gsm/auth_core.c:186", "src/gsm/auth_core.c:261"]}
{"id": "C122", "title": "milenage_check is a USIM", "statement": "milenage_check answers an AUTN as TS 33.102 asks of a USIM: a MAC failure (-1) if MAC-A is wrong, a synchronisation failure (-2) with AUTS if the MAC is right but the SQN not greater than the one stored, otherwise 0 with RES, CK and IK.", "quantifier": "for all ciphers, keys, stored SQN, RAND and AUTN", "why_tests_cant": "an AUTN that is both forged and stale is not among the usual test vectors", "anchors": ["src/gsm/milenage/milenage.c:272"]}
{"id": "C123", "title": "Sequence numbers keep vectors usable", "statement": "Vectors asked for one after the other, each for any slot IND, have SEQ numbers that go up by one, and IND as asked; a USIM with an array of SEQ per IND accepts every one that reaches it, whichever are lost and however those of different slots are mixed. Requests to osmo_auth_gen_vec2 with an IND that does not fit, or with more than 28 bits of IND, are refused; a refused request changes neither vector nor SQN.", "quantifier": "for all subscribers, all sequences of requests while the 48 bits last, all subsets and orders of delivery", "why_tests_cant": "loss and reordering of vectors between several users of the authentication centre is a matter of all interleavings", "anchors": ["src/gsm/auth_milenage.c:46", "src/gsm/auth_tuak.c:50", "src/gsm/auth_core.c:186"]}
{"id": "C124", "title": "GSM and UMTS material convert into each other", "statement": "osmo_auth_c4 and osmo_auth_c5 give the CK and IK of TS 33.102 for a Kc, and osmo_auth_c3 leads back to the same Kc; osmo_auth_3g_from_2g does so for vectors with GSM material only, and leaves others alone. osmo_auth_c2 is the c2 of TS 33.102 or the first four bytes, as asked. gsm_milenage agrees with the SRES and Kc of the Milenage vector. XOR-2G splits Ki xor RAND into SRES and Kc.", "quantifier": "for all keys, RES lengths, vectors", "why_tests_cant": "an index off by one in a conversion shows only with keys that are not symmetric", "anchors": ["src/gsm/auth_core.c:153", "src/gsm/auth_core.c:360", "src/gsm/auth_core.c:373", "src/gsm/milenage/milenage.c:244", "src/gsm/auth_xor_2g.c:45"]}
{"id": "C125", "title": "XOR-3G vectors and resynchronisation", "statement": "osmo_auth_gen_vec2 with the XOR algorithm fills the vector as TS 34.108 asks, a test USIM with the same key and a lower SQN accepts it with the RES, CK and IK of the vector; each vector has a higher SQN than the last; an AUTS of the test USIM is accepted, any other refused, and the vector made then is accepted by this USIM.", "quantifier": "for all keys, SQN, AMF, RAND, AUTS", "why_tests_cant": "the test USIM is not part of the library", "anchors": ["src/gsm/auth_xor.c:45", "src/gsm/auth_xor.c:131"]}
{"id": "C126", "title": "Keccak_f_64 is Keccak-f[1600]", "statement": "Keccak_f_64 applies the permutation Keccak-f[1600] of FIPS 202 to the state, lane (x, y) being the 64 bit word 5y + x: theta, rho with the offsets of the standard's walk, pi, chi, iota with the constants of the standard's shift register, 24 rounds.", "quantifier": "for all states of 25 lanes", "why_tests_cant": "a wrong offset or constant changes the result for nearly all inputs, but test vectors say nothing about the remaining states", "anchors": ["src/gsm/tuak/KeccakP-1600-3gpp.c:28"]}
{"id": "C127", "title": "TUAK vectors and resynchronisation", "statement": "osmo_auth_gen_vec2 with TUAK fills the vector with the RAND, AUTN, RES (4, 8 or 16 bytes), CK, IK of TS 35.231 for a K of 16 or 32 bytes and the TOPc of the subscriber (stored or computed from TOP), for any number of Keccak iterations. A USIM with the same keys accepts it if the SQN is new to it. osmo_auth_gen_vec_auts2 takes exactly the AUTS of such a USIM and the vector made then is accepted.", "quantifier": "for all keys, SQN, AMF, RAND, iterations and AUTS", "why_tests_cant": "each combination of lengths has its own INSTANCE byte; test vectors cover some of them", "anchors": ["src/gsm/tuak/tuak.c:54", "src/gsm/tuak/tuak.c:88", "src/gsm/tuak/tuak.c:185", "src/gsm/tuak/tuak.c:264", "src/gsm/tuak/tuak.c:300", "src/gsm/tuak/tuak.c:334", "src/gsm/auth_tuak.c:50", "src/gsm/auth_tuak.c:163"]}
{"id": "C128", "title": "BCD numbers (called party, IMSI) survive encoding and decoding", "statement": "gsm48_encode_bcd_number packs the characters 0-9 * # a-c two to an octet, first one in the low nibble, with a filler 0xf at the end of an odd count, behind a header of h_len octets that it leaves alone, and returns the octets used; gsm48_decode_bcd_number2 gives the number back, cut to what fits the output buffer (which is always nul-terminated and never overrun, for any input), with -ENOSPC exactly if it was cut; other characters give -EINVAL, too long numbers -EIO.", "quantifier": "all numbers, buffer sizes, header lengths, and for the decoder all octet strings", "why_tests_cant": "The parity of the count, the header, the size of the buffer and the position of a filler nibble combine freely; tests try a few numbers.", "anchors": ["src/gsm/gsm48_ie.c:41-180"]}
{"id": "C129", "title": "The BCD encoder stays within max_len", "statement": "gsm48_encode_bcd_number never writes more than max_len octets at bcd_lv.", "quantifier": "all numbers and buffer sizes", "why_tests_cant": "A write one behind the end of a caller's buffer goes unseen unless a number of exactly the limit is tried with a guard.", "anchors": ["src/gsm/gsm48_ie.c:150-180"]}
{"id": "C130", "title": "GSUP messages survive encoding and decoding", "statement": "For every GSUP message whose fields fit their IEs, osmo_gsup_encode into a msgb with enough tailroom returns 0, and osmo_gsup_decode of the result gives the same message in all fields: PDP contexts, authentication vectors, session, SM-RP addresses, AN-APDU, RAT types and the rest, in every combination. With too little tailroom there is no partial success: the program stops in msgb_put or -EINVAL is returned.", "quantifier": "all messages: any subset of the 33 IE groups, any contents, up to 10 PDP contexts and 5 vectors, any tailroom", "why_tests_cant": "2^33 subsets of optional IEs with contents; a field that is sent with the wrong tag, width, offset by one, or that another IE overwrites, shows only if the test happens to set it.", "anchors": ["src/gsm/gsup.c:652-1010", "src/gsm/gsup.c:129-650", "src/gsm/gsup_sms.c:42-254"]}
{"id": "C131", "title": "osmo_gsup_decode does not read behind the message", "statement": "For any octets, osmo_gsup_decode reads only octets of the message, and the pointers that it returns point into the message.", "quantifier": "all octet strings", "why_tests_cant": "Only an IE of length 0 in the last position, for some of the tags, shows it, and only with a guard behind the buffer.", "anchors": ["src/gsm/gsup.c:356-650"]}
{"id": "C132", "title": "osmo_gsup_decode yields consistent messages from any octets, and skips unknown IEs", "statement": "Whenever osmo_gsup_decode succeeds, the counters of PDP contexts, vectors (except in a request for vectors, where it is the number asked for) and RAT types stay within the arrays, entries behind the counters are untouched, AUTS and RAND have 14 and 16 octets, and the IMSI has at most 16 digits; an IE with an unknown tag changes nothing wherever it is inserted behind an IE with a value; a message that ends within an IE is rejected.", "quantifier": "all octet strings; all positions, tags and contents of an unknown IE", "why_tests_cant": "Messages from the network are arbitrary; repeated IEs beyond the array sizes and unknown tags at every position cannot be enumerated.", "anchors": ["src/gsm/gsup.c:356-650"]}
{"id": "C133", "title": "OAP messages survive encoding and decoding", "statement": "For every OAP message (type 1 to 255, cause up to 255, 16-bit client id, any of RAND, AUTN, AUTS, XRES) osmo_oap_encode appends octets, at most 70, which osmo_oap_decode turns into the same message with the same fields present; with less tailroom than these octets need the program is stopped by msgb_put, and never writes part of them unnoticed.", "quantifier": "all messages, all tailrooms", "why_tests_cant": "a test encodes a handful of messages with fixed keys; the presence flags and the values of every field are unbounded in combination", "anchors": ["src/gsm/oap.c:160-190", "src/gsm/oap.c:43-154"]}
{"id": "C134", "title": "OAP decoding of arbitrary octets", "statement": "osmo_oap_decode reads only the octets of the message it is given; what it accepts (with a type other than 0) is a message that osmo_oap_encode can encode, with arrays of the right sizes and a client id other than 0 or absent; IEs with unknown tags are skipped without effect on the rest.", "quantifier": "all octet strings", "why_tests_cant": "fuzzing samples octet strings; the read behind the end needs one particular last IE and stays unnoticed without a sanitizer", "anchors": ["src/gsm/oap.c:43-154"]}
{"id": "C135", "title": "The SMC frees each message once", "statement": "Whatever primitives, messages of the peer and timer expiries reach a gsm411_smc_inst, each message the upper layer handed over with gsm411_smc_send has been freed or passed to the lower layer exactly once, or is the one kept for retransmission; after gsm411_smc_clear none is left and the timer is stopped.", "quantifier": "all executions of any length", "why_tests_cant": "a leak or double free shows only in particular interleavings of requests, peer messages and timeouts", "anchors": ["src/gsm/gsm0411_smc.c:100-114", "src/gsm/gsm0411_smc.c:163-206", "src/gsm/gsm0411_smc.c:222-419", "src/gsm/gsm0411_smc.c:454-480", "src/gsm/gsm0411_smc.c:528-580"]}
{"id": "C136", "title": "The SMC sends a message at most three times", "statement": "For each MNSMS-EST-REQ or MNSMS-DATA-REQ the message is sent in at most 1 + MAX_SMS_RETRY CP-DATA, and nothing is ever sent in a CP-DATA that was not handed over for it.", "quantifier": "all executions of any length", "why_tests_cant": "retransmission counts depend on the history of timeouts and peer messages", "anchors": ["src/gsm/gsm0411_smc.c:184-253", "src/gsm/gsm0411_smc.c:528-580"]}
{"id": "C137", "title": "The SMC sends only over an established connection", "statement": "CP-DATA and CP-ACK are sent only while the MM connection is up: after MMSMS-EST-CNF for the request or MMSMS-EST-IND, and before MMSMS-REL-REQ or MMSMS-REL-IND; a connection is not torn down by the timer of an earlier message.", "quantifier": "all executions of any length", "why_tests_cant": "the fault needs a release in the wait for CP-ACK followed by a new request within the time of the old timer", "anchors": ["src/gsm/gsm0411_smc.c:184-253", "src/gsm/gsm0411_smc.c:357-419"]}
{"id": "C138", "title": "The SMC releases and reports on return to IDLE", "statement": "Whenever the SMC returns to IDLE it releases the MM connection with exactly one MMSMS-REL-REQ, except after MMSMS-REL-IND; it sends exactly one MNSMS-ERROR-IND unless the upper layer asked for the end; a release requested during the wait for CP-ACK is carried out at the CP-ACK.", "quantifier": "all states and events", "why_tests_cant": "every pair of state and event has to be tried with every pending flag", "anchors": ["src/gsm/gsm0411_smc.c:222-284", "src/gsm/gsm0411_smc.c:326-419", "src/gsm/gsm0411_smc.c:528-580"]}
{"id": "C139", "title": "The SMC gives up on an unanswered message", "statement": "In every reachable wait for CP-ACK the timer runs and the message is kept; if no answer comes it is sent until it was sent three times, then the upper layer gets MNSMS-ERROR-IND, the message is freed and the connection released, whatever happened before.", "quantifier": "all reachable states, all messages", "why_tests_cant": "needs the state reached by arbitrary earlier executions", "anchors": ["src/gsm/gsm0411_smc.c:184-253"]}
{"id": "C140", "title": "Each short message transfer is reported once", "statement": "The SMR reports each message accepted from the upper layer once with SM-RL-REPORT-IND, gives each RP-DATA or RP-SMMA of the peer to the upper layer once, releases the connection at the end, and answers messages of the wrong direction with an RP-ERROR with their reference.", "quantifier": "all executions of any length, all messages", "why_tests_cant": "double and missing reports need a late or unexpected answer", "anchors": ["src/gsm/gsm0411_smr.c:219-375", "src/gsm/gsm0411_smr.c:400-494"]}
{"id": "C141", "title": "The SMR timer ends each wait", "statement": "The timer runs in each wait and not in IDLE; when it expires the upper layer is told, the connection aborted, and the instance is ready for the next message.", "quantifier": "all executions of any length", "why_tests_cant": "the stuck state shows only after an expiry and a further request", "anchors": ["src/gsm/gsm0411_smr.c:141-152", "src/gsm/gsm0411_smr.c:197-228", "src/gsm/gsm0411_smr.c:363-375"]}
{"id": "C142", "title": "RP headers are read and written within bounds", "statement": "The SMR reads the RP header within the message from the lower layer, and the length it writes into an RP header is that of the rest of the RP message.", "quantifier": "all messages", "why_tests_cant": "reads behind a short message go unnoticed; the length is wrong only from 254 octets on", "anchors": ["src/gsm/gsm0411_smr.c:155-169", "src/gsm/gsm0411_smr.c:241-340"]}
{"id": "C143", "title": "osmo_t4_encode is lossless", "statement": "Encoding a bit vector with osmo_t4_encode either returns -1 and leaves the vector as it was, or replaces its bits by a shorter code from which, with the returned colour and the original number of bits, the original bits can be decoded. This holds for vectors with at least two unused octets behind their bits and no run of 1017 equal bits.", "quantifier": "all bit vectors with two unused octets behind the cursor and without a run of 1017 equal bits; all vectors of the same size for injectivity", "why_tests_cant": "The number of bit vectors is unbounded, and whether every sequence of variable length code words decodes uniquely depends on all pairs of code words and on the shift and run length helpers at every alignment.", "anchors": ["src/core/bitcomp.c:39-348", "include/osmocom/core/bitcomp.h", "src/core/bitvec.c:586-664"]}
{"id": "C144", "title": "SMS time stamps keep date and time", "statement": "Two decimal digits survive gsm411_bcdify and gsm411_unbcdify. A time stamp from gsm340_gen_scts has seven octets, and gsm340_scts reads the same date and time for the years 1981 to 2080. Where struct tm has tm_gmtoff, the decoder needs an eighth octet and takes its time zone from there.", "quantifier": "all two digit numbers; all broken down times of 1981 to 2080; all time zones east of Greenwich in quarters of an hour; all octets behind the time stamp", "why_tests_cant": "Dates times time zones times following octets are far too many for a test, and a test buffer longer than seven octets hides the read behind the time stamp.", "anchors": ["src/gsm/gsm0411_utils.c:58-138"]}
{"id": "C145", "title": "Validity periods of short messages", "statement": "A relative validity period grows strictly with its octet and takes exactly the values of 3GPP TS 23.040: steps of five minutes to twelve hours, of half an hour to a day, of a day to thirty days, of a week from five to 63 weeks. The enhanced format selects relative, seconds or hours:minutes:seconds and skips an extension octet. No format and reserved ones give two days. An absolute one gives the whole minutes left. With seven octets given only the absolute format reads beyond them.", "quantifier": "all octets, all formats, all contents of the seven octets, all clocks", "why_tests_cant": "The enhanced and absolute formats combine up to eight octets with the present time; a test looks at a few of them.", "anchors": ["src/gsm/gsm0411_utils.c:140-248"]}
{"id": "C146", "title": "TPDU addresses and alphabets", "statement": "gsm340_gen_oa with up to 20 digits and room for them stores the number of digits, type and plan, and the packed digits, returns the octets used, and writes nothing else; text that fits is stored as packed septets that decode to it. gsm338_get_sms_alphabet follows the coding groups of 3GPP TS 23.038 for every data coding scheme.", "quantifier": "all digit strings up to 20, all texts of characters that survive coding, all types, plans and buffers, all 256 data coding schemes", "why_tests_cant": "Digit strings, texts and buffer sizes are unbounded; boundary lengths decide whether bytes are written outside the buffer.", "anchors": ["src/gsm/gsm0411_utils.c:250-324"]}
{"id": "C147", "title": "Silence descriptors are recognised, tolerated and restored as specified", "statement": "osmo_fr_sid_classify and osmo_efr_sid_classify call a frame speech when 16 or more of the 95 code word bits are wrong, a valid SID when at most one is, an invalid SID otherwise. The check functions accept exactly error-free code words under the right signature. The reset functions keep the comfort noise parameters and make the code word perfect (full rate also clears the unused bits), and osmo_fr_sid_preen / osmo_efr_sid_preen fail exactly for invalid SIDs, leave speech alone, and restore a perfect SID from any reception with at most one code word error.", "quantifier": "for all frames of the codec's size", "why_tests_cant": "2^264 frames; thresholds and table positions matter for every pattern of bit errors", "anchors": ["src/codec/gsm610.c:osmo_fr_sid_classify", "src/codec/gsm610.c:osmo_fr_check_sid", "src/codec/gsm610.c:osmo_fr_sid_reset", "src/codec/gsm610.c:osmo_fr_sid_preen", "src/codec/gsm660.c:osmo_efr_sid_classify", "src/codec/gsm660.c:osmo_efr_check_sid", "src/codec/gsm660.c:osmo_efr_sid_reset", "src/codec/gsm660.c:osmo_efr_sid_preen", "src/codec/gsm620.c:osmo_hr_check_sid", "src/codec/gsm620.c:osmo_hr_sid_reset"]}
{"id": "C148", "title": "Full rate error concealment repeats, fades and falls silent", "statement": "After a good speech frame the first lost frame is replaced by it, the following ones by the same frame with all four block amplitudes lowered by 4 more each time and pseudo random grid positions, until all are zero; then the silence frame is put out for good, after at most 17 substitutions. After a valid SID the first 47 lost frames are replaced by the SID made perfect, then its amplitude is lowered by 4 each time down to silence. Every substitution has 33 octets with the full rate signature, substitutions of speech never look like a SID, frames with bad frame indication, size or signature are ignored, and a DTX pause is reported exactly when the last accepted frame was a SID.", "quantifier": "for all earlier states, frames, and sequences of received and lost frames", "why_tests_cant": "unbounded event sequences, all frames and amplitudes, and counts up to 62 lost frames in a row", "anchors": ["src/codec/ecu_fr.c:fr_ecu_input", "src/codec/ecu_fr.c:fr_ecu_output", "src/codec/ecu_fr.c:reduce_xmaxc", "src/codec/ecu_fr.c:random_grid_pos", "src/codec/ecu_fr.c:reemit_sid", "src/codec/ecu_fr.c:ecu_fr_frame_in", "src/codec/ecu_fr.c:ecu_fr_is_dtx_pause"]}
{"id": "C149", "title": "The log level cache never hides a message", "statement": "From log_init until log_fini, whatever targets were created, added and deleted and however levels, categories, masks and filters were set (API or VTY), with log_cache_enable at any time or not, osmo_vlogp hands a message to exactly the targets in the list that want it, in list order: category enabled, level not below the level of the target (of the category, if the target has none), and not filtered out. log_check_level is true exactly if there is such a target. Subsystem numbers map to the application's categories, the library's categories, or DLGLOBAL.", "quantifier": "for all sequences of configuration calls, subsystems and non-negative levels", "why_tests_cant": "the cache is updated incrementally by seven different calls; a stale entry loses messages only after particular sequences", "anchors": ["src/core/logging.c:osmo_vlogp", "src/core/logging.c:log_check_level", "src/core/logging.c:log_cache_update", "src/core/logging.c:log_cache_update_all", "src/core/logging.c:map_subsys", "src/core/logging.c:should_log_to_target", "src/core/logging.c:log_set_category_filter", "src/core/logging.c:log_set_log_level", "src/vty/logging_vty.c:logging_level"]}
{"id": "C150", "title": "Category masks", "statement": "log_parse_category_mask with a mask category1:category2,level:... disables every category of the target that is not named (in any case) and gives the others the level of the last token naming them, 0 without a level; other targets stay as they are.", "quantifier": "for all masks of non-empty tokens and all tables of categories", "why_tests_cant": "arbitrary names, masks and category tables; prefixes of names matter", "anchors": ["src/core/logging.c:log_parse_category_mask"]}
{"id": "C151", "title": "Geographical coordinates survive coding to within the step of the code", "statement": "Coding a latitude or longitude and decoding it gives a value of the same sign, nearer to zero by at most 10 (latitude) or 21 (longitude) millionths of a degree; every code is the code of the value it stands for; clamping a value so is idempotent and keeps the order; values out of range count as the end of the range, and +180 degrees comes back as -180.", "quantifier": "for all 32 bit degrees and all 24 bit codes", "why_tests_cant": "16 million codes and hundreds of millions of values with divisions that round; the unit tests try a handful", "anchors": ["src/gsm/gad.c:osmo_gad_enc_lat", "src/gsm/gad.c:osmo_gad_dec_lat", "src/gsm/gad.c:osmo_gad_enc_lon", "src/gsm/gad.c:osmo_gad_dec_lon"]}
{"id": "C152", "title": "The uncertainty code is the largest radius not above the given one", "statement": "An uncertainty code k stands for 10 m (1.1^k - 1), rounded down to millimetres, the eighth bit being ignored; the code of a radius is the largest that does not stand for more, and every code is the code of the radius it stands for.", "quantifier": "for all radii and codes", "why_tests_cant": "the table of 128 entries and every radius between them", "anchors": ["src/gsm/gad.c:osmo_gad_dec_unc", "src/gsm/gad.c:osmo_gad_enc_unc", "src/gsm/gad.c:table_uncertainty_1e3"]}
{"id": "C153", "title": "Geographical area PDUs are read at exactly their length and circles round-trip", "statement": "A PDU is accepted exactly if its length is the one its first octet asks for, and is then written back unchanged and decoded without reading beyond it; an uncertainty circle with coordinates in range is encoded to 8 octets which decode to the circle with its values clamped to codable ones; decoding and encoding gives back the octets; everything else is refused with the error documented; the encoder returns the number of octets written.", "quantifier": "for all octet strings and circles", "why_tests_cant": "all octet strings and values; the return value depends on the target", "anchors": ["src/gsm/gad.c:osmo_gad_raw_read", "src/gsm/gad.c:osmo_gad_raw_write", "src/gsm/gad.c:osmo_gad_enc", "src/gsm/gad.c:osmo_gad_dec", "src/gsm/gad.c:osmo_gad_raw_len"]}
{"id": "C154", "title": "Global call references round-trip and compare by their valid octets", "statement": "A call reference with a network identity of 3 to 5 octets is encoded with every part preceded by its length, the length returned, and decoded to the same reference whatever follows; others are not encoded; decoding stays within the element and reports one that is too short or has wrong lengths; two references are equal exactly if they have the same network identity (valid octets), node and call reference.", "quantifier": "for all references and octet strings", "why_tests_cant": "all structures and octet strings, including what follows the element", "anchors": ["src/gsm/gsm29205.c:osmo_enc_gcr", "src/gsm/gsm29205.c:osmo_dec_gcr", "src/gsm/gsm29205.c:osmo_gcr_eq"]}
{"id": "C155", "title": "Speech codec elements round-trip for every known codec", "statement": "A codec of a known type whose configuration fits its size is encoded as header, type and configuration and decoded to itself whatever follows, the octets counted; any other codec is refused by the encoder and never produced by the decoder; a list of codecs is encoded exactly if all are encodable and it fits its length octet, and is then decoded to the same list; the decoders stay within the element.", "quantifier": "for all codecs, lists of codecs and octet strings", "why_tests_cant": "all flag, type and configuration combinations and all list lengths; the host's byte order matters", "anchors": ["src/gsm/gsm0808_utils.c:enc_speech_codec", "src/gsm/gsm0808_utils.c:gsm0808_enc_speech_codec2", "src/gsm/gsm0808_utils.c:gsm0808_dec_speech_codec", "src/gsm/gsm0808_utils.c:gsm0808_enc_speech_codec_list2", "src/gsm/gsm0808_utils.c:gsm0808_dec_speech_codec_list"]}
{"id": "C156", "title": "Cell identifiers and lists of them round-trip", "statement": "A cell identifier list of any kind of TS 48.008 that is sent is written as tag, length, kind and the codes of its entries and decoded to the same entries (of a CGI-PS the CGI), the octets counted; a single identifier likewise; an element is accepted exactly if its kind is known, and then has an entry for every complete code in it.", "quantifier": "for all lists, identifiers and octet strings of any length", "why_tests_cant": "all kinds, list lengths and values, including lists longer than the length octet can tell", "anchors": ["src/gsm/gsm0808_utils.c:gsm0808_enc_cell_id_list2", "src/gsm/gsm0808_utils.c:gsm0808_dec_cell_id_list2", "src/gsm/gsm0808_utils.c:gsm0808_enc_cell_id", "src/gsm/gsm0808_utils.c:gsm0808_dec_cell_id", "src/gsm/gsm0808_utils.c:gsm0808_decode_cell_id_u", "src/gsm/gsm0808_utils.c:gsm0808_msgb_put_cell_id_u"]}
{"id": "C157", "title": "Cell identifiers match exactly if nothing they have in common differs", "statement": "Two cell identifiers match exactly if both have a PLMN, LAC or CI to compare and none of the parts both have differs; an exact match asks for the same kind and all values too; matching is symmetric; the search in a list returns the index of the match with the given number of matches before it, or -1 if there are too few; converting from and to a CGI copies exactly the parts the kind has and reports them.", "quantifier": "for all identifiers, lists and match numbers", "why_tests_cant": "all pairs of kinds and values", "anchors": ["src/gsm/gsm0808_utils.c:gsm0808_cell_ids_match", "src/gsm/gsm0808_utils.c:gsm0808_cell_id_u_match", "src/gsm/gsm0808_utils.c:gsm0808_cell_id_matches_list", "src/gsm/gsm0808_utils.c:gsm0808_cell_id_from_cgi", "src/gsm/gsm0808_utils.c:gsm0808_cell_id_to_cgi"]}
{"id": "C158", "title": "Merging cell identifier lists adds every missing entry once", "statement": "Adding a list to another of its kind appends the entries that are missing, in order and each once, and returns their number, or -ENOSPC with the destination full and an entry missing; lists of different kinds are refused unchanged, unless the destination is empty and not the whole BSS; adding again adds nothing.", "quantifier": "for all lists", "why_tests_cant": "all contents and fillings, including duplicates within the source", "anchors": ["src/gsm/gsm0808_utils.c:gsm0808_cell_id_list_add", "src/gsm/gsm0808_utils.c:same_cell_id_list_entries"]}
{"id": "C159", "title": "BSSMAP channel type", "statement": "A channel type (speech with up to nine permitted versions, transparent or non-transparent data with rates allowed and asymmetry preference, signalling) is encoded as TS 48.008 3.2.2.11 has it, with the extension bits set on all octets but the last; an element is decoded to the channel type it was made from, whatever follows it, except that the asymmetry preference is lost; the decoder never reads more octets than the element has, and reports at most nine speech versions unless nine octets all announce another.", "quantifier": "every channel whose values fit, every rate type, every octet string", "why_tests_cant": "the combinations of up to nine speech versions and optional octets are far too many to try; a test of one asymmetric channel would need the preference to be looked at", "anchors": ["src/gsm/gsm0808_utils.c:491-632", "include/osmocom/gsm/protocol/gsm_08_08.h:730-756"]}
{"id": "C160", "title": "BSSMAP encryption information", "statement": "Encryption information is encoded exactly if it lists up to eight algorithms numbered 1 to 8 and a key of at most 252 octets; the element is decoded to the same key and the algorithms in ascending order, each once; an element of 1 to 253 octets is decoded and encoded again to the same octets; elements of 254 and 255 octets are copied beyond the end of the key.", "quantifier": "every list of algorithms, every key, every octet string", "why_tests_cant": "all subsets and orders of algorithms with all keys; the overrun needs an element longer than any real key", "anchors": ["src/gsm/gsm0808_utils.c:789-861", "include/osmocom/gsm/protocol/gsm_08_08.h:758-766"]}
{"id": "C161", "title": "AMR configurations and codecs from permitted speech versions", "statement": "The rates taken from speech codec configuration bits are the union of those of the configurations S0 to S7 set (S1 standing for four), refused exactly if these are none or more than four; one to four rates other than 5.15 come back on a full rate channel, and on a half rate channel if they are rates of such a channel but not 4.75, 5.9 and 7.4 together; masked bits are zero; just nine permitted speech versions have a codec, each another one, which is valid for encoding and of type Full IP.", "quantifier": "every 16 bit configuration, every set of rates, every permitted speech octet", "why_tests_cant": "a test samples a few configurations; the half rate case that gains a rate is one of 256", "anchors": ["src/gsm/gsm0808_utils.c:1569-1804", "include/osmocom/gsm/protocol/gsm_08_08.h:657-695"]}
{"id": "C162", "title": "BSSLAP messages", "statement": "A BSSLAP message (TA Request, TA Response, Reject, Reset, Abort, TA Layer3) is encoded as its type and the elements of its members, other types are refused; it is decoded back to itself even if further elements follow; any message that is a sequence of elements of the protocol, in any order, is decoded by the first occurrence of each, and refused if a mandatory one is missing or if it is not such a sequence, without reading beyond the data.", "quantifier": "every message, every sequence of elements, every octet string", "why_tests_cant": "orders and combinations of 26 elements with values of any size are not enumerable", "anchors": ["src/gsm/bsslap.c:36-279", "include/osmocom/gsm/protocol/gsm_48_071.h:28-116"]}
{"id": "C163", "title": "LCLS parameters of BSSMAP", "statement": "Local call local switch parameters are written as the elements of those that have a value, and the number of octets is returned; a message with them and any other elements, parsed with the library's definition of BSSMAP elements, gives them back (call reference, configuration, connection status control) if correlation is needed; if it is not needed the message that ends with them cannot be parsed, nor can a notification with a request to break.", "quantifier": "every LCLS parameters with a valid or no call reference, every sequence of other elements before and behind", "why_tests_cant": "the encoder is tested by comparing octets and the decoder with octets written by hand, not the one with the other", "anchors": ["src/gsm/gsm0808_utils.c:638-715", "src/gsm/gsm0808.c:2177-2318", "src/gsm/gsm0808.c:407-425"]}
{"id": "C164", "title": "Process environments are filtered by key and appended in order", "statement": "osmo_environment_filter writes, in the order of the input, the entries of the form KEY=VALUE whose key has at most 255 characters and is in the whitelist, as many as there is room for, followed by NULL; it leaves the rest of the array alone and returns the number of elements written. Missing arguments or an array of size zero yield -EINVAL. osmo_environment_append keeps the entries present and adds those of the input in order as far as there is room, followed by NULL, and returns the number of elements; given no input it leaves the array as it is, and returns the number of entries without the NULL unless there are none.", "quantifier": "all arrays, sizes, environments and whitelists, of any length", "why_tests_cant": "tests use one environment and whitelist; that entries with an unlisted key never pass, for any strings and any room, is a statement over all of them", "anchors": ["src/core/exec.c:84", "src/core/exec.c:140"]}
{"id": "C165", "title": "Signals reach the registered handlers of their subsystem in order", "statement": "Registering adds one handler behind the others, unregistering takes away the first with that subsystem, function and data and leaves the others in their order. If callbacks leave the list alone, a signal is delivered to each handler of its subsystem once per registration and in order of registration, and to no other. If callbacks unregister handlers other than their own, the delivery runs to its end, calls only handlers registered at its beginning, in order, and calls every handler that is still registered at the end. A handler registered by a callback receives the signal being delivered as well. A callback must not unregister its own handler: the delivery proceeds from freed memory.", "quantifier": "all lists of handlers, subsystems and behaviours of callbacks", "why_tests_cant": "the number of handlers and the interleaving of list changes with a delivery are unbounded; use after free may go unnoticed in a test", "anchors": ["src/core/signal.c:61", "src/core/signal.c:86", "src/core/signal.c:106"]}
{"id": "C166", "title": "NS messages are accepted exactly with the elements their type requires", "statement": "ns2_validate accepts reset, reset acknowledge, block and block acknowledge exactly if all their elements (cause, NS-VCI, NSEI) are there with their minimum lengths, and reports missing essential element otherwise; alive, unblock and their acknowledges exactly if they have no payload; a status exactly if it has a cause, the element that belongs to the cause and, for causes about the NS-VC, the NS-VC uses block and reset; other types always. The status built for a rejected message names the cause, has the NS-VCI or the rejected message as the cause requires, and is itself accepted by that validation for all causes but those that require a BVCI or an address list.", "quantifier": "all sets of elements with contents of any length, all message types, lengths, modes and causes", "why_tests_cant": "the combinations of type, cause and elements present are many; tests send a few valid messages", "anchors": ["src/gb/gprs_ns2_message.c:139", "src/gb/gprs_ns2_message.c:90", "src/gb/gprs_ns2.c:712"]}
{"id": "C167", "title": "A VTY vector is a map from indices to values", "statement": "After any sequence of operations on a new vector no slot outside those allocated is accessed. Looking up an index yields the value last set there, or NULL if none was or it was unset. Setting an index changes that slot and no other, however far beyond the size of the vector it is; setting without an index uses the first slot that is NULL and returns its index. Unsetting makes a slot NULL, and when it was the last active one, the vector ends behind the last slot that is not NULL. The count is the number of slots that are not NULL. Ensuring a slot and copying change no slot.", "quantifier": "all vectors, indices, values and sequences of operations, of any length", "why_tests_cant": "tests grow vectors by a few elements; the growth by doubling and the trimming at the end depend on all slots", "anchors": ["src/vty/vector.c:96", "src/vty/vector.c:128", "src/vty/vector.c:144", "src/vty/vector.c:157", "src/vty/vector.c:172", "src/vty/vector.c:186"]}
{"id": "C168", "title": "A VTY line is split into its words and its indentation", "statement": "cmd_make_strvec2 yields the words of a line, that is its maximal runs of characters other than white space, in order; a line that is empty or begins with ! or # after its white space yields no vector. If the indentation is asked for, blank lines in front are skipped and the spaces and tabs directly before the first word are returned; a vertical tab or form feed there is an error. If it is not, any white space in front is skipped. The split ends for every line.", "quantifier": "all lines, of any length and content", "why_tests_cant": "lines are unbounded; a test that splits some lines cannot show that no character is lost or moved for others", "anchors": ["src/vty/command.c:266"]}
{"id": "C169", "title": "SI1 rest octets carry the position of the NCH", "statement": "osmo_gsm48_si1ro_nch_pos_encode gives a code exactly for positions of at least one block that end within the first seven, numbered by number of blocks and then first block; osmo_gsm48_si1ro_nch_pos_decode is its inverse and refuses all other values. osmo_gsm48_rest_octets_si1_encode writes whether there is an NCH, the five bits of its position and the band indicator into one octet, with padding, from which the position is recovered; the last bit of the octet is left as it was.", "quantifier": "all numbers of blocks, first blocks and codes; all octets before, positions and bands", "why_tests_cant": "the table is small but a test checks some entries; that no other code is accepted and that the bits do not disturb each other is a statement over all values", "anchors": ["src/gsm/gsm48_rest_octets.c:38", "src/gsm/gsm48_rest_octets.c:110", "src/gsm/gsm48_rest_octets.c:125"]}
