{
 "claims": [
  {
   "property": "C01",
   "status": "proved",
   "theorems": [
    "Verif.Msgb.msgb_ops_in_storage",
    "Verif.Msgb.put_beyond_tailroom",
    "Verif.Msgb.push_beyond_headroom"
   ],
   "note": "invariant over every in-contract operation sequence; contract shown tight"
  },
  {
   "property": "C02",
   "status": "proved",
   "theorems": [
    "Verif.Msgb.msgb_refines_deque",
    "Verif.Msgb.put_get_u16",
    "Verif.Msgb.push_pull_u32"
   ],
   "note": "refinement to a double-ended byte sequence; u16 put/get and u32 push/pull round trips (u8/u32 variants share the same byte-level step)"
  },
  {
   "property": "C03",
   "status": "partial",
   "theorems": [
    "Verif.Msgb.msgb_trim_counterexample",
    "Verif.Msgb.msgb_resize_area_counterexample",
    "Verif.Msgb.msgb_copy_resize_counterexample",
    "Verif.Msgb.msgb_trim_partial",
    "Verif.Msgb.msgb_trim_refused",
    "Verif.Msgb.msgb_copy_resize_partial",
    "Verif.Msgb.msgb_copy_presents",
    "Verif.Msgb.msgb_resize_area_partial"
   ],
   "note": "false of the code when there is head room (counterexamples proved); the partial theorems add the missing room hypothesis"
  },
  {
   "property": "C04",
   "status": "proved",
   "theorems": [
    "Verif.Msgb.msgb_queue_fifo",
    "Verif.Msgb.msgb_dequeue_empty_iff"
   ],
   "note": "counter modulo 2^32"
  },
  {
   "property": "C05",
   "status": "partial",
   "theorems": [
    "Verif.Bits.ubit2pbit_spec",
    "Verif.Bits.pbit2ubit_spec_partial",
    "Verif.Bits.pack_unpack_partial",
    "Verif.Bits.unpack_pack_partial",
    "Verif.Bits.pbit2ubit_zero_counterexample"
   ],
   "note": "proved for every n >= 1; false of the code for n = 0 (osmo_pbit2ubit writes one bit), counterexample proved"
  },
  {
   "property": "C06",
   "status": "partial",
   "theorems": [
    "Verif.Bits.ubit2pbit_ext_partial",
    "Verif.Bits.pbit2ubit_ext_spec",
    "Verif.Bits.ext_write_read",
    "Verif.Bits.ubit2pbit_ext_empty_counterexample"
   ],
   "note": "bit transfer and frame proved for all offsets; the return value is wrong for an empty transfer at offset 0 (counterexample)"
  },
  {
   "property": "C07",
   "status": "proved",
   "theorems": [
    "Verif.Bits.bit_reversal_spec",
    "Verif.Bits.bit_reversal_modes",
    "Verif.Bits.bit_reversal_involutive",
    "Verif.Bits.revbytebits_32_spec",
    "Verif.Bits.revbytebits_32_involutive",
    "Verif.Bits.revbytebits_8_spec",
    "Verif.Bits.revbytebits_8_involutive",
    "Verif.Bits.revbytebits_buf_spec",
    "Verif.Bits.revbytebits_buf_involutive"
   ],
   "note": ""
  },
  {
   "property": "C08",
   "status": "proved",
   "theorems": [
    "Verif.Bitvec.set_u64_spec",
    "Verif.Bitvec.set_get_uint",
    "Verif.Bitvec.set_u64_beyond",
    "Verif.Bitvec.set_u64_too_wide",
    "Verif.Bitvec.get_uint_beyond",
    "Verif.Bitvec.set_uint_width_counterexample"
   ],
   "note": "widths 0..64 via set_u64/read_field; bitvec_get_uint up to 31 bits because it returns int; a width of 256 is silently accepted (finding)"
  },
  {
   "property": "C09",
   "status": "proved",
   "theorems": [
    "Verif.Bitvec.set_get_symbol",
    "Verif.Bitvec.spare_padding_spec"
   ],
   "note": ""
  },
  {
   "property": "C10",
   "status": "proved",
   "theorems": [
    "Verif.Bitvec.write_read_field",
    "Verif.Bitvec.get_bytes_spec",
    "Verif.Bitvec.set_bytes_spec",
    "Verif.Bitvec.set_get_bytes"
   ],
   "note": ""
  },
  {
   "property": "C11",
   "status": "partial",
   "theorems": [
    "Verif.Bitvec.bitvec_rl_partial",
    "Verif.Bitvec.bitvec_rl_counterexample",
    "Verif.Bitvec.bitvec_rl_curbit_partial",
    "Verif.Bitvec.bitvec_rl_curbit_counterexample",
    "Verif.Bitvec.find_bit_pos_spec",
    "Verif.Bitvec.nth_set_bit_spec"
   ],
   "note": "run length functions proved when the number of valid bits is a multiple of 8; false of the code otherwise (counterexamples)"
  },
  {
   "property": "C12",
   "status": "partial",
   "theorems": [
    "Verif.Utils.bcd2str_spec",
    "Verif.Utils.str2bcd_auto",
    "Verif.Utils.bcd_roundtrip",
    "Verif.Utils.upHex_digitValue_dec",
    "Verif.Utils.str2bcd_rejects",
    "Verif.Utils.str2bcd_overrun_counterexample",
    "Verif.Utils.str2bcd_bounds_partial",
    "Verif.Utils.char2bcd_bcd2char"
   ],
   "note": "Round trip, bounds of bcd2str and rejection proved for every input. Memory safety of str2bcd fails for an odd explicit end_nibble = 2*dst_size+1 (counterexample); proved otherwise."
  },
  {
   "property": "C13",
   "status": "proved",
   "theorems": [
    "Verif.Utils.hexparse_spec",
    "Verif.Utils.hexdumpBuf_spec",
    "Verif.Utils.hexparse_hexdump",
    "Verif.Utils.ubitDumpBuf_spec"
   ],
   "note": "hexparse for buffers below 2^31 octets (max_len<<1 fits unsigned int)."
  },
  {
   "property": "C14",
   "status": "proved",
   "theorems": [
    "Verif.Utils.isqrt32_exact"
   ],
   "note": "All 32-bit arguments, termination included."
  },
  {
   "property": "C15",
   "status": "proved",
   "theorems": [
    "Verif.Utils.luhn_completes",
    "Verif.Utils.luhn_detects_single_error",
    "Verif.Utils.luhn_rejects",
    "Verif.Utils.luhn_detects_transposition"
   ],
   "note": "Inputs short enough that the int sum does not overflow (81*length < 2^31)."
  },
  {
   "property": "C16",
   "status": "proved",
   "theorems": [
    "Verif.Utils.floatStrToInt_number",
    "Verif.Utils.floatStrToInt_malformed",
    "Verif.Utils.intToFloat_text",
    "Verif.Utils.float_roundtrip",
    "Verif.Utils.intToFloat_min"
   ],
   "note": "Every text, value and precision; INT64_MIN is documented as excluded and prints -ERR. strtoll and snprintf are modelled from the C standard; precision + 1 does not wrap and the variable-length array fits."
  },
  {
   "property": "C17",
   "status": "proved",
   "theorems": [
    "Verif.Utils.strToInt64_number",
    "Verif.Utils.strToInt64_no_number",
    "Verif.Utils.strToInt64_ok_iff",
    "Verif.Utils.strToInt64_bad_base",
    "Verif.Utils.strToInt64_base0",
    "Verif.Utils.strToInt_number",
    "Verif.Utils.strToInt_no_number"
   ],
   "note": "Bases 2..36, base 0 by reduction, bad bases. strtoll is modelled from C11 7.22.1.4 (no 0b prefix)."
  },
  {
   "property": "C18",
   "status": "partial",
   "theorems": [
    "Verif.Utils.escape_cstr_safe",
    "Verif.Utils.escape_legacy_safe",
    "Verif.Utils.quote_cstr_safe",
    "Verif.Utils.quote_null",
    "Verif.Utils.escape_c_syntax_counterexample",
    "Verif.Utils.escape_legacy_ambiguous_counterexample"
   ],
   "note": "Bounded, printable, and inverted by an unescaper that reads exactly two hex digits and \\0 as NUL. Missing: a C compiler reads some outputs differently (counterexample), and the legacy format is not injective (counterexample)."
  },
  {
   "property": "C19",
   "status": "partial",
   "theorems": [
    "Verif.Utils.strbuf_sequence",
    "Verif.Utils.textRun_appends",
    "Verif.Utils.strbuf_drop_counterexample",
    "Verif.Utils.printN_eq",
    "Verif.Utils.strlcpy_spec"
   ],
   "note": "All sequences of append, append_nolen, added_tail; drop_tail only for buffers of at least 2 octets (counterexample for an empty buffer: chars_needed is not reduced)."
  },
  {
   "property": "C20",
   "status": "proved",
   "theorems": [
    "Verif.Timer.timers_consistent",
    "Verif.Timer.timers_pass",
    "Verif.Timer.timers_once",
    "Verif.Timer.timer_del_schedule",
    "Verif.Timer.nearest_minimum",
    "Verif.Timer.remaining_spec",
    "Verif.Timer.timers_check",
    "Verif.Timer.lt_us"
   ],
   "note": "red-black tree represented by its in-order sequence; callbacks arbitrary in add/del, not nesting osmo_timers_update"
  },
  {
   "property": "C21",
   "status": "partial",
   "theorems": [
    "Verif.UseCount.getPut_step",
    "Verif.UseCount.use_count_ledger",
    "Verif.UseCount.use_count_sum",
    "Verif.UseCount.total_nonneg",
    "Verif.UseCount.total_ledger_partial",
    "Verif.UseCount.total_counterexample",
    "Verif.UseCount.callback_error_keeps",
    "Verif.UseCount.null_token_counterexample",
    "Verif.UseCount.int_min_counterexample"
   ],
   "note": "everything except the clamped total with counts of both signs (false: intermediate clamping) and changes by INT32_MIN (undefined on a negative count); NULL token with several static entries miscounts"
  },
  {
   "property": "C22",
   "status": "partial",
   "theorems": [
    "Verif.Sercomm.transport_partial",
    "Verif.Sercomm.drained_partial",
    "Verif.Sercomm.pull_progress",
    "Verif.Sercomm.flag_only_at_ends",
    "Verif.Sercomm.sendmsg_txinv",
    "Verif.Sercomm.priority",
    "Verif.Sercomm.dlci_zero_counterexample",
    "Verif.Sercomm.full_length_dropped"
   ],
   "note": "false on DLCIs 0, 0x7D, 0x7E (address octet escaped but not unescaped); proved for all other DLCIs and any interleaving of sends and transfers"
  },
  {
   "property": "C23",
   "status": "partial",
   "theorems": [
    "Verif.Strrb.strrb_partial",
    "Verif.Strrb.add_truncation",
    "Verif.Strrb.getNth_counterexample",
    "Verif.Strrb.size_counterexample"
   ],
   "note": "false for indices >= number of slots once the ring has wrapped; proved for all indices below it, all histories and 1..65535 slots"
  },
  {
   "property": "C24",
   "status": "proved",
   "theorems": [
    "Verif.Crc.crc_is_remainder",
    "Verif.Crc.check_iff_set",
    "Verif.Crc.set_then_check",
    "Verif.Crc.crc_linear",
    "Verif.Crc.burst_detected"
   ],
   "note": "full width 32/64 bit codes shift by the width of the type (full_width_counterexample), outside of the quantifier"
  },
  {
   "property": "C25",
   "status": "proved",
   "theorems": [
    "Verif.Crc.crc16_divides",
    "Verif.Crc.crc16Ccitt_divides",
    "Verif.Crc.regPoly_inj",
    "Verif.Crc.crc16_split"
   ],
   "note": "generators 0x8005 and 0x1021 (reversed 0x8408) as documented at the tables"
  },
  {
   "property": "C26",
   "status": "partial",
   "theorems": [
    "Verif.Tlv.parseOne_iff",
    "Verif.Tlv.parseOne_safe",
    "Verif.Tlv.parse2_spec",
    "Verif.Tlv.parse2_lv_partial",
    "Verif.Tlv.lv_tag_oob_counterexample",
    "Verif.Tlv.lv_tag2_oob_counterexample",
    "Verif.Tlv.lv_tag_store_counterexample"
   ],
   "note": "proved in full without initial LVs; false with initial LV tags on an exhausted buffer (one byte read behind it)"
  },
  {
   "property": "C27",
   "status": "partial",
   "theorems": [
    "Verif.Tlv.encode_parse_one_partial",
    "Verif.Tlv.set_roundtrip_partial",
    "Verif.Tlv.parse_encode_parse_partial",
    "Verif.Tlv.gan_tag_counterexample",
    "Verif.Tlv.half_octet_counterexample",
    "Verif.Tlv.tlv_len_counterexample",
    "Verif.Tlv.undefined_tag_counterexample"
   ],
   "note": "holds for all values that fit the type of their tag; false for GAN tags above 0x7f, half octet tags defined as 0xN0, over-long values"
  },
  {
   "property": "C28",
   "status": "proved",
   "theorems": [
    "Verif.Gsm23003.plmnToBcd_layout",
    "Verif.Gsm23003.plmn_roundtrip",
    "Verif.Gsm23003.plmnToBcd_inj",
    "Verif.Gsm23003.bcd_roundtrip",
    "Verif.Gsm23003.plmn_flag_counterexample"
   ],
   "note": "the counterexample only shows that the flag of an MNC above 99 is normalised, as documented"
  },
  {
   "property": "C29",
   "status": "proved",
   "theorems": [
    "Verif.Gsm23003.LexOrder.total",
    "Verif.Gsm23003.mncCmp_lex",
    "Verif.Gsm23003.plmnCmp_lex",
    "Verif.Gsm23003.laiCmp_lex",
    "Verif.Gsm23003.raiCmp_lex",
    "Verif.Gsm23003.cgiCmp_lex",
    "Verif.Gsm23003.cgiPsCmp_lex",
    "Verif.Gsm23003.rncIdCmp_lex",
    "Verif.Gsm23003.mmeIdCmp_lex",
    "Verif.Gsm23003.gummeiCmp_lex",
    "Verif.Gsm23003.plmnCmp_name",
    "Verif.Gsm23003.laiCmp_name",
    "Verif.Gsm23003.raiCmp_name",
    "Verif.Gsm23003.cgiCmp_name",
    "Verif.Gsm23003.cgiPsCmp_name",
    "Verif.Gsm23003.gummeiCmp_name",
    "Verif.Gsm23003.plmnCmp_bcd",
    "Verif.Gsm23003.names_fit"
   ],
   "note": ""
  },
  {
   "property": "C30",
   "status": "proved",
   "theorems": [
    "Verif.GsmUtils.septetPack_spec",
    "Verif.GsmUtils.getOctetLen_eq",
    "Verif.GsmUtils.septetAt_spec",
    "Verif.GsmUtils.decodeNHdr_fits",
    "Verif.GsmUtils.decodeN_spec",
    "Verif.GsmUtils.pack_decode",
    "Verif.GsmUtils.pack_decode_hdr",
    "Verif.GsmUtils.decodeNHdr_oob_counterexample"
   ],
   "note": "Packing as a number in base 128 shifted by the padding; unpacking of the octets written by the packer. The counterexample records that a header length octet from the network is not checked against the octets present."
  },
  {
   "property": "C31",
   "status": "proved",
   "theorems": [
    "Verif.GsmUtils.gsmtime2fn_fn2gsmtime",
    "Verif.GsmUtils.fn2gsmtime_spec",
    "Verif.GsmUtils.fn2gsmtime_gsmtime2fn",
    "Verif.GsmUtils.gsmtime2fn_lt"
   ],
   "note": "Both round trips, by the Chinese remainder theorem."
  },
  {
   "property": "C32",
   "status": "partial",
   "theorems": [
    "Verif.GsmUtils.rfn2fn_congr",
    "Verif.GsmUtils.rfn2fn_partial",
    "Verif.GsmUtils.rfn2fn_counterexample"
   ],
   "note": "Congruence always; closest frame only if the closest frame is not in the next period: the code only rolls back. The counterexample shows a frame almost a period away."
  },
  {
   "property": "C33",
   "status": "partial",
   "theorems": [
    "Verif.GsmUtils.arfcn2freq10_spec",
    "Verif.GsmUtils.freq102arfcn_arfcn2freq10",
    "Verif.GsmUtils.arfcn2freq10_freq102arfcn",
    "Verif.GsmUtils.freq102arfcn_refuse",
    "Verif.GsmUtils.freq102arfcn_counterexample",
    "Verif.GsmUtils.arfcn2band_spec",
    "Verif.GsmUtils.arfcn2band_counterexample"
   ],
   "note": "Both directions for every channel of TS 45.005. Not: a frequency off the 200 kHz raster is rounded down instead of refused, and any number with the PCS flag gets the PCS band."
  },
  {
   "property": "C34",
   "status": "partial",
   "theorems": [
    "Verif.Gsm0502.fnSum_spec",
    "Verif.Gsm0502.fnSub_spec",
    "Verif.Gsm0502.fnSum_group",
    "Verif.Gsm0502.fnDiff_spec",
    "Verif.Gsm0502.fnDiff_metric",
    "Verif.Gsm0502.fncmp_spec",
    "Verif.Gsm0502.fncmp_antisymm_partial",
    "Verif.Gsm0502.fncmp_later",
    "Verif.Gsm0502.fncmp_counterexample"
   ],
   "note": "Group, metric and exact meaning of the comparison; antisymmetry fails for two frames exactly half a hyperframe apart."
  },
  {
   "property": "C35",
   "status": "proved",
   "theorems": [
    "Verif.Gsm0502.hopMai_spec",
    "Verif.Gsm0502.hopMai_lt",
    "Verif.Gsm0502.hopSeqGen_mem",
    "Verif.Gsm0502.hopMai_nocollision",
    "Verif.Gsm0502.hopSeqGen_nocollision",
    "Verif.Gsm0502.hopMai_cyclic",
    "Verif.Gsm0502.rnTable_distinct"
   ],
   "note": "Equality with the algorithm of TS 45.002 6.2.3; bounds; collision freedom."
  },
  {
   "property": "C36",
   "status": "proved",
   "theorems": [
    "Verif.Gsm0502.fnRemap_block",
    "Verif.Gsm0502.fnRemap_other",
    "Verif.Gsm0502.fnRemap_chan"
   ],
   "note": "Blocks described by their numbering of traffic frames, not by the tables of the code."
  },
  {
   "property": "C37",
   "status": "proved",
   "theorems": [
    "Verif.Conv.encode_spec",
    "Verif.Conv.encode_length",
    "Verif.Conv.tailBiting_circular",
    "Verif.Conv.flush_zero",
    "Verif.Conv.endState_lt"
   ],
   "note": "output length, and the output itself: the coded bits of the state machine without the punctured positions"
  },
  {
   "property": "C38",
   "status": "partial",
   "theorems": [
    "Verif.Conv.step_spec",
    "Verif.Conv.decode_flush",
    "Verif.Conv.decode_truncation",
    "Verif.Conv.decode_flush_any",
    "Verif.Conv.decode_encode",
    "Verif.Conv.decode_encode_truncation",
    "Verif.Conv.decode_encode_tailBiting_partial",
    "Verif.Conv.decode_tailBiting_counterexample"
   ],
   "note": "proved for flushed and truncated codes with the generic decoder; for tail biting codes false for short blocks (counterexample), proved when the first pass prefers the start state; the accelerated decoder for K = 5, 7 is C94 and C95"
  },
  {
   "property": "C39",
   "status": "partial",
   "theorems": [
    "Verif.Fsm.changes_permitted_partial",
    "Verif.Fsm.accepted_permitted",
    "Verif.Fsm.state_is_last",
    "Verif.Fsm.actions_permitted",
    "Verif.Fsm.allstate_permitted",
    "Verif.Fsm.ends_once",
    "Verif.Fsm.reentrant_change_counterexample",
    "Verif.Fsm.leave_terminate_counterexample",
    "Verif.Fsm.leave_terminate_ub"
   ],
   "note": "All executions of arbitrary re-entrant callbacks. That the state actually left permits the change is proved when onleave callbacks make no library calls, and false otherwise (counterexamples); acceptance, events and terminations are proved for all callbacks."
  },
  {
   "property": "C40",
   "status": "partial",
   "theorems": [
    "Verif.Fsm.timer_set_partial",
    "Verif.Fsm.timer_kept",
    "Verif.Fsm.timer_origin_partial",
    "Verif.Fsm.sched_value",
    "Verif.Fsm.sched_counterexample",
    "Verif.Fsm.stale_timer_counterexample"
   ],
   "note": "Proved for onleave callbacks that make no library calls; false otherwise (stale timer). Timeouts of 2^31 seconds and more are not clamped as documented."
  },
  {
   "property": "C41",
   "status": "partial",
   "theorems": [
    "Verif.Fsm.term_tree_partial",
    "Verif.Fsm.cleanup_once",
    "Verif.Fsm.safe_no_free",
    "Verif.Fsm.ends_once",
    "Verif.Fsm.stuck_child_counterexample",
    "Verif.Fsm.stuck_child_ub"
   ],
   "note": "Tree theorem for every tree when the callbacks of the termination make no calls; cleanup at most once and no memory given back during safe termination for arbitrary callbacks; false for a child whose pre_term terminates its parent."
  },
  {
   "property": "C42",
   "status": "partial",
   "theorems": [
    "Verif.SoftUart.uart_end_to_end",
    "Verif.SoftUart.rx_line",
    "Verif.SoftUart.rx_clean_ops",
    "Verif.SoftUart.txRun_line",
    "Verif.SoftUart.txUbits_spec",
    "Verif.SoftUart.flipped_bit_flagged",
    "Verif.SoftUart.frameOf_errors",
    "Verif.SoftUart.frameOf_char",
    "Verif.SoftUart.uart_many_stop_bits_counterexample",
    "Verif.SoftUart.rx_timer_flags_counterexample"
   ],
   "note": "Proved for every framing with data plus stop bits up to 255. From 256 on, which configure accepts, the counter wraps and nothing is received (counterexample). Errors are attributed to the right character unless the timer expires inside the wrong frame (counterexample)."
  },
  {
   "property": "C43",
   "status": "partial",
   "theorems": [
    "Verif.SoftUart.rx_no_overflow_partial",
    "Verif.SoftUart.rx_overflow_counterexample",
    "Verif.SoftUart.rx_large_buffer_counterexample",
    "Verif.SoftUart.rx_parity_off_counterexample"
   ],
   "note": "Proved for histories that do not raise rx_buf_size while a buffer exists, with sizes below 65536, and do not switch parity off in front of a parity bit; false otherwise (counterexamples)."
  },
  {
   "property": "C44",
   "status": "partial",
   "theorems": [
    "Verif.Base64.encode_spec",
    "Verif.Base64.encode_empty",
    "Verif.Base64.roundtrip_partial",
    "Verif.Base64.decode_text",
    "Verif.Base64.decode_invalid",
    "Verif.Base64.decode_bounds",
    "Verif.Base64.decode_empty_counterexample",
    "Verif.Base64.decode_truncated_counterexample"
   ],
   "note": "Full specification of encoder and decoder (accepted texts as a grammar). The round trip fails only for the empty input, where the decoder succeeds without assigning *olen although the header promises it."
  },
  {
   "property": "C45",
   "status": "partial",
   "theorems": [
    "Verif.IsdnHdlc.hdlc_roundtrip_partial",
    "Verif.IsdnHdlc.decoder_returns_frames",
    "Verif.IsdnHdlc.frame_no_six_ones",
    "Verif.IsdnHdlc.encode_one_octet_counterexample",
    "Verif.IsdnHdlc.encode_overflow_counterexample",
    "Verif.IsdnHdlc.overlong_frame_counterexample",
    "Verif.IsdnHdlc.dchannel_counterexample"
   ],
   "note": "For 64 kbit/s and B channels, any frames, call sizes and chunking. Not covered: D channel signalling and a frame of one octet right after another frame (both false, see counterexamples), 56 kbit/s, aborts and idle ones between frames, frames too long for the destination, a first idle call of size 1 (overflow)."
  },
  {
   "property": "C46",
   "status": "partial",
   "theorems": [
    "Verif.ArfcnRange.freqList_roundtrip_partial",
    "Verif.ArfcnRange.freqList_counterexample",
    "Verif.ArfcnRange.determineRange_found",
    "Verif.ArfcnRange.findIndex_spec",
    "Verif.ArfcnRange.encode_read",
    "Verif.ArfcnRange.nodeValues_mem",
    "Verif.ArfcnRange.nodes1024_ok",
    "Verif.ArfcnRange.nodes512_ok",
    "Verif.ArfcnRange.nodes256_ok",
    "Verif.ArfcnRange.nodes128_ok"
   ],
   "note": "All four formats, encoder and decoder of the library, the decoder tables also against the annex J tree. Missing: 17 frequencies in the range 1024 without ARFCN 0, for which the claim is false (counterexample)."
  },
  {
   "property": "C47",
   "status": "proved",
   "theorems": [
    "Verif.GsmUtils.tlliType_spec",
    "Verif.GsmUtils.tmsi2tlli_spec",
    "Verif.GsmUtils.tlli2tmsi_spec",
    "Verif.GsmUtils.tlli2tmsi_tmsi2tlli"
   ],
   "note": "All 32 bit values."
  },
  {
   "property": "C48",
   "status": "partial",
   "theorems": [
    "Verif.Utils.modEuc_spec",
    "Verif.Utils.modFlr_counterexample",
    "Verif.Utils.modFlr_partial"
   ],
   "note": "MOD_EUC proved; MOD_FLR returns y instead of 0 for multiples of opposite sign (counterexample), correct otherwise. Mathematical integers."
  },
  {
   "property": "C49",
   "status": "partial",
   "theorems": [
    "Verif.Msgb.msgb_reset_l1h_counterexample",
    "Verif.Msgb.msgb_reset_partial"
   ],
   "note": "false of the code for l1h (counterexample); everything else proved"
  },
  {
   "property": "C50",
   "status": "proved",
   "theorems": [
    "Verif.Endian.loadLeExt_value",
    "Verif.Endian.loadBeExt2_value",
    "Verif.Endian.loadBeExt_value",
    "Verif.Endian.loads_reject",
    "Verif.Endian.storeLeExt_value",
    "Verif.Endian.storeBeExt_value",
    "Verif.Endian.load_store_le",
    "Verif.Endian.store_load_le",
    "Verif.Endian.load_store_be",
    "Verif.Endian.load2_store_be"
   ],
   "note": "for every width that is a multiple of 8"
  },
  {
   "property": "C51",
   "status": "proved",
   "theorems": [
    "Verif.Msgb.msgb_printf_spec"
   ],
   "note": "libc formatting abstracted to the rendered string"
  },
  {
   "property": "C52",
   "status": "partial",
   "theorems": [
    "Verif.Bits.ubit_sbit_roundtrip",
    "Verif.Bits.rol16_spec",
    "Verif.Bits.nibble_shift_right_partial",
    "Verif.Bits.nibble_shift_left_partial",
    "Verif.Bits.nibble_shift_roundtrip_partial",
    "Verif.Bits.nibble_shift_one_counterexample"
   ],
   "note": "nibble shifts proved for two or more nibbles; for one nibble the code writes nothing (counterexample)"
  },
  {
   "property": "C53",
   "status": "partial",
   "theorems": [
    "Verif.Bitvec.shiftl_counterexample",
    "Verif.Bitvec.shiftl_oob_counterexample",
    "Verif.Bitvec.shiftl_partial",
    "Verif.Bitvec.shiftl_all"
   ],
   "note": "false of the code for the second to last octet and for one-octet vectors (counterexamples); proved for all other bits"
  },
  {
   "property": "C54",
   "status": "proved",
   "theorems": [
    "Verif.Bitvec.add_array_spec",
    "Verif.Bitvec.enc_array_prefix_free"
   ],
   "note": ""
  },
  {
   "property": "C55",
   "status": "partial",
   "theorems": [
    "Verif.Timer.nearestMs_counterexample",
    "Verif.Timer.nearestMs_partial",
    "Verif.Timer.nearestMs_none"
   ],
   "note": "false above 2^31 ms: the long product is converted to int; proved below 2147483 s"
  },
  {
   "property": "C56",
   "status": "proved",
   "theorems": [
    "Verif.UseCount.toStrBuf_spec"
   ],
   "note": "for an initialised list; when the total is defined"
  },
  {
   "property": "C57",
   "status": "proved",
   "theorems": [
    "Verif.Tlv.shiftVFixed_spec",
    "Verif.Tlv.shiftTlv_spec",
    "Verif.Tlv.shiftLv_spec",
    "Verif.Tlv.matchShiftTvFixed_spec",
    "Verif.Tlv.matchShiftTlv_spec",
    "Verif.Tlv.shiftTlv_progress"
   ],
   "note": ""
  },
  {
   "property": "C58",
   "status": "proved",
   "theorems": [
    "Verif.Tlv.defPatch_spec",
    "Verif.Tlv.validate_spec"
   ],
   "note": ""
  },
  {
   "property": "C59",
   "status": "partial",
   "theorems": [
    "Verif.Tlv.copy_len_partial",
    "Verif.Tlv.merge_val_partial",
    "Verif.Tlv.copy_counterexample",
    "Verif.Tlv.merge_counterexample"
   ],
   "note": "both are false of the code: copies have no values, merged values have length 0"
  },
  {
   "property": "C60",
   "status": "proved",
   "theorems": [
    "Verif.Gsm23003.imsi_valid_iff",
    "Verif.Gsm23003.msisdn_valid_iff",
    "Verif.Gsm23003.imei14_valid_iff",
    "Verif.Gsm23003.imei15_valid_iff"
   ],
   "note": ""
  },
  {
   "property": "C61",
   "status": "proved",
   "theorems": [
    "Verif.Gsm23003.mncFromStr_ok",
    "Verif.Gsm23003.mncFromStr_reject",
    "Verif.Gsm23003.mnc_text_roundtrip"
   ],
   "note": ""
  },
  {
   "property": "C62",
   "status": "partial",
   "theorems": [
    "Verif.Gsm23003.genHome_ok",
    "Verif.Gsm23003.genHome_reject",
    "Verif.Gsm23003.genMme_ok",
    "Verif.Gsm23003.genMmeGroup_ok",
    "Verif.Gsm23003.home_roundtrip_partial",
    "Verif.Gsm23003.mme_roundtrip_partial",
    "Verif.Gsm23003.genHome_doc_counterexample",
    "Verif.Gsm23003.home_roundtrip_counterexample",
    "Verif.Gsm23003.parseHome_lax_counterexample"
   ],
   "note": "false as stated: the documented 33 byte buffer lacks room for the NUL, the MNC digit count is lost, sscanf accepts signs and ignores what follows the MCC; proved: output with one more byte, round trip up to the flag"
  },
  {
   "property": "C63",
   "status": "partial",
   "theorems": [
    "Verif.GsmUtils.septetEncode_char",
    "Verif.GsmUtils.septetEncode_counterexample",
    "Verif.GsmUtils.text_roundtrip_partial",
    "Verif.GsmUtils.text_roundtrip_counterexample",
    "Verif.GsmUtils.encodeN_fits"
   ],
   "note": "All the characters which survive; the counterexamples name those which do not."
  },
  {
   "property": "C64",
   "status": "partial",
   "theorems": [
    "Verif.GsmUtils.ussd_roundtrip_partial",
    "Verif.GsmUtils.ussd_roundtrip_counterexample"
   ],
   "note": "Texts of surviving characters not ending in <CR> at an octet boundary."
  },
  {
   "property": "C65",
   "status": "proved",
   "theorems": [
    "Verif.GsmUtils.lvl_nearest",
    "Verif.GsmUtils.lvl_roundup",
    "Verif.GsmUtils.lvl_roundtrip",
    "Verif.GsmUtils.lvl_mono",
    "Verif.GsmUtils.rxlev_roundtrip"
   ],
   "note": "All bands, all powers."
  },
  {
   "property": "C66",
   "status": "partial",
   "theorems": [
    "Verif.GsmUtils.bandParse_bandName",
    "Verif.GsmUtils.bandParse_spec",
    "Verif.GsmUtils.bandParse_nodigit",
    "Verif.GsmUtils.dumpGsmtime_spec",
    "Verif.GsmUtils.dumpGsmtime_counterexample"
   ],
   "note": "The last field of the text is (fn mod 256) mod 52, not fn mod 52."
  },
  {
   "property": "C67",
   "status": "proved",
   "theorems": [
    "Verif.Gsm0502.groups_spec",
    "Verif.Gsm0502.nPagSubchans_spec",
    "Verif.Gsm0502.calcPagingGroup_total",
    "Verif.Gsm0502.fn2ccchBlock_spec",
    "Verif.Gsm0502.calcPagingGroup_counterexample"
   ],
   "note": "For descriptions allowed by TS 44.018; the counterexample shows that others give a group outside of the range."
  },
  {
   "property": "C68",
   "status": "proved",
   "theorems": [
    "Verif.SoftUart.rx_timeout",
    "Verif.SoftUart.rx_timeout_unconfigured_counterexample"
   ],
   "note": "The statement requires osmo_soft_uart_configure; with only osmo_soft_uart_alloc the timer has no function (counterexample)."
  },
  {
   "property": "C69",
   "status": "proved",
   "theorems": [
    "Verif.SoftUart.tx_flow_control",
    "Verif.SoftUart.txUbits_spec"
   ],
   "note": "The transmit call-back is assumed not to write more characters than there is room for."
  },
  {
   "property": "C70",
   "status": "proved",
   "theorems": [
    "Verif.ArfcnRange.decodeFreqList_safe",
    "Verif.ArfcnRange.decodeFreqList_shortened"
   ],
   "note": "Length zero is excluded: the function reads the first octet before it looks at the length."
  },
  {
   "property": "C71",
   "status": "proved",
   "theorems": [
    "Verif.IsdnHdlc.decode_total",
    "Verif.IsdnHdlc.decode_calls_total"
   ],
   "note": "any state reachable from osmo_isdnhdlc_rcv_init, any input"
  },
  {
   "property": "C72",
   "status": "proved",
   "theorems": [
    "Verif.Queue.wqueue_no_loss",
    "Verif.Queue.wqueue_bounded",
    "Verif.Queue.wqueue_bounded_counterexample",
    "Verif.Queue.wqueue_fifo",
    "Verif.Queue.wqueue_heeded",
    "Verif.Queue.wqueue_drains",
    "Verif.Queue.set_maxlen_spec"
   ],
   "note": "Callbacks are scripts of queue operations and a return value. The one message above max_length is shown to occur (finding)."
  },
  {
   "property": "C73",
   "status": "proved",
   "theorems": [
    "Verif.Queue.itq_bounded",
    "Verif.Queue.itq_wakeup",
    "Verif.Queue.itq_fifo",
    "Verif.Queue.itq_callback"
   ],
   "note": "Threads interleave at the mutex and the eventfd operations; eventfd counter unbounded, writes to it succeed."
  },
  {
   "property": "C74",
   "status": "proved",
   "theorems": [
    "Verif.Prbs.getUbits_append",
    "Verif.Prbs.getUbits_bits",
    "Verif.Prbs.prbs_recurrence",
    "Verif.Prbs.prbs_period",
    "Verif.Prbs.prbs_not_all_zero",
    "Verif.Prbs.state_period",
    "Verif.Prbs.prbs_patterns"
   ],
   "note": "All four generators of prbs.c."
  },
  {
   "property": "C75",
   "status": "proved",
   "theorems": [
    "Verif.Tdef.round_spec",
    "Verif.Tdef.stands_unique",
    "Verif.Tdef.stands_zero",
    "Verif.Tdef.get_spec",
    "Verif.Tdef.set_spec",
    "Verif.Tdef.set_get",
    "Verif.Tdef.reset_spec",
    "Verif.Tdef.run_inRange",
    "Verif.Tdef.stateChg_spec",
    "Verif.Tdef.stateChg_custom_counterexample",
    "Verif.Tdef.tdef_end"
   ],
   "note": "stateChg_custom_counterexample shows the excluded wrap-around of val_ms for custom units."
  },
  {
   "property": "C76",
   "status": "proved",
   "theorems": [
    "Verif.TimeCc.timecc_count",
    "Verif.TimeCc.timecc_punctual",
    "Verif.TimeCc.timecc_next",
    "Verif.TimeCc.timecc_total",
    "Verif.TimeCc.lt_passed",
    "Verif.TimeCc.passed_floor",
    "Verif.TimeCc.passed_ceil",
    "Verif.TimeCc.passed_close",
    "Verif.TimeCc.timecc_gran1_counterexample",
    "Verif.TimeCc.timecc_clock_counterexample",
    "Verif.TimeCc.timecc_total_counterexample",
    "Verif.TimeCc.timecc_cleanup",
    "Verif.TimeCc.timecc_update",
    "Verif.TimeCc.timecc_threshold",
    "Verif.TimeCc.timecc_period"
   ],
   "note": "The counterexamples show why a threshold of at least 1, a readable clock and fixed configuration values are asked for."
  },
  {
   "property": "C77",
   "status": "proved",
   "theorems": [
    "Verif.Apn.exists_labels",
    "Verif.Apn.fromStr_ok",
    "Verif.Apn.fromStr_fail",
    "Verif.Apn.toStr_labels",
    "Verif.Apn.toStr_zero",
    "Verif.Apn.toStr_short",
    "Verif.Apn.forms",
    "Verif.Apn.toStr_safe",
    "Verif.Apn.round_trip",
    "Verif.Apn.gprsText_spec",
    "Verif.Apn.qualifyBuf_spec",
    "Verif.Apn.qualifyFromImsi_spec",
    "Verif.Apn.round_trip_empty_counterexample",
    "Verif.Apn.round_trip_long_counterexample"
   ],
   "note": "the counterexamples show that the restriction to labels of 1 to 255 bytes is needed"
  },
  {
   "property": "C78",
   "status": "proved",
   "theorems": [
    "Verif.Nri.vValidate_iff",
    "Verif.Nri.vMatchesRanges_iff",
    "Verif.Nri.rangeOverlapsRanges_iff",
    "Verif.Nri.add_spec",
    "Verif.Nri.del_spec",
    "Verif.Nri.run_spec",
    "Verif.Nri.canon_unique"
   ],
   "note": ""
  },
  {
   "property": "C79",
   "status": "partial",
   "theorems": [
    "Verif.Nri.toStrBuf_like",
    "Verif.Nri.toStrBuf_partial",
    "Verif.Nri.toStrBuf_counterexample"
   ],
   "note": "false for lists of several ranges: no comma is printed"
  },
  {
   "property": "C80",
   "status": "partial",
   "theorems": [
    "Verif.Nri.vLimit_spec",
    "Verif.Nri.vLimit_counterexample",
    "Verif.Nri.tmsiGet_spec",
    "Verif.Nri.tmsiSet_spec",
    "Verif.Nri.tmsi_get_set",
    "Verif.Nri.tmsiLimit_spec",
    "Verif.Nri.tmsi_bad_length"
   ],
   "note": "all proved except for a list without values within the bit length, where the code divides by zero"
  },
  {
   "property": "C81",
   "status": "proved",
   "theorems": [
    "Verif.OsmoIo.framed_unique",
    "Verif.OsmoIo.run_spec",
    "Verif.OsmoIo.run_chunking",
    "Verif.OsmoIo.run_messages",
    "Verif.OsmoIo.recv_defined",
    "Verif.OsmoIo.run_room",
    "Verif.OsmoIo.run_no_cb",
    "Verif.OsmoIo.recv_error",
    "Verif.OsmoIo.lenByte_good",
    "Verif.OsmoIo.zero_counterexample",
    "Verif.OsmoIo.pending_lost_counterexample"
   ],
   "note": "the counterexamples show what is outside of the statement: a callback returning 0 makes the loop endless, and an error such as -EAGAIN between reads takes the pending bytes away"
  },
  {
   "property": "C82",
   "status": "partial",
   "theorems": [
    "Verif.OsmoIo.reach_inv",
    "Verif.OsmoIo.stream_partial",
    "Verif.OsmoIo.stream_counterexample",
    "Verif.OsmoIo.writeMsg_refused"
   ],
   "note": "all proved except for the bytes of partial sends, for which it is false"
  },
  {
   "property": "C83",
   "status": "partial",
   "theorems": [
    "Verif.OsmoIo.Uring.one_in_flight_partial",
    "Verif.OsmoIo.Uring.one_in_flight_counterexample"
   ],
   "note": "proved for write callbacks that write at most one message; false for two"
  },
  {
   "property": "C84",
   "status": "proved",
   "theorems": [
    "Verif.Ipa.recv_spec",
    "Verif.Ipa.recv_progress",
    "Verif.Ipa.run_stream",
    "Verif.Ipa.run_all",
    "Verif.Ipa.run_complete",
    "Verif.Ipa.recv_unbuffered"
   ],
   "note": ""
  },
  {
   "property": "C85",
   "status": "partial",
   "theorems": [
    "Verif.Ipa.parse_outcome",
    "Verif.Ipa.idtagParse_safe",
    "Verif.Ipa.encAll_unique",
    "Verif.Ipa.parse_partial",
    "Verif.Ipa.idGet_zero_counterexample",
    "Verif.Ipa.idResp_counterexample"
   ],
   "note": "proved for ipa_ccm_idtag_parse and for well-formed elements; false for elements with length 0 (both others) and above 255 (response)"
  },
  {
   "property": "C86",
   "status": "partial",
   "theorems": [
    "Verif.Ipa.idString_iff",
    "Verif.Ipa.makeIdResp_partial",
    "Verif.Ipa.resp_fits",
    "Verif.Ipa.respElems_exists",
    "Verif.Ipa.makeIdResp_unknown",
    "Verif.Ipa.reqLoop_spec",
    "Verif.Ipa.makeIdRespFromReq_spec",
    "Verif.Ipa.makeIdResp_overflow_counterexample",
    "Verif.Ipa.parseUnitid_unitText",
    "Verif.Ipa.macText_spec"
   ],
   "note": "proved for answers that fit into 1200 bytes, which all with up to 17 tags do; longer ones abort"
  },
  {
   "property": "C87",
   "status": "proved",
   "theorems": [
    "Verif.Interleave.xcch_roundtrip",
    "Verif.Interleave.xcch_roundtrip'",
    "Verif.Interleave.xcch_standard",
    "Verif.Interleave.tchFr_roundtrip",
    "Verif.Interleave.tchFr_standard",
    "Verif.Interleave.tchHr_roundtrip",
    "Verif.Interleave.tchHr_parity_mem",
    "Verif.Interleave.tchF96_roundtrip",
    "Verif.Interleave.tchF96_standard",
    "Verif.Interleave.tchF96_spread",
    "Verif.Interleave.mcs1Dl_roundtrip",
    "Verif.Interleave.mcs1Ul_roundtrip",
    "Verif.Interleave.mcs5Ul_roundtrip",
    "Verif.Interleave.mcs5Dl_roundtrip",
    "Verif.Interleave.mcs7Dl_roundtrip",
    "Verif.Interleave.mcs7Ul_roundtrip",
    "Verif.Interleave.mcs8Dl_roundtrip",
    "Verif.Interleave.mcs8Ul_roundtrip",
    "Verif.Interleave.mcs_standard",
    "Verif.Interleave.mcs8_bursts",
    "Verif.Interleave.mcs7_bursts"
   ],
   "note": "the tables of MCS-5 data and TCH/H are proved to be permutations (into), not compared with the standard"
  },
  {
   "property": "C88",
   "status": "proved",
   "theorems": [
    "Verif.Interleave.xcch_chain",
    "Verif.Interleave.tchFr_stream",
    "Verif.Interleave.tchHr_stream",
    "Verif.Interleave.facchH_chain",
    "Verif.Interleave.xcchBurstMap_spec",
    "Verif.Interleave.xcchBurstUnmap_spec",
    "Verif.Interleave.tchBurstMap_spec",
    "Verif.Interleave.tchBurstUnmap_spec",
    "Verif.Interleave.mcs5Dl_bursts",
    "Verif.Interleave.mcs5Ul_bursts",
    "Verif.Interleave.mcs7Dl_bursts",
    "Verif.Interleave.mcs7Ul_bursts",
    "Verif.Interleave.mcs5Dl_burst",
    "Verif.Interleave.mcs5Ul_burst",
    "Verif.Interleave.mcs7Dl_burst",
    "Verif.Interleave.mcs7Ul_burst",
    "Verif.Interleave.mcs5BurstSwap_spec"
   ],
   "note": "streams are of blocks of one kind (a FACCH/F block is one with flag 1); no mix of FACCH/H and half rate speech"
  },
  {
   "property": "C89",
   "status": "proved",
   "theorems": [
    "Verif.I460.extractBits_spec",
    "Verif.I460.demux_spec",
    "Verif.I460.cut_unique",
    "Verif.I460.deliver_bytes",
    "Verif.I460.demux_fast",
    "Verif.I460.demux_empty_counterexample",
    "Verif.I460.mux_spec",
    "Verif.I460.mux_demux",
    "Verif.I460.add_spec",
    "Verif.I460.reach_idle"
   ],
   "note": "the counterexample shows what is outside of the statement: a call without data on a single 64 kbit/s channel"
  },
  {
   "property": "C90",
   "status": "proved",
   "theorems": [
    "Verif.Rlp.decode_spec",
    "Verif.Rlp.decode_refused",
    "Verif.Rlp.encode_spec",
    "Verif.Rlp.encode_refused",
    "Verif.Rlp.encode_decode",
    "Verif.Rlp.decode_encode",
    "Verif.Rlp.encode_ns_counterexample",
    "Verif.Rlp.fcs_serial",
    "Verif.Rlp.fcs_lt",
    "Verif.Rlp.fcs_divides",
    "Verif.Rlp.fcs_syndrome",
    "Verif.Rlp.fcs_burst",
    "Verif.Rlp.fcs_six_bits",
    "Verif.Rlp.fcs_two_bits_counterexample"
   ],
   "note": "the counterexamples show what is outside of the statement: N(S) of 62 or 63 in an I+S frame, and two wrong bits 255 bits apart in a frame of 576 bits"
  },
  {
   "property": "C91",
   "status": "proved",
   "theorems": [
    "Verif.MobileId.decode_wire",
    "Verif.MobileId.decode_only",
    "Verif.MobileId.encode_spec",
    "Verif.MobileId.encode_only",
    "Verif.MobileId.roundtrip",
    "Verif.MobileId.l3_carries",
    "Verif.MobileId.l3_only",
    "Verif.MobileId.cmp_order",
    "Verif.MobileId.cmp_same",
    "Verif.MobileId.cmp_range_counterexample",
    "Verif.MobileId.toStr_spec",
    "Verif.MobileId.toStr_canon",
    "Verif.MobileId.generateMid_spec",
    "Verif.MobileId.generateMid_empty",
    "Verif.MobileId.generateMidFromTmsi_spec",
    "Verif.MobileId.miToString_wire"
   ],
   "note": "coding stated as a layout of half octets, independent of the code; cmp_range_counterexample: documented -1/1 is not what strncmp returns"
  },
  {
   "property": "C92",
   "status": "proved",
   "theorems": [
    "Verif.RaId.raiEncode_spec",
    "Verif.RaId.encodeRa_spec",
    "Verif.RaId.raiDecode_wire",
    "Verif.RaId.raiDecode_total",
    "Verif.RaId.raiDecode_encode",
    "Verif.RaId.parseRa_spec",
    "Verif.RaId.raEqual_iff",
    "Verif.RaId.construct_parse",
    "Verif.RaId.ra_equal_counterexample",
    "Verif.RaId.lai_roundtrip",
    "Verif.RaId.legacy_lai",
    "Verif.RaId.legacy_leading_zero_counterexample",
    "Verif.RaId.encodeMsgb_spec",
    "Verif.RaId.raiEncodeMsgb_spec",
    "Verif.RaId.miEncodeMsgb_spec"
   ],
   "note": "decimal digits and MCC/MNC below 1000 where the layout has no code for others"
  },
  {
   "property": "C93",
   "status": "proved",
   "theorems": [
    "Verif.Classmark.update_spec",
    "Verif.Classmark.updates_latest",
    "Verif.Classmark.supportsA5_spec",
    "Verif.Classmark.isR99_spec",
    "Verif.Classmark.powerClass_spec",
    "Verif.Classmark.setDtx_bcch",
    "Verif.Classmark.setDtx_sacch",
    "Verif.Classmark.a5Name_spec",
    "Verif.Classmark.a5Text_words",
    "Verif.Classmark.hexSmall_spec"
   ],
   "note": "setDtx_sacch states the one pair of modes without a code point"
  },
  {
   "property": "C94",
   "status": "proved",
   "theorems": [
    "Verif.ConvAcc.decodeAcc_best",
    "Verif.ConvAcc.decodeAcc_ml",
    "Verif.ConvAcc.decodeAcc_ml_weak",
    "Verif.ConvAcc.gsm_decodeAcc",
    "Verif.ConvAcc.gsm_usable",
    "Verif.ConvAcc.decodeAcc_encode",
    "Verif.ConvAcc.gsm_decodeAcc_encode",
    "Verif.ConvAcc.decodeAcc_refuses",
    "Verif.ConvAcc.decodeAcc_ml_counterexample",
    "Verif.ConvAcc.forward_spec",
    "Verif.ConvAcc.trellis_spec"
   ],
   "note": "with the proviso of the statement; without it false (decodeAcc_ml_counterexample). decodeAcc_best says what holds in general: the best over all start states with the head start of state 0 counted in. The SSE, AVX and NEON kernels are not modelled; soft bit -128 is excluded"
  },
  {
   "property": "C95",
   "status": "proved",
   "theorems": [
    "Verif.ConvAcc.decodeAcc_corrects",
    "Verif.ConvAcc.gsm_corrects",
    "Verif.ConvAcc.gsmFree_polys",
    "Verif.ConvAcc.gsmFree_checks",
    "Verif.ConvAcc.free_of_tab",
    "Verif.ConvAcc.decodeAcc_tailBiting",
    "Verif.ConvAcc.decodeAcc_tailBiting_ml",
    "Verif.ConvAcc.decodeAcc_tailBiting_corrects",
    "Verif.ConvAcc.mcs_header_corrects"
   ],
   "note": "portable kernels (conv_acc_generic.c); code tables as utils/conv_gen.py generates them"
  },
  {
   "property": "C96",
   "status": "proved",
   "theorems": [
    "Verif.Stats.counter_shows",
    "Verif.Stats.diff_value",
    "Verif.Stats.diff_returns",
    "Verif.Stats.shows_run"
   ],
   "note": "In any run, value, difference and the four rates are stated from the list of what happened to that one counter."
  },
  {
   "property": "C97",
   "status": "partial",
   "theorems": [
    "Verif.Stats.alloc_unique_partial",
    "Verif.Stats.alloc_fails_iff",
    "Verif.Stats.byNameIdx_spec",
    "Verif.Stats.ctrByName_spec",
    "Verif.Stats.alloc_unique_dots_counterexample",
    "Verif.Stats.alloc_unique_wrap_counterexample"
   ],
   "note": "Distinct indices proved for valid names and no group with the largest index; both exceptions are counterexamples in the code."
  },
  {
   "property": "C98",
   "status": "partial",
   "theorems": [
    "Verif.Stats.Item.item_defined",
    "Verif.Stats.Item.item_last",
    "Verif.Stats.Item.item_period_partial",
    "Verif.Stats.Item.item_reported_partial",
    "Verif.Stats.Item.item_period_counterexample"
   ],
   "note": "Definedness and last value without bound; the period statistics for fewer than 2^32 changes in a period, beyond which they are false (counterexample)."
  },
  {
   "property": "C99",
   "status": "partial",
   "theorems": [
    "Verif.Stats.separatedValid_iff",
    "Verif.Stats.identValid_iff",
    "Verif.Stats.sanitize_partial",
    "Verif.Stats.sanitize_valid_iff",
    "Verif.Stats.sanitize_valid_counterexample"
   ],
   "note": "Validity and what sanitizing achieves are characterised exactly; that it always yields a valid identifier is false (counterexample)."
  },
  {
   "property": "C100",
   "status": "proved",
   "theorems": [
    "Verif.Rbtree.tree_run",
    "Verif.Rbtree.tree_walk",
    "Verif.Rbtree.tree_levels",
    "Verif.Rbtree.tree_insert",
    "Verif.Rbtree.tree_erase",
    "Verif.Rbtree.tree_replace"
   ],
   "note": "Heap-level model; the colour is a field instead of the low bit of the parent pointer. Loops are given rounds(n) = 2*log2(n+1)+1 rounds and proved never to need more."
  },
  {
   "property": "C101",
   "status": "proved",
   "theorems": [
    "Verif.Rbtree.Timers.timers_heap",
    "Verif.Rbtree.Timers.update_heap",
    "Verif.Rbtree.Timers.prepare_heap"
   ],
   "note": "Refinement of the list-based model of C20 by the tree in memory; the loop of osmo_timers_update terminates whenever it does on the list."
  },
  {
   "property": "C102",
   "status": "proved",
   "theorems": [
    "Verif.V110.encode80",
    "Verif.V110.encode60",
    "Verif.V110.encode36",
    "Verif.V110.decode80",
    "Verif.V110.decode60",
    "Verif.V110.decode36",
    "Verif.V110.decode_short",
    "Verif.V110.frame80_roundtrip",
    "Verif.V110.frame60_roundtrip",
    "Verif.V110.frame36_roundtrip",
    "Verif.V110.frame80_reencode"
   ],
   "note": "The decoded frame is one block of 66 bytes."
  },
  {
   "property": "C103",
   "status": "proved",
   "theorems": [
    "Verif.V110.rates_table",
    "Verif.V110.user_to_ir",
    "Verif.V110.ir_to_user",
    "Verif.V110.ra1_roundtrip",
    "Verif.V110.ra1_roundtrip60",
    "Verif.V110.ra1_roundtrip36"
   ],
   "note": "The enum is a natural number; negative values cannot occur as it is unsigned."
  },
  {
   "property": "C104",
   "status": "proved",
   "theorems": [
    "Verif.ConvAcc.gsmPunctured_corrects",
    "Verif.ConvAcc.Punctured.corrects",
    "Verif.ConvAcc.Corrects.hard",
    "Verif.ConvAcc.plain_corrects",
    "Verif.ConvAcc.leftDist_spec",
    "Verif.ConvAcc.decodeAcc_left_corrects"
   ],
   "note": "The distance of the sent bits of each code is found by a dynamic program over (state, time) with a table of lower bounds that the kernel evaluates; leftDist_spec proves that a run of it bounds the weight of every nonzero code word. The codes with five polynomials (AFS 5.15, 4.75) are not decoded by the accelerated decoder and are not covered here."
  },
  {
   "property": "C105",
   "status": "proved",
   "theorems": [
    "Verif.Chan.xcch_roundtrip_soft",
    "Verif.Chan.xcch_corrects",
    "Verif.Chan.xcch_decode_sound",
    "Verif.Chan.xcch_standard",
    "Verif.Chan.facchF_roundtrip_soft",
    "Verif.Chan.facchF_corrects",
    "Verif.Chan.facchF_decode_sound",
    "Verif.Chan.facchF_standard",
    "Verif.Chan.facchH_roundtrip_soft",
    "Verif.Chan.facchH_corrects",
    "Verif.Chan.facchH_decode_sound",
    "Verif.Chan.facchH_standard",
    "Verif.Chan.parity_standard",
    "Verif.Chan.fire_poly"
   ],
   "note": "osmo_conv_decode is modelled by the accelerated decoder; arrays on the stack have arbitrary contents"
  },
  {
   "property": "C106",
   "status": "proved",
   "theorems": [
    "Verif.Chan.rach_roundtrip_soft",
    "Verif.Chan.rach_corrects",
    "Verif.Chan.rach_decode_sound",
    "Verif.Chan.rach_api",
    "Verif.Chan.rach8_roundtrip",
    "Verif.Chan.rach_standard",
    "Verif.Chan.sch_roundtrip_soft",
    "Verif.Chan.sch_corrects",
    "Verif.Chan.sch_decode_total",
    "Verif.Chan.sch_standard"
   ],
   "note": "gsm0503_rach_decode and gsm0503_rach_ext_decode are the _ber functions without the counters"
  },
  {
   "property": "C107",
   "status": "proved",
   "theorems": [
    "Verif.Tch.fr_standard",
    "Verif.Tch.efr_standard",
    "Verif.Tch.fr_roundtrip_soft",
    "Verif.Tch.fr_corrects",
    "Verif.Tch.fr_roundtrip",
    "Verif.Tch.fr_decode_sound",
    "Verif.Tch.efr_roundtrip_soft",
    "Verif.Tch.efr_two_of_three",
    "Verif.Tch.efr_corrects",
    "Verif.Tch.efr_roundtrip",
    "Verif.Tch.efr_decode_sound",
    "Verif.Tch.fr_native_overread_counterexample",
    "Verif.Tch.tchF_facch_encode",
    "Verif.Tch.tchF_facch_decode",
    "Verif.Tch.tchF_length",
    "Verif.Tch.tchF_no_data"
   ],
   "note": "for net_order 0 the theorems hold if there is an element behind gsm0503_gsm_fr_map; the tables of importance are data of the model, proved to be permutations"
  },
  {
   "property": "C108",
   "status": "proved",
   "theorems": [
    "Verif.Tch.hr_standard",
    "Verif.Tch.hr_roundtrip_soft",
    "Verif.Tch.hr_corrects",
    "Verif.Tch.hr_roundtrip",
    "Verif.Tch.hr_decode_sound",
    "Verif.Tch.hr_prefixed",
    "Verif.Tch.hr_legacy",
    "Verif.Tch.tchH_facch_encode",
    "Verif.Tch.tchH_facch_decode",
    "Verif.Tch.tchH_length",
    "Verif.Tch.tchH_no_data"
   ],
   "note": "the tables of importance are data of the model, proved to be permutations that put the mode at the same ranks"
  },
  {
   "property": "C109",
   "status": "proved",
   "theorems": [
    "Verif.RxlevStat.listed",
    "Verif.RxlevStat.input_spec",
    "Verif.RxlevStat.getNext_spec",
    "Verif.RxlevStat.enumerate_spec",
    "Verif.RxlevStat.inputs_spec"
   ],
   "note": "On top of the bit vector model of C08-C11."
  },
  {
   "property": "C110",
   "status": "proved",
   "theorems": [
    "Verif.Lapd.lapd_establish",
    "Verif.Lapd.lapd_safe",
    "Verif.Lapd.lapd_leave",
    "Verif.Lapd.lapd_order",
    "Verif.Lapd.lapd_complete",
    "Verif.Lapd.lapd_window",
    "Verif.Lapd.lapd_prompt",
    "Verif.Lapd.lapd_timer",
    "Verif.Lapd.lapd_poll_counterexample",
    "Verif.Lapd.lapd_long_counterexample",
    "Verif.Lapd.lapd_merge_counterexample",
    "Verif.Lapd.lapd_busy_counterexample",
    "Verif.Lapd.lapd_nr_counterexample"
   ],
   "note": "statement restricted to the time both sides keep the link and to messages up to MAXF; five findings as counterexamples"
  },
  {
   "property": "C111",
   "status": "proved",
   "theorems": [
    "Verif.Lapd.lapd_acked",
    "Verif.Lapd.lapd_rejected",
    "Verif.Lapd.lapd_poll",
    "Verif.Lapd.lapd_malformed",
    "Verif.Lapd.lapd_t200_poll",
    "Verif.Lapd.lapd_n200",
    "Verif.Lapd.lapd_t203"
   ],
   "note": ""
  },
  {
   "property": "C112",
   "status": "partial",
   "theorems": [
    "Verif.Lapd.lapd_t203_only",
    "Verif.Lapd.lapd_watched",
    "Verif.Lapd.lapd_watched_start",
    "Verif.Lapd.lapd_watched_counterexample"
   ],
   "note": "That T203 runs in MF_EST only is proved for all events; that one of the timers runs is proved after every RR and I frame with a valid N(R) and when the link is established; it is false after a REJ frame that is the first to acknowledge all (counterexample)."
  },
  {
   "property": "C113",
   "status": "partial",
   "theorems": [
    "Verif.Ctrl.ctrl_parse_iff",
    "Verif.Ctrl.ctrl_parse_fail",
    "Verif.Ctrl.ctrl_fail_id",
    "Verif.Ctrl.ctrl_parse_wf",
    "Verif.Ctrl.ctrl_roundtrip",
    "Verif.Ctrl.ctrl_roundtrip_iff",
    "Verif.Ctrl.ctrl_empty_reply_counterexample",
    "Verif.Ctrl.ctrl_empty_error_counterexample",
    "Verif.Ctrl.ctrl_newline_counterexample"
   ],
   "note": "The grammar is proved in both directions, and the round trip for exactly the commands it generates. Partial as not every command that is sent can be read: replies and errors with an empty text, and values with a newline, cannot (counterexamples)."
  },
  {
   "property": "C114",
   "status": "partial",
   "theorems": [
    "Verif.Ctrl.ctrl_match_iff",
    "Verif.Ctrl.ctrl_get",
    "Verif.Ctrl.ctrl_set",
    "Verif.Ctrl.ctrl_other",
    "Verif.Ctrl.ctrl_silent",
    "Verif.Ctrl.ctrl_bad_line",
    "Verif.Ctrl.ctrl_get_error",
    "Verif.Ctrl.ctrl_install",
    "Verif.Ctrl.ctrl_vline",
    "Verif.Ctrl.ctrl_install_counterexample",
    "Verif.Ctrl.ctrl_prefix_counterexample",
    "Verif.Ctrl.ctrl_echo_counterexample"
   ],
   "note": "Partial: an element whose name was refused on installation matches every request; an element matches longer requests too; a call-back that returns another value gets the request echoed (counterexamples)."
  },
  {
   "property": "C115",
   "status": "partial",
   "theorems": [
    "Verif.BssgpFc.bssgp_fc_queue",
    "Verif.BssgpFc.bssgp_fc_refused",
    "Verif.BssgpFc.bssgp_fc_flush_counterexample",
    "Verif.BssgpFc.bssgp_fc_order_counterexample"
   ],
   "note": "Partial: after a flush the queue may be refused though empty, and messages overtake those that wait (counterexamples); the rest is proved for all runs."
  },
  {
   "property": "C116",
   "status": "partial",
   "theorems": [
    "Verif.BssgpFc.bssgp_fc_rate_partial",
    "Verif.BssgpFc.bssgp_fc_pass",
    "Verif.BssgpFc.bssgp_fc_params",
    "Verif.BssgpFc.bssgp_fc_rate_counterexample",
    "Verif.BssgpFc.bssgp_fc_level_counterexample",
    "Verif.BssgpFc.bssgp_fc_wrap_counterexample"
   ],
   "note": "Partial: the rate is kept only while the bucket does not run empty; messages that find it empty are not counted, the level is not lowered by them, and what leaked wraps at 2^32 (counterexamples)."
  },
  {
   "property": "C117",
   "status": "partial",
   "theorems": [
    "Verif.BssgpFc.bssgp_fc_timer",
    "Verif.BssgpFc.bssgp_fc_sent",
    "Verif.BssgpFc.bssgp_fc_slow_counterexample",
    "Verif.BssgpFc.bssgp_fc_starve_counterexample"
   ],
   "note": "Partial: proved if nothing else is passed on in between and the rate is at least 100; below nothing leaks, and messages that come in may keep it waiting for ever (counterexamples)."
  },
  {
   "property": "C118",
   "status": "proved",
   "theorems": [
    "Verif.Llist.llist_step",
    "Verif.Llist.llist_run",
    "Verif.Llist.llist_start",
    "Verif.Llist.llist_read",
    "Verif.Llist.llist_safe",
    "Verif.Llist.llist_twice"
   ],
   "note": "A system of lists in a memory of linked cells; each call is proved to refine the operation on sequences, in any run, without touching memory that is not alive."
  },
  {
   "property": "C119",
   "status": "proved",
   "theorems": [
    "Verif.Hlist.hlist_step",
    "Verif.Hlist.hlist_run",
    "Verif.Hlist.hlist_start",
    "Verif.Hlist.hlist_read",
    "Verif.Hlist.hlist_node",
    "Verif.Hlist.hlist_safe",
    "Verif.Hlist.hlist_twice"
   ],
   "note": "As C118, with pointers to pointers."
  },
  {
   "property": "C120",
   "status": "proved",
   "theorems": [
    "Verif.Hlist.hash_step",
    "Verif.Hlist.hash_init",
    "Verif.Hlist.hash_run",
    "Verif.Hlist.hash_for_each",
    "Verif.Hlist.hash_possible",
    "Verif.Hlist.hash_lookup",
    "Verif.Hlist.hash_empty",
    "Verif.Hlist.hash_hashed",
    "Verif.Hlist.bucket_spec",
    "Verif.Hlist.ilog2_spec"
   ],
   "note": "On top of C119. A table of one bucket is left out of the statement: see the finding in DESIGN.md and hash_one_bucket_counterexample."
  },
  {
   "property": "C121",
   "status": "proved",
   "theorems": [
    "Verif.Auth.milenageF1_spec",
    "Verif.Auth.milenageF2345_spec",
    "Verif.Auth.milenageOpcGen_spec",
    "Verif.Auth.milenage_gen_vec",
    "Verif.Auth.milenage_vector_accepted",
    "Verif.Auth.milenageAuts_spec",
    "Verif.Auth.milenage_resync",
    "Verif.Auth.milenage_resync_accepted"
   ],
   "note": "For calls in which the cipher does not fail; milenage_nomem_counterexample (C123's findings) shows what happens when it does. The resynchronised vector is accepted while the 48 bits of the SQN last."
  },
  {
   "property": "C122",
   "status": "partial",
   "theorems": [
    "Verif.Auth.milenage_check_partial",
    "Verif.Auth.milenage_check_spec",
    "Verif.Auth.milenage_check_forged_counterexample"
   ],
   "note": "What is accepted is right, and so is the answer to a genuine but stale AUTN; a forged AUTN whose SQN decodes to a stale one is answered with -2 and a valid AUTS because the code looks at the SQN before the MAC."
  },
  {
   "property": "C123",
   "status": "proved",
   "theorems": [
    "Verif.Auth.nextSqn_ok",
    "Verif.Auth.nextSqn_error",
    "Verif.Auth.genMany_spec",
    "Verif.Auth.vectors_usable",
    "Verif.Auth.milenage_gen_vec_refused",
    "Verif.Auth.tuak_gen_vec_refused",
    "Verif.Auth.sqn_wraps_counterexample",
    "Verif.Auth.milenage_nomem_counterexample"
   ],
   "note": "The history theorems are for Milenage; TUAK uses the same SQN computation. The two counterexamples are findings outside of the claim: the SQN wraps after 2^48, and a failing AES call uses up an SQN and returns 0."
  },
  {
   "property": "C124",
   "status": "proved",
   "theorems": [
    "Verif.Auth.c4_c5_spec",
    "Verif.Auth.c3_c4_c5",
    "Verif.Auth.auth_3g_from_2g",
    "Verif.Auth.c2_claim",
    "Verif.Auth.gsm_milenage_agrees",
    "Verif.Auth.xor2g_gen_vec"
   ],
   "note": "Input and output buffers do not overlap."
  },
  {
   "property": "C125",
   "status": "partial",
   "theorems": [
    "Verif.Auth.xor_gen_vec",
    "Verif.Auth.xor3g_usim",
    "Verif.Auth.xor_vector_accepted_partial",
    "Verif.Auth.xor_sqn_not_raised_counterexample",
    "Verif.Auth.xor_resync_partial",
    "Verif.Auth.xor_resync_rand_counterexample",
    "Verif.Auth.xor_resync_counterexample",
    "Verif.Auth.xor_gsm"
   ],
   "note": "The vector is right, but the SQN never goes up, an AUTS is checked with the new RAND, and the vector made from an AUTS has the SQN of the USIM itself."
  },
  {
   "property": "C126",
   "status": "proved",
   "theorems": [
    "Verif.Auth.keccak_f_64",
    "Verif.Auth.keccak_computes"
   ],
   "note": "keccak_computes is about the cast of the byte buffer on a little endian host."
  },
  {
   "property": "C127",
   "status": "partial",
   "theorems": [
    "Verif.Auth.tuakF1_spec",
    "Verif.Auth.tuakF2345_spec",
    "Verif.Auth.tuakF5star_spec",
    "Verif.Auth.tuakOpcGen_spec",
    "Verif.Auth.tuak_gen_vec",
    "Verif.Auth.tuak_vector_accepted",
    "Verif.Auth.tuakAuts_spec",
    "Verif.Auth.tuak_resync_partial",
    "Verif.Auth.tuak_resync_accepted_partial",
    "Verif.Auth.tuak_resync_counterexample"
   ],
   "note": "Vectors are right for both key lengths. Resynchronisation is right for a K of 32 bytes only; with 16 bytes a genuine AUTS is refused (proved with the real Keccak). Little endian host."
  },
  {
   "property": "C128",
   "status": "proved",
   "theorems": [
    "Verif.Bcd.decode_spec",
    "Verif.Bcd.decode_terminated",
    "Verif.Bcd.encode_spec",
    "Verif.Bcd.encode_errors",
    "Verif.Bcd.round_trip"
   ],
   "note": "Strings are octet lists without nul."
  },
  {
   "property": "C129",
   "status": "partial",
   "theorems": [
    "Verif.Bcd.encode_in_bounds_partial",
    "Verif.Bcd.encode_in_bounds_counterexample",
    "Verif.Bcd.encode_wraps_counterexample"
   ],
   "note": "False of the code at the limit: with exactly max_len octets behind the length octet one octet too many is written, and the length is counted in a uint8_t; proved otherwise."
  },
  {
   "property": "C130",
   "status": "partial",
   "theorems": [
    "Verif.Gsup.round_trip",
    "Verif.Gsup.ipv4v6_counterexample",
    "Verif.Gsup.umts_rand_counterexample",
    "Verif.Gsup.long_blob_counterexample",
    "Verif.Gsup.an_apdu_counterexample"
   ],
   "note": "Round trip proved for all messages that satisfy MsgOk. Outside of it the code loses data without an error: IPv4v6 addresses, RAND of a UMTS-only vector, values longer than 255 octets; counterexamples proved for all such contents."
  },
  {
   "property": "C131",
   "status": "partial",
   "theorems": [
    "Verif.Gsup.undef_only",
    "Verif.Gsup.dangling_only",
    "Verif.Gsup.decode_in_bounds_partial",
    "Verif.Gsup.undef_counterexample",
    "Verif.Gsup.dangling_counterexample",
    "Verif.Gsup.misread_counterexample"
   ],
   "note": "False of the code for a message that ends with an IE of length 0 of certain tags; proved that these are the only cases."
  },
  {
   "property": "C132",
   "status": "proved",
   "theorems": [
    "Verif.Gsup.decode_sane",
    "Verif.Gsup.unknown_skipped",
    "Verif.Gsup.truncated_rejected",
    "Verif.Gsup.num_auth_counterexample",
    "Verif.Gsup.auth_types"
   ],
   "note": "The counterexample shows why requests for vectors are exempt."
  },
  {
   "property": "C133",
   "status": "proved",
   "theorems": [
    "Verif.Oap.round_trip",
    "Verif.Oap.size_bound"
   ],
   "note": ""
  },
  {
   "property": "C134",
   "status": "partial",
   "theorems": [
    "Verif.Oap.undef_iff",
    "Verif.Oap.decode_in_bounds_partial",
    "Verif.Oap.undef_counterexample",
    "Verif.Oap.decode_ok",
    "Verif.Oap.unknown_skipped"
   ],
   "note": "false of the code for messages that end with a cause IE of length 0: the octet behind the message is read (oap.c:143); every other message is decoded within its octets"
  },
  {
   "property": "C135",
   "status": "proved",
   "theorems": [
    "Verif.Sms.messages_owned",
    "Verif.Sms.clear_owned"
   ],
   "note": ""
  },
  {
   "property": "C136",
   "status": "partial",
   "theorems": [
    "Verif.Sms.retransmissions_partial",
    "Verif.Sms.retransmissions_clean",
    "Verif.Sms.sent_was_asked",
    "Verif.Sms.retransmissions_counterexample"
   ],
   "note": "false of the code: an unexpected CP message leaves message and timer in place and the counter starts again; proved with one more round per CP-ERROR sent, and as stated if there are none"
  },
  {
   "property": "C137",
   "status": "partial",
   "theorems": [
    "Verif.Sms.connected_partial",
    "Verif.Sms.stale_timer_counterexample",
    "Verif.Sms.stale_timer_release_counterexample"
   ],
   "note": "false of the code: MMSMS-REL-IND, CP-ERROR and aborts leave the timer running; proved for executions in which the timer expires only in the wait for CP-ACK"
  },
  {
   "property": "C138",
   "status": "proved",
   "theorems": [
    "Verif.Sms.idle_releases",
    "Verif.Sms.idle_tells",
    "Verif.Sms.release_kept",
    "Verif.Sms.ack_ends",
    "Verif.Sms.abort_silent"
   ],
   "note": ""
  },
  {
   "property": "C139",
   "status": "proved",
   "theorems": [
    "Verif.Sms.reachable_inv",
    "Verif.Sms.gives_up",
    "Verif.Sms.unanswered"
   ],
   "note": ""
  },
  {
   "property": "C140",
   "status": "partial",
   "theorems": [
    "Verif.Sms.Smr.reports_partial",
    "Verif.Sms.Smr.answered",
    "Verif.Sms.Smr.received",
    "Verif.Sms.Smr.wrong_way",
    "Verif.Sms.Smr.double_report_counterexample",
    "Verif.Sms.Smr.lost_report_counterexample",
    "Verif.Sms.Smr.unreleased_counterexample"
   ],
   "note": "false of the code: two reports if the answer comes after the timer, none if the answer has an unexpected type or direction, and no release after an RP message that cannot begin a transfer"
  },
  {
   "property": "C141",
   "status": "partial",
   "theorems": [
    "Verif.Sms.Smr.timer_runs",
    "Verif.Sms.Smr.expiry_tells",
    "Verif.Sms.Smr.stuck_counterexample"
   ],
   "note": "false of the code: the instance stays in its wait after the timer expired"
  },
  {
   "property": "C142",
   "status": "partial",
   "theorems": [
    "Verif.Sms.Smr.in_bounds_partial",
    "Verif.Sms.Smr.short_counterexample",
    "Verif.Sms.Smr.length_partial",
    "Verif.Sms.Smr.length_counterexample"
   ],
   "note": "false of the code for messages below 5 octets and RP messages from 254 octets on"
  },
  {
   "property": "C143",
   "status": "partial",
   "theorems": [
    "Verif.Bitcomp.t4_lossless_partial",
    "Verif.Bitcomp.t4_injective",
    "Verif.Bitcomp.prefix_free",
    "Verif.Bitcomp.t4_surplus_counterexample",
    "Verif.Bitcomp.t4_lossy_counterexample",
    "Verif.Bitcomp.t4_long_counterexample",
    "Verif.Bitcomp.t4_short_counterexample"
   ],
   "note": "False without the two spare octets (second to last octet is not shifted), for runs of 1024 bits (table overrun) and bits behind the cursor can be coded as well; all four counterexamples are proved."
  },
  {
   "property": "C144",
   "status": "partial",
   "theorems": [
    "Verif.Sms.Utils.bcd_round_trip",
    "Verif.Sms.Utils.bcd_round_trip'",
    "Verif.Sms.Utils.scts_round_trip_partial",
    "Verif.Sms.Utils.scts_round_trip_plain",
    "Verif.Sms.Utils.scts_oob_counterexample",
    "Verif.Sms.Utils.scts_west_counterexample"
   ],
   "note": "With tm_gmtoff the decoder reads an eighth octet as the time zone, and negative time zones are not encoded; both are proved. localtime and mktime are not modelled."
  },
  {
   "property": "C145",
   "status": "partial",
   "theorems": [
    "Verif.Sms.Utils.relative_mono",
    "Verif.Sms.Utils.relative_range",
    "Verif.Sms.Utils.enhanced_spec",
    "Verif.Sms.Utils.period_default",
    "Verif.Sms.Utils.absolute_spec",
    "Verif.Sms.Utils.period_in_bounds_partial",
    "Verif.Sms.Utils.absolute_oob_counterexample"
   ],
   "note": "Bounds are partial: the absolute format reads an eighth octet (proved)."
  },
  {
   "property": "C146",
   "status": "partial",
   "theorems": [
    "Verif.Sms.Utils.gen_oa_number",
    "Verif.Sms.Utils.gen_oa_text_partial",
    "Verif.Sms.Utils.alphabet_spec",
    "Verif.Sms.Utils.gen_oa_long_counterexample",
    "Verif.Sms.Utils.gen_oa_semi_octets_counterexample",
    "Verif.Sms.Utils.gen_oa_wrap_counterexample"
   ],
   "note": "Longer numbers become an empty address reported as success, the length of text is not in useful semi-octets, and a buffer length below two is not respected; all proved."
  },
  {
   "property": "C147",
   "status": "proved",
   "theorems": [
    "Verif.Codec.fr_classify",
    "Verif.Codec.efr_classify",
    "Verif.Codec.fr_positions",
    "Verif.Codec.fr_check",
    "Verif.Codec.efr_check",
    "Verif.Codec.hr_check",
    "Verif.Codec.fr_reset_bits",
    "Verif.Codec.efr_reset_bits",
    "Verif.Codec.hr_reset_bits",
    "Verif.Codec.fr_reset_valid",
    "Verif.Codec.efr_reset_valid",
    "Verif.Codec.hr_reset_check",
    "Verif.Codec.fr_preen",
    "Verif.Codec.efr_preen",
    "Verif.Codec.fr_preen_restores"
   ],
   "note": "The full rate code word is also shown to be the protected RPE pulse bits of the bit order table used by the channel coding model."
  },
  {
   "property": "C148",
   "status": "proved",
   "theorems": [
    "Verif.Codec.lost_speech",
    "Verif.Codec.lost_speech_bound",
    "Verif.Codec.lost_speech_is_speech",
    "Verif.Codec.random_grid",
    "Verif.Codec.lost_sid",
    "Verif.Codec.isSid_valid",
    "Verif.Codec.frameIn_eq",
    "Verif.Codec.dtx_pause",
    "Verif.Codec.always_framed",
    "Verif.Codec.silent_start",
    "Verif.Codec.invalid_sid"
   ],
   "note": "Whole state machine of ecu_fr.c over arbitrary event sequences; the EFR unit (ecu_fr.c only handles FR) and the generic dispatch in ecu.c are not part of it."
  },
  {
   "property": "C149",
   "status": "proved",
   "theorems": [
    "Verif.Logging.mapSubsys_spec",
    "Verif.Logging.shouldLog_iff",
    "Verif.Logging.logged_iff_wanted",
    "Verif.Logging.check_level",
    "Verif.Logging.setCategory_spec",
    "Verif.Logging.fini_cache_counterexample"
   ],
   "note": "Holds up to log_fini; after log_fini and a second log_init the enabled cache is memory given back (fini_cache_counterexample)."
  },
  {
   "property": "C150",
   "status": "partial",
   "theorems": [
    "Verif.Logging.mask_partial",
    "Verif.Logging.mask_plain",
    "Verif.Logging.names_iff",
    "Verif.Logging.tokens_maskOf",
    "Verif.Logging.tokLevel_eq",
    "Verif.Logging.prefix_counterexample"
   ],
   "note": "False as stated: a token with a level also names every category whose name begins with it (prefix_counterexample). Proved exactly for masks without levels, and with names_iff as the meaning of naming for all masks."
  },
  {
   "property": "C151",
   "status": "partial",
   "theorems": [
    "Verif.Gad.lat_clamp_partial",
    "Verif.Gad.lon_clamp",
    "Verif.Gad.encLat_decLat",
    "Verif.Gad.encLon_decLon",
    "Verif.Gad.decLat_spec",
    "Verif.Gad.decLon_spec",
    "Verif.Gad.clamp_idempotent",
    "Verif.Gad.clamp_mono",
    "Verif.Gad.enc_clamps",
    "Verif.Gad.antimeridian",
    "Verif.Gad.pole_counterexample",
    "Verif.Gad.lat_code_partial",
    "Verif.Gad.lat_code_counterexample"
   ],
   "note": "All but the poles: a latitude of 90 degrees or more comes back as 0 (pole_counterexample), and the inequality quoted from TS 23.032 in the code holds only up to a millionth of a degree (lat_code_counterexample). The negative zero of latitude is the one code that is not its own code."
  },
  {
   "property": "C152",
   "status": "proved",
   "theorems": [
    "Verif.Gad.decUnc_spec",
    "Verif.Gad.encUnc_spec",
    "Verif.Gad.encUnc_decUnc"
   ],
   "note": ""
  },
  {
   "property": "C153",
   "status": "partial",
   "theorems": [
    "Verif.Gad.rawRead_iff",
    "Verif.Gad.rawWrite_rawRead",
    "Verif.Gad.enc_ok_iff",
    "Verif.Gad.enc_error",
    "Verif.Gad.dec_circle",
    "Verif.Gad.dec_other",
    "Verif.Gad.dec_defined",
    "Verif.Gad.round_trip",
    "Verif.Gad.decode_encode",
    "Verif.Gad.enc_size_partial",
    "Verif.Gad.enc_size_counterexample"
   ],
   "note": "The return value of the encoder is the size of a pointer and right only on 64 bit targets (enc_size_counterexample). Encoding back excludes the negative zero of latitude."
  },
  {
   "property": "C154",
   "status": "partial",
   "theorems": [
    "Verif.Gcr.enc_spec",
    "Verif.Gcr.enc_refuses",
    "Verif.Gcr.dec_ok",
    "Verif.Gcr.round_trip",
    "Verif.Gcr.dec_errors",
    "Verif.Gcr.dec_defined_partial",
    "Verif.Gcr.overread_counterexample",
    "Verif.Gcr.eq_spec"
   ],
   "note": "Decoding reads up to two octets beyond an element of 13 or 14 octets with a longer network identity (overread_counterexample); within bounds where the element has 10 octets more than the network identity."
  },
  {
   "property": "C155",
   "status": "partial",
   "theorems": [
    "Verif.SpeechCodec.encOne_valid",
    "Verif.SpeechCodec.encOne_invalid",
    "Verif.SpeechCodec.dec_wire",
    "Verif.SpeechCodec.enc_spec",
    "Verif.SpeechCodec.dec_sound",
    "Verif.SpeechCodec.encList_spec",
    "Verif.SpeechCodec.list_round_trip_partial",
    "Verif.SpeechCodec.decList_sound",
    "Verif.SpeechCodec.big_endian_counterexample",
    "Verif.SpeechCodec.extended_short_counterexample"
   ],
   "note": "the round trip holds on little endian hosts; on big endian ones the configuration of AMR codecs is swapped; short types are also accepted in the extended form"
  },
  {
   "property": "C156",
   "status": "partial",
   "theorems": [
    "Verif.CellId.encList_spec",
    "Verif.CellId.list_round_trip_partial",
    "Verif.CellId.put_decodeU",
    "Verif.CellId.decList_spec",
    "Verif.CellId.id_round_trip",
    "Verif.CellId.long_list_counterexample",
    "Verif.CellId.return_counterexample",
    "Verif.CellId.empty_lac_ci_counterexample"
   ],
   "note": "false for lists of more than 255 octets (the length wraps), for the return value of 254 and 255 octets, and for an empty list of LAC and CI"
  },
  {
   "property": "C157",
   "status": "partial",
   "theorems": [
    "Verif.CellId.match_spec_partial",
    "Verif.CellId.match_symm",
    "Verif.CellId.matchesList_spec",
    "Verif.CellId.idToCgi_spec",
    "Verif.CellId.fromCgi_spec",
    "Verif.CellId.fromCgi_parts",
    "Verif.CellId.wildcard_counterexample",
    "Verif.CellId.exact_counterexample"
   ],
   "note": "false for two NO_CELL or two BSS identifiers, which match though documented not to, and for the SAC and RAC, which an exact match does not compare"
  },
  {
   "property": "C158",
   "status": "partial",
   "theorems": [
    "Verif.CellId.code_inj",
    "Verif.CellId.add_kind",
    "Verif.CellId.add_spec",
    "Verif.CellId.add_again",
    "Verif.CellId.add_ps_counterexample"
   ],
   "note": "entries are compared by what is sent: CGI-PS that differ in the RAC only count as one"
  },
  {
   "property": "C159",
   "status": "partial",
   "theorems": [
    "Verif.ChanType.enc_spec",
    "Verif.ChanType.dec_wire_partial",
    "Verif.ChanType.dec_sound_partial",
    "Verif.ChanType.enc_abort",
    "Verif.ChanType.asym_counterexample",
    "Verif.ChanType.overlong_counterexample",
    "Verif.ChanType.signalling_counterexample"
   ],
   "note": "The asymmetry preference is lost by the decoder (counterexample); nine octets with extension bits give ten speech versions (counterexample)."
  },
  {
   "property": "C160",
   "status": "partial",
   "theorems": [
    "Verif.ChanType.ei_round_trip",
    "Verif.ChanType.ei_decode_partial",
    "Verif.ChanType.ei_overrun_counterexample",
    "Verif.ChanType.algoMask_spec"
   ],
   "note": "Elements of 254 and 255 octets overrun the key (counterexample)."
  },
  {
   "property": "C161",
   "status": "partial",
   "theorems": [
    "Verif.ChanType.mrFromSc_spec",
    "Verif.ChanType.mr_round_trip_fr",
    "Verif.ChanType.mr_round_trip_hr_partial",
    "Verif.ChanType.scFromMr_mask",
    "Verif.ChanType.hr_counterexample",
    "Verif.ChanType.codecFrom_valid",
    "Verif.ChanType.codecFrom_isSome",
    "Verif.ChanType.codecFrom_amr"
   ],
   "note": "4.75, 5.9 and 7.4 on a half rate channel come back with 12.2 (counterexample)."
  },
  {
   "property": "C162",
   "status": "proved",
   "theorems": [
    "Verif.Bsslap.enc_spec",
    "Verif.Bsslap.dec_spec",
    "Verif.Bsslap.dec_malformed",
    "Verif.Bsslap.dec_total",
    "Verif.Bsslap.round_trip",
    "Verif.Tlv.parse_simple",
    "Verif.Tlv.parse_simple_fail"
   ],
   "note": "On top of the TLV parser's model; the error description for logging is left out."
  },
  {
   "property": "C163",
   "status": "partial",
   "theorems": [
    "Verif.Lcls.enc_spec",
    "Verif.Lcls.round_trip_partial",
    "Verif.Lcls.corr_not_needed_counterexample",
    "Verif.Lcls.notification_partial",
    "Verif.Lcls.notification_counterexample",
    "Verif.Lcls.bad_gcr_counterexample"
   ],
   "note": "Correlation-Not-Needed and LCLS-Break-Request are written without a value but defined as TV (counterexamples)."
  },
  {
   "property": "C164",
   "status": "partial",
   "theorems": [
    "Verif.Exec.filter_spec",
    "Verif.Exec.filter_mem",
    "Verif.Exec.filter_no_input",
    "Verif.Exec.filter_invalid",
    "Verif.Exec.append_spec",
    "Verif.Exec.append_no_input_partial",
    "Verif.Exec.append_no_input_counterexample",
    "Verif.Exec.append_invalid",
    "Verif.Exec.append_unterminated"
   ],
   "note": "Filtering and appending are proved in full. Appending without input returns a count without the NULL, unlike all other cases; shown by the counterexample."
  },
  {
   "property": "C165",
   "status": "partial",
   "theorems": [
    "Verif.Signal.register_spec",
    "Verif.Signal.unregister_spec",
    "Verif.Signal.apply_list",
    "Verif.Signal.dispatch_quiet",
    "Verif.Signal.dispatch_unregister_partial",
    "Verif.Signal.register_delivered",
    "Verif.Signal.self_unregister_counterexample"
   ],
   "note": "Proved for callbacks that leave the list alone or unregister other handlers, and for a single registration from a callback. A callback that unregisters itself makes the iteration proceed from freed memory (counterexample). Nested dispatch is not modelled."
  },
  {
   "property": "C166",
   "status": "partial",
   "theorems": [
    "Verif.Ns.validate_mandatory",
    "Verif.Ns.validate_empty",
    "Verif.Ns.validate_status",
    "Verif.Ns.validate_status_no_cause",
    "Verif.Ns.validate_other",
    "Verif.Ns.short_vci_counterexample",
    "Verif.Ns.reject_spec",
    "Verif.Ns.reject_accepted_partial"
   ],
   "note": "Acceptance is proved in full for all types, on the elements parsed. A status about an NS-VC passes with an NS-VCI of one octet (counterexample). The status built on rejection is accepted for all causes but two, which the callers do not use. How elements are parsed from octets is the subject of the TLV properties."
  },
  {
   "property": "C167",
   "status": "proved",
   "theorems": [
    "Verif.Vector.ensure_spec",
    "Verif.Vector.lookup_spec",
    "Verif.Vector.setIndex_spec",
    "Verif.Vector.set_spec",
    "Verif.Vector.lookupEnsure_spec",
    "Verif.Vector.unset_spec",
    "Verif.Vector.count_spec",
    "Verif.Vector.copy_spec",
    "Verif.Vector.run_inv"
   ],
   "note": "All operations of vector.c on vectors, with sizes that do not overflow 32 bits and allocation that succeeds."
  },
  {
   "property": "C168",
   "status": "proved",
   "theorems": [
    "Verif.Strvec.make_loose",
    "Verif.Strvec.make_loose_covers",
    "Verif.Strvec.line_exists",
    "Verif.Strvec.tokens_line",
    "Verif.Strvec.make_strict",
    "Verif.Strvec.make_strict_error",
    "Verif.Strvec.make_none"
   ],
   "note": "For isspace() of the C locale; the vector is a list, justified by C167."
  },
  {
   "property": "C169",
   "status": "partial",
   "theorems": [
    "Verif.RestOctets.nchEncode_spec",
    "Verif.RestOctets.nch_inverse",
    "Verif.RestOctets.si1_nch_partial",
    "Verif.RestOctets.si1_no_nch_partial",
    "Verif.RestOctets.si1_padding_counterexample",
    "Verif.RestOctets.si1_position"
   ],
   "note": "Proved in full but for the padding of the last bit, which the code leaves as it was (counterexample)."
  }
 ]
}
