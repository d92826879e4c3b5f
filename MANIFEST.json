{
 "claims": [
  {
   "property": "C01",
   "status": "proved",
   "theorems": [
    "Verif.Raa.C01_ra2_8k",
    "Verif.Raa.C01_ra2_16k",
    "Verif.Raa.C01_ra2_8k_rx",
    "Verif.Raa.C01_ra2_16k_rx"
   ],
   "note": ""
  },
  {
   "property": "C02",
   "status": "proved",
   "theorems": [
    "Verif.Raa.C02_atrau_roundtrip",
    "Verif.Raa.C02_atrau_ra2_roundtrip"
   ],
   "note": ""
  },
  {
   "property": "C03",
   "status": "proved",
   "theorems": [
    "Verif.Raa.C03_atrau_encode_safe"
   ],
   "note": ""
  },
  {
   "property": "C04",
   "status": "proved",
   "theorems": [
    "Verif.Raa.C04_no_sync_emulation",
    "Verif.Raa.C04_sync_present"
   ],
   "note": ""
  },
  {
   "property": "C05",
   "status": "proved",
   "theorems": [
    "Verif.Raa.C05_atrau_decode_safe",
    "Verif.Raa.C05_atrau_ra2_decode_safe",
    "Verif.Raa.C05_atrau_bad_header"
   ],
   "note": ""
  },
  {
   "property": "C06",
   "status": "proved",
   "theorems": [
    "Verif.Demux.C06_demux_frames",
    "Verif.Demux.C06_demux_active",
    "Verif.Demux.C06_reachable_valid",
    "Verif.Demux.C06_init_silent"
   ],
   "note": ""
  },
  {
   "property": "C07",
   "status": "proved",
   "theorems": [
    "Verif.Demux.C07_demux_chunking"
   ],
   "note": ""
  },
  {
   "property": "C08",
   "status": "proved",
   "theorems": [
    "Verif.Demux.C08_demux_isolation",
    "Verif.Demux.C08_demux_inactive"
   ],
   "note": ""
  },
  {
   "property": "C09",
   "status": "proved",
   "theorems": [
    "Verif.Demux.C09_demux_delivers",
    "Verif.Demux.C09_wraparound_limit"
   ],
   "note": "a run of 2^32-16 zero bits before the stream is excluded by the statement; C09_wraparound_limit shows why"
  },
  {
   "property": "C10",
   "status": "proved",
   "theorems": [
    "Verif.Demux.C10_activate_einval",
    "Verif.Demux.C10_activate_exact",
    "Verif.Demux.C10_negative_undefined"
   ],
   "note": "negative sub-channel numbers are undefined behaviour (shift by a negative amount), see C10_negative_undefined"
  },
  {
   "property": "C11",
   "status": "proved",
   "theorems": [
    "Verif.Mux.C11_enqueue_keeps_newest",
    "Verif.Mux.C11_queue_bounded"
   ],
   "note": ""
  },
  {
   "property": "C12",
   "status": "partial",
   "theorems": [
    "Verif.Mux.C12_no_overrun_partial",
    "Verif.Mux.C12_overrun_violated",
    "Verif.Mux.C12_bit_lost_violated",
    "Verif.Mux.C161_exact"
   ],
   "note": "holds for frames of even length; the code violates it for odd lengths (witnesses proved); the behaviour for frames of any length is characterised exactly, see C161"
  },
  {
   "property": "C13",
   "status": "proved",
   "theorems": [
    "Verif.Mux.C13_output",
    "Verif.Mux.C13_history",
    "Verif.Mux.C13_eviction_cuts_frames"
   ],
   "note": ""
  },
  {
   "property": "C14",
   "status": "proved",
   "theorems": [
    "Verif.Mux.C14_mux_demux"
   ],
   "note": ""
  },
  {
   "property": "C15",
   "status": "proved",
   "theorems": [
    "Verif.TrauSync.C15_chunking"
   ],
   "note": ""
  },
  {
   "property": "C16",
   "status": "proved",
   "theorems": [
    "Verif.TrauSync.C16_first_frame",
    "Verif.TrauSync.C16_reacquired"
   ],
   "note": ""
  },
  {
   "property": "C17",
   "status": "proved",
   "theorems": [
    "Verif.TrauSync.C17_full_frame_needed"
   ],
   "note": ""
  },
  {
   "property": "C18",
   "status": "proved",
   "theorems": [
    "Verif.TrauSync.C18_nothing_before",
    "Verif.TrauSync.C18_first_match"
   ],
   "note": ""
  },
  {
   "property": "C19",
   "status": "proved",
   "theorems": [
    "Verif.TrauSync.C19_keeps_alignment",
    "Verif.TrauSync.C19_loss"
   ],
   "note": ""
  },
  {
   "property": "C20",
   "status": "proved",
   "theorems": [
    "Verif.TrauSync.C20_no_fault",
    "Verif.TrauSync.C20_asserts",
    "Verif.TrauSync.C20_assert_needed"
   ],
   "note": "API calls made from within the frame call-back are not modelled"
  },
  {
   "property": "C21",
   "status": "partial",
   "theorems": [
    "Verif.TrauSync.C21_tolerance_partial",
    "Verif.TrauSync.C21_tolerance_violated",
    "Verif.TrauSync.C21_history_exists"
   ],
   "note": "the code violates it: the error counter is not reset by a loss (proved for every such history); holds once a good frame was received after re-acquisition"
  },
  {
   "property": "C22",
   "status": "partial",
   "theorems": [
    "Verif.TrauSync.C22_received_bits_partial",
    "Verif.TrauSync.C22_fresh_partial",
    "Verif.TrauSync.C22_uninit_violated"
   ],
   "note": "the code violates it after a loss (witness proved); holds until the first loss, and after a loss if the re-acquisition takes at least a frame length of bits"
  },
  {
   "property": "C23",
   "status": "proved",
   "theorems": [
    "Verif.Trau.C23_roundtrip",
    "Verif.Trau.C23_idle"
   ],
   "note": ""
  },
  {
   "property": "C24",
   "status": "partial",
   "theorems": [
    "Verif.Trau.C24_oam_partial",
    "Verif.Trau.C24_oam_violated",
    "Verif.Trau.C24_oam_exact_partial",
    "Verif.Trau.C24_survive_iff"
   ],
   "note": "violated by the code (proved): D bits are shifted; what they become is proved exactly"
  },
  {
   "property": "C25",
   "status": "proved",
   "theorems": [
    "Verif.Trau.C25_roundtrip"
   ],
   "note": ""
  },
  {
   "property": "C26",
   "status": "partial",
   "theorems": [
    "Verif.Trau.C26_amr67_partial",
    "Verif.Trau.C26_amr67_violated",
    "Verif.Trau.C26_amr67_exact_partial"
   ],
   "note": "violated by the code (proved); the frames that survive are characterised exactly"
  },
  {
   "property": "C27",
   "status": "proved",
   "theorems": [
    "Verif.Trau.C27_encode_buffer",
    "Verif.Trau.C27_overflow_undefined"
   ],
   "note": "larger dl_ta_usec values overflow int (undefined behaviour, proved)"
  },
  {
   "property": "C28",
   "status": "partial",
   "theorems": [
    "Verif.Trau.C28_ta16_partial",
    "Verif.Trau.C28_ta16_uplink",
    "Verif.Trau.C28_ta16_violated",
    "Verif.Trau.C28_ta16_exact_partial"
   ],
   "note": "violated by the code for requests of more than 312 bits (proved); the lengths are proved exactly for every request"
  },
  {
   "property": "C29",
   "status": "proved",
   "theorems": [
    "Verif.Trau.C29_classify",
    "Verif.Trau.code_unique"
   ],
   "note": "a buffer holding one more bit than a frame is required for O&M frames, see C64"
  },
  {
   "property": "C30",
   "status": "proved",
   "theorems": [
    "Verif.OldTrau.C30_speech_roundtrip",
    "Verif.OldTrau.C30_data_roundtrip",
    "Verif.OldTrau.C30_decode_total"
   ],
   "note": ""
  },
  {
   "property": "C31",
   "status": "proved",
   "theorems": [
    "Verif.OldTrau.C31_up2down",
    "Verif.OldTrau.C31_up2down_refused"
   ],
   "note": ""
  },
  {
   "property": "C32",
   "status": "proved",
   "theorems": [
    "Verif.RtpConv.C32_rtp2trau",
    "Verif.RtpConv.C32_rtp2trau_control",
    "Verif.RtpConv.C32_trau2rtp",
    "Verif.RtpConv.C32_trau2rtp_tw",
    "Verif.RtpConv.C32_roundtrip_rtp",
    "Verif.RtpConv.C32_roundtrip_rtp_tw",
    "Verif.RtpConv.C32_roundtrip_trau",
    "Verif.RtpConv.C32_bad_frame",
    "Verif.RtpConv.C32_nodata",
    "Verif.RtpConv.C32_nodata_roundtrip",
    "Verif.RtpConv.C32_malformed",
    "Verif.RtpConv.C32_nospace"
   ],
   "note": "libosmocodec's SID detection is a parameter"
  },
  {
   "property": "C33",
   "status": "proved",
   "theorems": [
    "Verif.RtpConv.C33_rtp2trau",
    "Verif.RtpConv.C33_rtp2trau_control",
    "Verif.RtpConv.C33_trau2rtp",
    "Verif.RtpConv.C33_trau2rtp_tw",
    "Verif.RtpConv.C33_roundtrip_rtp",
    "Verif.RtpConv.C33_roundtrip_rtp_tw",
    "Verif.RtpConv.C33_roundtrip_trau",
    "Verif.RtpConv.C33_burst",
    "Verif.RtpConv.C33_single_bit",
    "Verif.RtpConv.C33_bad_frame",
    "Verif.RtpConv.C33_nodata",
    "Verif.RtpConv.C33_malformed"
   ],
   "note": "libosmocodec's SID detection and CRC-8 helpers are parameters"
  },
  {
   "property": "C34",
   "status": "proved",
   "theorems": [
    "Verif.RtpConv.C34_rtp2trau_16k",
    "Verif.RtpConv.C34_rtp2trau_8k",
    "Verif.RtpConv.C34_8k_uplink",
    "Verif.RtpConv.C34_malformed",
    "Verif.RtpConv.C34_trau2rtp_16k",
    "Verif.RtpConv.C34_trau2rtp_16k_tw",
    "Verif.RtpConv.C34_trau2rtp_8k",
    "Verif.RtpConv.C34_trau2rtp_8k_tw",
    "Verif.RtpConv.C34_roundtrip_16k",
    "Verif.RtpConv.C34_roundtrip_8k",
    "Verif.RtpConv.C34_roundtrip_trau_16k",
    "Verif.RtpConv.C34_burst"
   ],
   "note": ""
  },
  {
   "property": "C35",
   "status": "proved",
   "theorems": [
    "Verif.RtpConv.C35_trau2rtp_data8",
    "Verif.RtpConv.C35_trau2rtp_data16",
    "Verif.RtpConv.C35_trau2rtp_hr",
    "Verif.RtpConv.C35_rtp2trau_data8",
    "Verif.RtpConv.C35_rtp2trau_data16",
    "Verif.RtpConv.C35_rtp2trau_hr",
    "Verif.RtpConv.C35_roundtrip_data8",
    "Verif.RtpConv.C35_roundtrip_data16",
    "Verif.RtpConv.C35_roundtrip_hr",
    "Verif.RtpConv.C35_roundtrip_rtp_hr",
    "Verif.RtpConv.C35_roundtrip_rtp_data8",
    "Verif.RtpConv.C35_edata_roundtrip",
    "Verif.RtpConv.C35_edata_idle"
   ],
   "note": ""
  },
  {
   "property": "C36",
   "status": "proved",
   "theorems": [
    "Verif.Ericsson.C36_encode_sync",
    "Verif.Ericsson.C36_encode_data",
    "Verif.Ericsson.C36_encode_refused",
    "Verif.Ericsson.C36_decode_sync",
    "Verif.Ericsson.C36_decode_data"
   ],
   "note": "the encoder handles PCU -> CCU frames and the decoder CCU -> PCU frames, so there is no round trip; the spare bits in front of PSEQ are sent as 1, the diagram in the code shows 0"
  },
  {
   "property": "C37",
   "status": "partial",
   "theorems": [
    "Verif.Ericsson.C37_decode_sync",
    "Verif.Ericsson.C37_decode_data_partial",
    "Verif.Ericsson.C37_decode_mcs9_partial",
    "Verif.Ericsson.C37_encode_data_partial",
    "Verif.Ericsson.C37_encode_sync_partial",
    "Verif.Ericsson.C37_encode_refused",
    "Verif.Ericsson.C37_encode_data_violated",
    "Verif.Ericsson.C37_encode_sync_violated",
    "Verif.Ericsson.C37_error_never_signalled_violated",
    "Verif.Ericsson.C37_bep_violated",
    "Verif.Ericsson.C37_decode_mcs9_violated",
    "Verif.Ericsson.C37_mcs9_lost_violated"
   ],
   "note": "violated by the code (proved): C8 and PC are misplaced, FN_SS is truncated, mean/CV BEP are mixed up, MCS-9 blocks lose 15 bits; everything else is proved exact"
  },
  {
   "property": "C38",
   "status": "proved",
   "theorems": [
    "Verif.Ericsson.C38_sync16",
    "Verif.Ericsson.C38_control16",
    "Verif.Ericsson.C38_extended16",
    "Verif.Ericsson.C38_tbits16",
    "Verif.Ericsson.C38_crc16",
    "Verif.Ericsson.C38_sync64",
    "Verif.Ericsson.C38_control64",
    "Verif.Ericsson.C38_extended64",
    "Verif.Ericsson.C38_crc64"
   ],
   "note": ""
  },
  {
   "property": "C39",
   "status": "proved",
   "theorems": [
    "Verif.Ipa.Cli.C39_lifecycle",
    "Verif.Ipa.Cli.C39_no_callback",
    "Verif.Ipa.Cli.C39_open_once",
    "Verif.Ipa.Cli.C39_open",
    "Verif.Ipa.Cli.C39_close_idempotent",
    "Verif.Ipa.Cli.C39_reports"
   ],
   "note": "for histories in which the object is destroyed while closed and not in the down callback of a failed write, see C95"
  },
  {
   "property": "C40",
   "status": "partial",
   "theorems": [
    "Verif.Ipa.Cli.C40_fifo",
    "Verif.Ipa.Cli.C40_freed_once",
    "Verif.Ipa.Cli.C40_write_event",
    "Verif.Ipa.Cli.C40_wake_partial",
    "Verif.Ipa.Cli.C40_wake_violated"
   ],
   "note": "order and no duplication are proved; violated by the code: a message queued while connecting stays queued because write events are disabled when the connection is established (proved)"
  },
  {
   "property": "C41",
   "status": "proved",
   "theorems": [
    "Verif.Ipa.Ka.C41_no_false_alarm",
    "Verif.Ipa.Ka.C41_detects",
    "Verif.Ipa.Ka.C41_report_once",
    "Verif.Ipa.Ka.C41_interval",
    "Verif.Ipa.Ka.C41_next_ping",
    "Verif.Ipa.Ka.C41_stop_silent",
    "Verif.Ipa.Ka.C41_start",
    "Verif.Ipa.Ka.C41_terminates"
   ],
   "note": "for non-zero parameters; wait_zero_violated and interval_zero_violated show what happens otherwise; a generic connection needs a send callback (generic_no_send_violated)"
  },
  {
   "property": "C42",
   "status": "proved",
   "theorems": [
    "Verif.E1.rx_routing"
   ],
   "note": "the application callback is an action; what it does is a further operation of the history"
  },
  {
   "property": "C43",
   "status": "proved",
   "theorems": [
    "Verif.E1.sign_tx_fifo",
    "Verif.E1.tx_ts_sign"
   ],
   "note": ""
  },
  {
   "property": "C44",
   "status": "partial",
   "theorems": [
    "Verif.E1.fair_partial",
    "Verif.E1.fair_later_partial",
    "Verif.E1.fair_violated"
   ],
   "note": "violated by the code (proved for every number of rounds): links earlier in the list have strict priority; only these can delay a message without end: traffic on its own and on later links cannot (fair_later_partial)"
  },
  {
   "property": "C45",
   "status": "partial",
   "theorems": [
    "Verif.E1.config_same_partial",
    "Verif.E1.config_retype_partial",
    "Verif.E1.config_rc",
    "Verif.E1.retype_violated",
    "Verif.E1.retype_every_violated"
   ],
   "note": "violated by the code (proved): the return value of the cleanup is ignored; re-typing without active links is proved correct"
  },
  {
   "property": "C46",
   "status": "proved",
   "theorems": [
    "Verif.E1.line_refcount",
    "Verif.E1.link_keeps_line"
   ],
   "note": ""
  },
  {
   "property": "C47",
   "status": "proved",
   "theorems": [
    "Verif.E1.line_numbers_unique",
    "Verif.E1.line_create_find",
    "Verif.E1.line_create_exact"
   ],
   "note": ""
  },
  {
   "property": "C48",
   "status": "proved",
   "theorems": [
    "Verif.Lapd.C48_wire_layout",
    "Verif.Lapd.C48_roundtrip"
   ],
   "note": "frames for TEI 127 are TEI management, see C51"
  },
  {
   "property": "C49",
   "status": "proved",
   "theorems": [
    "Verif.Lapd.C49_no_fault",
    "Verif.Lapd.C49_truncated",
    "Verif.Lapd.C49_badlen_only",
    "Verif.Lapd.C52_history"
   ],
   "note": ""
  },
  {
   "property": "C50",
   "status": "partial",
   "theorems": [
    "Verif.Lapd.C50_consumed_once_partial",
    "Verif.Lapd.C50_violated",
    "Verif.Lapd.C50_consumed_iff"
   ],
   "note": "violated by the code for every frame with a truncated header (proved)"
  },
  {
   "property": "C51",
   "status": "proved",
   "theorems": [
    "Verif.Lapd.C51_identity_request",
    "Verif.Lapd.C51_answers_distinct",
    "Verif.Lapd.C51_other_ignored",
    "Verif.Lapd.C52_history",
    "Verif.Lapd.C51_tei_alloc_duplicates"
   ],
   "note": "the application must not call the public lapd_tei_alloc() for a registered TEI"
  },
  {
   "property": "C52",
   "status": "proved",
   "theorems": [
    "Verif.Lapd.C52_start_existing",
    "Verif.Lapd.C52_start_new",
    "Verif.Lapd.C52_stop",
    "Verif.Lapd.C52_transmit",
    "Verif.Lapd.C52_release",
    "Verif.Lapd.C52_history"
   ],
   "note": "the data link state machine is libosmocore's: any behaviour on existing data links is allowed"
  },
  {
   "property": "C53",
   "status": "partial",
   "theorems": [
    "Verif.Lapd.C53_alloc2_callbacks",
    "Verif.Lapd.C53_violated"
   ],
   "note": "violated by the code: callback and data are swapped (proved); lapd_instance_alloc2 is correct"
  },
  {
   "property": "C54",
   "status": "partial",
   "theorems": [
    "Verif.IpaProxy.C54_forwarding",
    "Verif.IpaProxy.C54_identity_partial",
    "Verif.IpaProxy.C54_swapped_violated",
    "Verif.IpaProxy.C54_first_route_violated",
    "Verif.IpaProxy.C54_src_closed_violated"
   ],
   "note": "violated by the code: the translation tables are used in the wrong direction, and routes other than the first use freed objects after its deletion (proved); what is forwarded is characterised exactly for all admissible histories, and the property holds if no stream id is changed"
  },
  {
   "property": "C55",
   "status": "partial",
   "theorems": [
    "Verif.IpaProxy.C55_duplicate_partial",
    "Verif.IpaProxy.C55_duplicate_violated",
    "Verif.IpaProxy.C55_refused_iff"
   ],
   "note": "violated by the code: only the first route between two instances is compared (proved)"
  },
  {
   "property": "C56",
   "status": "proved",
   "theorems": [
    "Verif.Rs232.C56_fragmentation",
    "Verif.Rs232.C56_roundtrip",
    "Verif.Rs232.C56_header"
   ],
   "note": "payloads up to 290 octets, the size of the buffer; a frame with an announced length of 0 is delivered one event late (zero_length_delayed)"
  },
  {
   "property": "C57",
   "status": "partial",
   "theorems": [
    "Verif.Rs232.C57_safe_partial",
    "Verif.Rs232.C57_overrun_violated",
    "Verif.Rs232.C57_use_after_free_violated",
    "Verif.Rs232.C57_safe_iff"
   ],
   "note": "violated by the code: frames announcing more than 298 octets overrun the buffer, and after a read error the freed buffer is used (both proved); safe otherwise; without read errors it is safe exactly if no frame has more than 300 octets (proved)"
  },
  {
   "property": "C58",
   "status": "proved",
   "theorems": [
    "Verif.Us.C58_roundtrip",
    "Verif.Us.C58_accepted",
    "Verif.Us.C58_control"
   ],
   "note": "frames of up to 1582 octets; longer packets are truncated (C58_accepted)"
  },
  {
   "property": "C59",
   "status": "proved",
   "theorems": [
    "Verif.IpAccess.C59_roundtrip",
    "Verif.IpAccess.C59_oml",
    "Verif.IpAccess.C59_slot",
    "Verif.IpAccess.C59_refused"
   ],
   "note": "the TRX number derived from the OML time slot is 0, like that of TRX 0; the type of the link tells them apart (C59_slot)"
  },
  {
   "property": "C60",
   "status": "proved",
   "theorems": [
    "Verif.Ortp.C60_timestamp",
    "Verif.Ortp.C60_only_send"
   ],
   "note": "a frame that cannot be allocated does not advance the clock, one that cannot be sent does"
  },
  {
   "property": "C61",
   "status": "proved",
   "theorems": [
    "Verif.Pcap.C61_record",
    "Verif.Pcap.C61_file",
    "Verif.Pcap.C61_no_file",
    "Verif.Pcap.C61_short"
   ],
   "note": "for complete writes; see C93 for short ones"
  },
  {
   "property": "C62",
   "status": "partial",
   "theorems": [
    "Verif.Demux.C62_reinit_partial",
    "Verif.Demux.C62_reinit_violated",
    "Verif.Demux.C62_reinit_iff"
   ],
   "note": "violated by the code (witness proved); C62_reinit_iff is the exact extent"
  },
  {
   "property": "C63",
   "status": "partial",
   "theorems": [
    "Verif.Trau.C63_deterministic_partial",
    "Verif.Trau.C63_oam8_violated",
    "Verif.Trau.C63_amr67_violated",
    "Verif.Trau.C63_deterministic_iff"
   ],
   "note": "violated by the code for 8k O&M and AMR 6.7 frames (proved); exactly these"
  },
  {
   "property": "C64",
   "status": "partial",
   "theorems": [
    "Verif.Trau.C64_reads16_partial",
    "Verif.Trau.C64_reads8_partial",
    "Verif.Trau.C64_oam_violated",
    "Verif.Trau.C64_amr67_violated",
    "Verif.Trau.C64_reads16_iff",
    "Verif.Trau.C64_reads8_iff"
   ],
   "note": "violated by the code for every 16k O&M and every 8k AMR 6.7 frame (proved); exactly these"
  },
  {
   "property": "C65",
   "status": "partial",
   "theorems": [
    "Verif.Trau.C65_idle_direction_partial",
    "Verif.Trau.C65_idle_direction_violated",
    "Verif.Trau.C65_idle_direction_iff"
   ],
   "note": "up-link idle frames carry the down-link code (proved)"
  },
  {
   "property": "C66",
   "status": "proved",
   "theorems": [
    "Verif.Trau.C66_wire_layout"
   ],
   "note": "16k O&M, 8k O&M and 8k AMR 6.7 are excluded, see C24, C26, C63"
  },
  {
   "property": "C67",
   "status": "proved",
   "theorems": [
    "Verif.Trau.C67_ta8"
   ],
   "note": ""
  },
  {
   "property": "C68",
   "status": "proved",
   "theorems": [
    "Verif.Trau.C68_request",
    "Verif.Trau.C68_closed_loop16",
    "Verif.Trau.C68_closed_loop8"
   ],
   "note": ""
  },
  {
   "property": "C69",
   "status": "proved",
   "theorems": [
    "Verif.Trau.C69_classify8",
    "Verif.Trau.rows8_unique"
   ],
   "note": "eight bits more than a frame must be readable for AMR 6.7 frames, see C64"
  },
  {
   "property": "C70",
   "status": "partial",
   "theorems": [
    "Verif.TrauSync.C70_patterns",
    "Verif.TrauSync.C70_table",
    "Verif.TrauSync.C70_encoder",
    "Verif.TrauSync.C70_edata_violated"
   ],
   "note": "the patterns are proved exact; extended data frames do not match any 16k pattern (proved), 8k AMR 6.7 frames are encoded wrongly (C26)"
  },
  {
   "property": "C71",
   "status": "proved",
   "theorems": [
    "Verif.RtpConv.C71_trau2rtp_safe",
    "Verif.RtpConv.C71_rtp2trau_safe"
   ],
   "note": ""
  },
  {
   "property": "C72",
   "status": "partial",
   "theorems": [
    "Verif.RtpConv.C72_fr",
    "Verif.RtpConv.C72_efr",
    "Verif.RtpConv.C72_hr8",
    "Verif.RtpConv.C72_hr16_partial",
    "Verif.RtpConv.C72_hr16_violated",
    "Verif.RtpConv.C72_hr16_iff"
   ],
   "note": "violated by the code: C15 of an uplink 16k HR frame keeps its old value (proved)"
  },
  {
   "property": "C73",
   "status": "partial",
   "theorems": [
    "Verif.RtpConv.C73_fr_violated",
    "Verif.RtpConv.C73_efr_violated",
    "Verif.RtpConv.C73_nodata_partial"
   ],
   "note": "violated by the code: down-link FR/EFR no-data frames are sent as speech frames (proved)"
  },
  {
   "property": "C74",
   "status": "proved",
   "theorems": [
    "Verif.RtpConv.C74_fr",
    "Verif.RtpConv.C74_efr",
    "Verif.RtpConv.C74_hr16",
    "Verif.RtpConv.C74_hr8",
    "Verif.RtpConv.C74_data8",
    "Verif.RtpConv.C74_data16",
    "Verif.RtpConv.C74_dataHr",
    "Verif.RtpConv.C74_data8k"
   ],
   "note": ""
  },
  {
   "property": "C75",
   "status": "partial",
   "theorems": [
    "Verif.RtpConv.C75_nodata_partial",
    "Verif.RtpConv.C75_hr8_violated"
   ],
   "note": "violated by the code for 8k HR in the down-link (proved)"
  },
  {
   "property": "C76",
   "status": "proved",
   "theorems": [
    "Verif.Ericsson.C76_decode",
    "Verif.Ericsson.C76_encode16",
    "Verif.Ericsson.C76_encode64"
   ],
   "note": ""
  },
  {
   "property": "C77",
   "status": "partial",
   "theorems": [
    "Verif.Ericsson.C77_independent_partial",
    "Verif.Ericsson.C77_violated",
    "Verif.Ericsson.C77_independent_iff"
   ],
   "note": "violated by the code for every MCS-9 frame (proved)"
  },
  {
   "property": "C78",
   "status": "partial",
   "theorems": [
    "Verif.Lapd.C78_reference_zero_partial",
    "Verif.Lapd.C78_reference_not_echoed",
    "Verif.Lapd.C78_reference_iff"
   ],
   "note": "violated by the code for every non-zero reference number (proved)"
  },
  {
   "property": "C79",
   "status": "proved",
   "theorems": [
    "Verif.Lapd.C79_addressed_only",
    "Verif.Lapd.C79_unknown_tei"
   ],
   "note": ""
  },
  {
   "property": "C80",
   "status": "partial",
   "theorems": [
    "Verif.Lapd.C80_usable_partial",
    "Verif.Lapd.C80_violated",
    "Verif.Lapd.C80_usable_iff"
   ],
   "note": "violated by the code for SAPIs above 63, which lapd_sap_start accepts (proved)"
  },
  {
   "property": "C81",
   "status": "partial",
   "theorems": [
    "Verif.Lapd.C81_event_partial",
    "Verif.Lapd.C81_violated",
    "Verif.Lapd.C81_safe_iff"
   ],
   "note": "violated by the code: reads beyond frames of zero and one octets (proved); exactly these"
  },
  {
   "property": "C82",
   "status": "proved",
   "theorems": [
    "Verif.Lapd.C82_freed_exactly_once"
   ],
   "note": ""
  },
  {
   "property": "C83",
   "status": "proved",
   "theorems": [
    "Verif.Lapd.C83_trace"
   ],
   "note": ""
  },
  {
   "property": "C84",
   "status": "partial",
   "theorems": [
    "Verif.E1.messages_accounted",
    "Verif.E1.messages_conserved_partial",
    "Verif.E1.line_free_leaks_violated"
   ],
   "note": "violated by the code: messages queued in raw/HDLC timeslots of a freed line are lost (proved); everything else is accounted for"
  },
  {
   "property": "C85",
   "status": "proved",
   "theorems": [
    "Verif.E1.link_freed_once"
   ],
   "note": ""
  },
  {
   "property": "C86",
   "status": "partial",
   "theorems": [
    "Verif.E1.queued_wakes_partial",
    "Verif.E1.queued_wakes_violated",
    "Verif.E1.destroy_stuck_every_violated"
   ],
   "note": "violated by the code whenever a link is destroyed while its timeslot waits for the delay timer (proved); holds for histories without destruction while others wait"
  },
  {
   "property": "C87",
   "status": "partial",
   "theorems": [
    "Verif.E1.event_signal",
    "Verif.E1.dlsap_up_map",
    "Verif.E1.event_type_violated",
    "Verif.E1.event_type_every_violated"
   ],
   "note": "violated by the code only in that the timeslot type is not checked (proved)"
  },
  {
   "property": "C88",
   "status": "partial",
   "theorems": [
    "Verif.E1.clone_partial",
    "Verif.E1.clone_configured_violated"
   ],
   "note": "violated by the code for lines with configured timeslots (proved)"
  },
  {
   "property": "C89",
   "status": "partial",
   "theorems": [
    "Verif.E1.ts_get_partial",
    "Verif.E1.ts_get_violated",
    "Verif.E1.ts_get_exact_partial"
   ],
   "note": "violated by the code for ts_nr 0 and above 32 (proved); the result is characterised for all numbers"
  },
  {
   "property": "C90",
   "status": "partial",
   "theorems": [
    "Verif.E1.config_retype_partial",
    "Verif.E1.line_refcount",
    "Verif.E1.sign_timer_violated"
   ],
   "note": "violated by the code: the timer is not initialised after TRAU/I.460 (proved); sending after other previous types is covered by line_refcount (no fault in any admissible history)"
  },
  {
   "property": "C91",
   "status": "partial",
   "theorems": [
    "Verif.E1.pcap_fd_set",
    "Verif.E1.sendmsg_traced",
    "Verif.E1.shutdown_closes",
    "Verif.E1.clone_pcap_violated",
    "Verif.E1.shutdown_lapd_violated"
   ],
   "note": "violated by the code: clones share the descriptor, LAPD instances keep it after shutdown (proved)"
  },
  {
   "property": "C92",
   "status": "proved",
   "theorems": [
    "Verif.E1.tx_trau_len"
   ],
   "note": ""
  },
  {
   "property": "C93",
   "status": "partial",
   "theorems": [
    "Verif.Pcap.C93_before_partial",
    "Verif.Pcap.C93_whole_partial",
    "Verif.Pcap.C61_short",
    "Verif.Pcap.short_write_violated",
    "Verif.Pcap.open_double_close_violated"
   ],
   "note": "violated by the code: the fragment of a short write stays in the file, the descriptor is closed twice (proved). Proved: the frames before any failure stay readable, and all frames do if failing writes leave nothing behind"
  },
  {
   "property": "C94",
   "status": "partial",
   "theorems": [
    "Verif.Pcap.C61_sign_file",
    "Verif.Pcap.C61_sign_header",
    "Verif.Pcap.sign_direction_violated"
   ],
   "note": "violated by the code: the packet type is in host order and the same for both directions (proved); everything else holds"
  },
  {
   "property": "C95",
   "status": "partial",
   "theorems": [
    "Verif.Ipa.Cli.C39_lifecycle",
    "Verif.Ipa.Cli.destroy_in_down_violated",
    "Verif.Ipa.Cli.destroy_open_violated"
   ],
   "note": "violated by the code in the down callback of a failed write and while the connection is open (proved); C39_lifecycle covers destruction in all other situations"
  },
  {
   "property": "C96",
   "status": "partial",
   "theorems": [
    "Verif.Ipa.Cli.C40_freed_once",
    "Verif.Ipa.Cli.C40_lossless_violated",
    "Verif.Ipa.Cli.stale_queue_sent",
    "Verif.Ipa.Cli.no_read_cb_leaks_violated"
   ],
   "note": "violated by the code (proved): short writes and EAGAIN lose data silently, the queue survives a reconnect, received messages leak without callback"
  },
  {
   "property": "C97",
   "status": "proved",
   "theorems": [
    "Verif.Ipa.Srv.server_lifecycle",
    "Verif.Ipa.Srv.server_once",
    "Verif.Ipa.Srv.server_lost"
   ],
   "note": "callbacks follow the documented contract: -EBADF after destruction in the read callback, no error from ccm_cb after destruction"
  },
  {
   "property": "C98",
   "status": "proved",
   "theorems": [
    "Verif.Ipa.Srv.server_fifo",
    "Verif.Ipa.Srv.server_write_event"
   ],
   "note": ""
  },
  {
   "property": "C99",
   "status": "partial",
   "theorems": [
    "Verif.Ipa.Srv.server_fifo",
    "Verif.Ipa.Srv.server_queue_leaked_violated",
    "Verif.Ipa.Srv.server_send_error_violated"
   ],
   "note": "violated by the code (proved)"
  },
  {
   "property": "C100",
   "status": "partial",
   "theorems": [
    "Verif.Ipa.Srv.server_ccm",
    "Verif.Ipa.Srv.server_ccm_cb_error",
    "Verif.Ipa.Srv.server_ccm_result_violated",
    "Verif.Ipa.Srv.server_ccm_destroy_violated",
    "Verif.Ipa.Srv.server_ccm_null_violated"
   ],
   "note": "the handling is proved; violated by the code: returning its result -1 from the read callback is a use after free (proved)"
  },
  {
   "property": "C101",
   "status": "partial",
   "theorems": [
    "Verif.Ipa.Srv.link_fds",
    "Verif.Ipa.Srv.link_open_twice_violated",
    "Verif.Ipa.Srv.link_open_twice_every_violated"
   ],
   "note": "descriptor accounting is proved; opening twice is never refused (proved)"
  },
  {
   "property": "C102",
   "status": "proved",
   "theorems": [
    "Verif.Ipa.ipa_header_roundtrip"
   ],
   "note": ""
  },
  {
   "property": "C103",
   "status": "partial",
   "theorems": [
    "Verif.Rs232.write_complete_partial",
    "Verif.Rs232.short_write_violated",
    "Verif.Rs232.no_callback_leaks_violated",
    "Verif.Rs232.no_callback_every_violated",
    "Verif.Rs232.C103_complete_iff"
   ],
   "note": "violated by the code for short writes and lines without callback (proved)"
  },
  {
   "property": "C104",
   "status": "partial",
   "theorems": [
    "Verif.Us.C104_descriptors_partial",
    "Verif.Us.C104_stale_fd_violated",
    "Verif.Us.C104_stdin_violated",
    "Verif.Us.C104_update_violated"
   ],
   "note": "violated by the code after a failed reconnection, before the first connection and when a connected line is updated (all proved); holds otherwise"
  },
  {
   "property": "C105",
   "status": "partial",
   "theorems": [
    "Verif.Us.C105_altc_first",
    "Verif.Us.C105_reconnect",
    "Verif.Us.C105_no_retry_violated"
   ],
   "note": "the first packet and the immediate reconnection are proved; violated by the code: a failed reconnection is not retried (proved)"
  },
  {
   "property": "C106",
   "status": "partial",
   "theorems": [
    "Verif.Us.C106_wake_partial",
    "Verif.Us.C106_wake_violated"
   ],
   "note": "violated by the code: a reconnection disables write events (proved)"
  },
  {
   "property": "C107",
   "status": "proved",
   "theorems": [
    "Verif.IpaProxy.C107_refcount",
    "Verif.IpaProxy.C107_delete"
   ],
   "note": ""
  },
  {
   "property": "C108",
   "status": "partial",
   "theorems": [
    "Verif.IpaProxy.C108_delete_partial",
    "Verif.IpaProxy.C108_last_route_violated",
    "Verif.IpaProxy.C108_unknown_instance_violated",
    "Verif.IpaProxy.C108_overlap_violated",
    "Verif.IpaProxy.C108_instance_fault_iff",
    "Verif.IpaProxy.C108_route_fault_iff"
   ],
   "note": "violated by the code when the last route between two instances or an unknown instance is deleted or streams overlap (all proved); holds for all other histories"
  },
  {
   "property": "C109",
   "status": "partial",
   "theorems": [
    "Verif.IpaProxy.C109_names_partial",
    "Verif.IpaProxy.C109_long_name_violated",
    "Verif.IpaProxy.C109_names_iff"
   ],
   "note": "violated by the code for names of 16 and more octets (proved); holds for shorter names"
  },
  {
   "property": "C110",
   "status": "proved",
   "theorems": [
    "Verif.Ortp.C110_disabled"
   ],
   "note": ""
  },
  {
   "property": "C111",
   "status": "partial",
   "theorems": [
    "Verif.Ortp.C111_registration_partial",
    "Verif.Ortp.C111_registered",
    "Verif.Ortp.C111_reconnect_violated"
   ],
   "note": "violated by the code: every second connect of a listening socket registers the descriptors again (proved); holds for sockets connected at most once and in polling mode"
  },
  {
   "property": "C112",
   "status": "proved",
   "theorems": [
    "Verif.Ortp.C112_receive"
   ],
   "note": ""
  },
  {
   "property": "C113",
   "status": "proved",
   "theorems": [
    "Verif.Ortp.C113_params"
   ],
   "note": ""
  },
  {
   "property": "C114",
   "status": "proved",
   "theorems": [
    "Verif.IpAccess.Bsc.C114_lines",
    "Verif.IpAccess.Bsc.C114_slots",
    "Verif.IpAccess.Bsc.C114_sign_slots"
   ],
   "note": ""
  },
  {
   "property": "C115",
   "status": "partial",
   "theorems": [
    "Verif.IpAccess.Bsc.C115_attached_partial",
    "Verif.IpAccess.Bsc.C115_reconnect_violated",
    "Verif.IpAccess.Bsc.C115_reconnect_every_violated"
   ],
   "note": "violated by the code: the end of an old connection detaches the new one of the same TRX (proved for all such histories); holds if the time slot is free when a BTS connects"
  },
  {
   "property": "C116",
   "status": "partial",
   "theorems": [
    "Verif.IpAccess.Bsc.C116_safe_partial",
    "Verif.IpAccess.Bsc.C116_trx_violated",
    "Verif.IpAccess.Bsc.C116_every_trx_violated",
    "Verif.IpAccess.Bsc.C116_assert_violated"
   ],
   "note": "violated by the code: TRX numbers above 30 are a null pointer dereference, a repeated identification aborts (proved); safe for all histories with well-behaved peers"
  },
  {
   "property": "C117",
   "status": "partial",
   "theorems": [
    "Verif.IpAccess.Bsc.C117_keepalive_partial",
    "Verif.IpAccess.Bsc.C117_timeout_violated",
    "Verif.IpAccess.Bsc.C117_dangling_violated"
   ],
   "note": "violated by the code: every expiry uses a freed object, and a connection that changes its line leaves a dangling FSM (proved)"
  },
  {
   "property": "C118",
   "status": "partial",
   "theorems": [
    "Verif.IpAccess.Bsc.C118_sent",
    "Verif.IpAccess.Bsc.C118_not_held",
    "Verif.IpAccess.Bsc.C118_channel",
    "Verif.IpAccess.Bsc.C118_receive",
    "Verif.IpAccess.Bsc.C118_pcap_violated"
   ],
   "note": "proved for links of the known types; violated by the code: a dropped message of another type is used after free if the line is traced (proved)"
  },
  {
   "property": "C119",
   "status": "proved",
   "theorems": [
    "Verif.IpAccess.Bts.C119_exact",
    "Verif.IpAccess.Bts.C119_lineUpdate",
    "Verif.IpAccess.Bts.C119_rslConnect",
    "Verif.IpAccess.Bts.C119_rslClose",
    "Verif.IpAccess.Bts.C119_connected",
    "Verif.IpAccess.Bts.C119_ping"
   ],
   "note": "TRX numbers without a time slot: see C120"
  },
  {
   "property": "C120",
   "status": "partial",
   "theorems": [
    "Verif.IpAccess.Bts.C120_safe_partial",
    "Verif.IpAccess.Bts.C120_step_iff",
    "Verif.IpAccess.Bts.C120_safe_iff",
    "Verif.IpAccess.Bts.C120_pong_violated",
    "Verif.IpAccess.Bts.C120_pong_reachable",
    "Verif.IpAccess.Bts.C120_empty_violated",
    "Verif.IpAccess.Bts.C120_timeout_violated",
    "Verif.IpAccess.Bts.C120_trx_violated",
    "Verif.IpAccess.Bts.C120_closed_violated",
    "Verif.IpAccess.Bts.C120_pcap_violated"
   ],
   "note": "violated by the code: a PONG without keepalive, an empty CCM message, every keepalive expiry, TRX numbers above 30, use of links of closed clients and traced messages of unconnected clients (all proved); safe for all other histories"
  },
  {
   "property": "C121",
   "status": "proved",
   "theorems": [
    "Verif.IpAccess.Bts.C121_identity",
    "Verif.IpAccess.Bts.C121_same_slot"
   ],
   "note": ""
  },
  {
   "property": "C122",
   "status": "proved",
   "theorems": [
    "Verif.IpAccess.Bts.C122_fates",
    "Verif.IpAccess.Bts.C122_sent",
    "Verif.IpAccess.Bts.C122_only",
    "Verif.IpAccess.Bts.C122_receive"
   ],
   "note": "abis_sendmsg() returns 0 also for dropped messages"
  },
  {
   "property": "C123",
   "status": "partial",
   "theorems": [
    "Verif.IpAccess.Cfg.C123_settings_partial",
    "Verif.IpAccess.Cfg.C123_swapped_violated",
    "Verif.IpAccess.Cfg.C123_iff"
   ],
   "note": "violated by the code: DSCP and priority are swapped at all four places (proved); addresses and ports are right"
  },
  {
   "property": "C124",
   "status": "proved",
   "theorems": [
    "Verif.Vty.C124_tcp"
   ],
   "note": "for values set by commands; the API allows values that overflow (example)"
  },
  {
   "property": "C125",
   "status": "partial",
   "theorems": [
    "Verif.IpAccess.Cfg.C125_update_partial",
    "Verif.IpAccess.Cfg.C125_first",
    "Verif.IpAccess.Cfg.C125_retry_violated",
    "Verif.IpAccess.Cfg.C125_second_line_violated"
   ],
   "note": "violated by the code: after a failure of the RSL socket every retry fails, as does every second line (proved); the rest is proved"
  },
  {
   "property": "C126",
   "status": "partial",
   "theorems": [
    "Verif.Vty.C126_roundtrip_partial",
    "Verif.Vty.C126_socket_violated",
    "Verif.Vty.C126_no_lines_violated"
   ],
   "note": "violated by the code: socket paths, and without lines the settings of the IPA driver, are not written (proved); holds otherwise. Commands are modelled after they were split into words by libosmovty"
  },
  {
   "property": "C127",
   "status": "partial",
   "theorems": [
    "Verif.Vty.C127_effect",
    "Verif.Vty.C127_nonexistent_partial",
    "Verif.Vty.C127_noPcap_violated",
    "Verif.Vty.C127_safe",
    "Verif.Vty.C127_driver",
    "Verif.Vty.C127_invariant",
    "Verif.Vty.C127_fault_iff"
   ],
   "note": "violated by the code: `no e1_line pcap` for a line that does not exist follows a null pointer (proved); holds for all other commands"
  },
  {
   "property": "C128",
   "status": "partial",
   "theorems": [
    "Verif.Trace.C128_line",
    "Verif.Trace.C128_all_partial",
    "Verif.Trace.C128_clone_violated",
    "Verif.Trace.C128_lapd_violated"
   ],
   "note": "violated by the code: clones keep the descriptor of a trace that was stopped, LAPD instances created later are not traced (proved); holds for the line itself in all histories"
  },
  {
   "property": "C129",
   "status": "partial",
   "theorems": [
    "Verif.Trace.C129_keepalive_partial",
    "Verif.Trace.C129_stale_violated"
   ],
   "note": "violated by the code: clones keep a pointer to parameters that were freed (proved); holds if they are not changed while there are connections"
  },
  {
   "property": "C130",
   "status": "partial",
   "theorems": [
    "Verif.E1d.C130_descriptors_partial",
    "Verif.E1d.C130_assert",
    "Verif.E1d.C130_unregistered_twice_violated",
    "Verif.E1d.C130_leak_violated"
   ],
   "note": "violated by the code if the daemon reports fewer time slots than before, and buffers leak on read errors and short blocks (proved); holds for all histories with a daemon that reports all time slots"
  },
  {
   "property": "C131",
   "status": "proved",
   "theorems": [
    "Verif.E1d.C131_retry",
    "Verif.E1d.C131_started",
    "Verif.E1d.C131_reconnect",
    "Verif.E1d.C131_again",
    "Verif.E1d.C131_update"
   ],
   "note": "for a daemon that reports all time slots; an update of a connected line relies on the modes the daemon reports"
  },
  {
   "property": "C132",
   "status": "proved",
   "theorems": [
    "Verif.E1d.C132_fifo",
    "Verif.E1d.C132_receive",
    "Verif.E1d.C132_short_write_violated"
   ],
   "note": "what is given to write() is exact; a short write loses the rest of the message (C132_short_write_violated)"
  },
  {
   "property": "C133",
   "status": "partial",
   "theorems": [
    "Verif.E1d.C133_watched_partial",
    "Verif.E1d.C133_drain",
    "Verif.E1d.C133_update_violated",
    "Verif.E1d.C133_reconnect_violated"
   ],
   "note": "violated by the code: an update of the line and a reconnection stop the watching (proved); holds for histories without them"
  },
  {
   "property": "C134",
   "status": "partial",
   "theorems": [
    "Verif.E1d.C134_rev",
    "Verif.E1d.C134_block",
    "Verif.E1d.C134_paced",
    "Verif.E1d.C134_i460_violated"
   ],
   "note": "proved for TRAU time slots; I.460 time slots are opened but never served (proved for all histories)"
  },
  {
   "property": "C135",
   "status": "partial",
   "theorems": [
    "Verif.E1d.C135_alarm_partial",
    "Verif.E1d.C135_unknown",
    "Verif.E1d.C135_truncated_violated",
    "Verif.E1d.C135_other_driver_violated",
    "Verif.E1d.C135_truncated_every_violated",
    "Verif.E1d.C135_first_every_violated",
    "Verif.E1d.C135_alarm_iff"
   ],
   "note": "violated by the code for interfaces above 15 and lines of other drivers with the same port number (proved); holds if port numbers are unique"
  },
  {
   "property": "C136",
   "status": "partial",
   "theorems": [
    "Verif.Dahdi.C136_channel_number_partial",
    "Verif.Dahdi.C136_channel_number_unique",
    "Verif.Dahdi.C136_port_violated",
    "Verif.Dahdi.C136_span_violated"
   ],
   "note": "violated by the code: ports above 127 and spans with more than 32 channels are accessed behind the end of arrays (proved); holds otherwise"
  },
  {
   "property": "C137",
   "status": "partial",
   "theorems": [
    "Verif.Dahdi.C137_descriptors_partial",
    "Verif.Dahdi.C137_stdin_violated",
    "Verif.Dahdi.C137_release_violated",
    "Verif.Dahdi.C137_retry_violated"
   ],
   "note": "violated by the code for the descriptor 0, for freed lines and in that a failed open is never repeated (proved); holds for all other histories"
  },
  {
   "property": "C138",
   "status": "partial",
   "theorems": [
    "Verif.Dahdi.C138_as_configured_partial",
    "Verif.Dahdi.C138_update_frame",
    "Verif.Dahdi.C138_safe_partial",
    "Verif.Dahdi.C138_hdlc_violated",
    "Verif.Dahdi.C138_failed_update_violated"
   ],
   "note": "violated by the code: HDLC keeps the LAPD instance of a former use, a failed update leaves a signalling time slot without one (proved); the rest holds for all histories, and all proper ones are safe when requests succeed"
  },
  {
   "property": "C139",
   "status": "partial",
   "theorems": [
    "Verif.Dahdi.C139_hdlc_roundtrip_partial",
    "Verif.Dahdi.C139_short_violated",
    "Verif.Dahdi.C139_lapd_frames",
    "Verif.Dahdi.C139_hdlc_exact_partial"
   ],
   "note": "violated by the code for messages of one octet (proved); holds for 2 to 282 octets; what is delivered is characterised for all lengths"
  },
  {
   "property": "C140",
   "status": "partial",
   "theorems": [
    "Verif.Dahdi.C140_order",
    "Verif.Dahdi.C140_config_frees",
    "Verif.Dahdi.C140_wake_partial",
    "Verif.Dahdi.C140_progress",
    "Verif.Dahdi.C140_idle",
    "Verif.Dahdi.C140_stuck_violated"
   ],
   "note": "order and completeness are proved for all histories; an update of the line stops the watching while messages are queued (proved)"
  },
  {
   "property": "C141",
   "status": "proved",
   "theorems": [
    "Verif.Dahdi.C141_rev_bits",
    "Verif.Dahdi.C141_trau_block",
    "Verif.Dahdi.C141_i460_block",
    "Verif.Dahdi.C141_raw_block",
    "Verif.Dahdi.C141_short_block"
   ],
   "note": ""
  },
  {
   "property": "C142",
   "status": "proved",
   "theorems": [
    "Verif.Dahdi.C142_events_exact",
    "Verif.Dahdi.C142_lapd_events_exact"
   ],
   "note": ""
  },
  {
   "property": "C143",
   "status": "proved",
   "theorems": [
    "Verif.Misdn.C143_coherent",
    "Verif.Misdn.C143_alternate",
    "Verif.Misdn.C143_indication_exact",
    "Verif.Misdn.C143_means_unique"
   ],
   "note": ""
  },
  {
   "property": "C144",
   "status": "partial",
   "theorems": [
    "Verif.Misdn.C144_descriptors_partial",
    "Verif.Misdn.C144_stdin_violated",
    "Verif.Misdn.C144_release_violated"
   ],
   "note": "false if the standard input is closed (descriptor 0 is never closed) and if a line is freed (its descriptors stay registered); proved for all other histories"
  },
  {
   "property": "C145",
   "status": "partial",
   "theorems": [
    "Verif.Misdn.C145_as_configured_partial",
    "Verif.Misdn.C145_d_channel",
    "Verif.Misdn.C145_suits",
    "Verif.Misdn.C145_complete",
    "Verif.Misdn.C145_untouched",
    "Verif.Misdn.C145_retry_violated",
    "Verif.Misdn.C145_i460_violated"
   ],
   "note": "false after a failed request: later updates return 0 without repeating it; I.460 time slots are bound to channel 0 and not served; the rest is proved"
  },
  {
   "property": "C146",
   "status": "partial",
   "theorems": [
    "Verif.Misdn.C146_order",
    "Verif.Misdn.C146_flow",
    "Verif.Misdn.C146_sign_awake",
    "Verif.Misdn.C146_b_awake_partial",
    "Verif.Misdn.C146_progress",
    "Verif.Misdn.C146_config_frees",
    "Verif.Misdn.C146_idle",
    "Verif.Misdn.C146_short_violated",
    "Verif.Misdn.C146_early_violated"
   ],
   "note": "order and flow control are proved; a refused block, or a message sent before the first update, leaves the queue without event (proved)"
  },
  {
   "property": "C147",
   "status": "proved",
   "theorems": [
    "Verif.Misdn.C147_rev_bits",
    "Verif.Misdn.C147_receive",
    "Verif.Misdn.C147_send"
   ],
   "note": ""
  },
  {
   "property": "C148",
   "status": "partial",
   "theorems": [
    "Verif.Misdn.C148_safe_partial",
    "Verif.Misdn.C148_no_leak_partial",
    "Verif.Misdn.C148_short_frame_violated",
    "Verif.Misdn.C148_room_violated",
    "Verif.Misdn.C148_retype_violated",
    "Verif.Misdn.C148_leak_violated"
   ],
   "note": "proved for histories that use the API properly; witnesses for frames without header, messages without room, retyped time slots and lost buffers"
  },
  {
   "property": "C149",
   "status": "proved",
   "theorems": [
    "Verif.Misdn.C149_channel",
    "Verif.Misdn.C149_lookup",
    "Verif.Misdn.C149_send",
    "Verif.Misdn.C149_receive"
   ],
   "note": ""
  },
  {
   "property": "C150",
   "status": "partial",
   "theorems": [
    "Verif.Misdn.C150_sa_exact_partial",
    "Verif.Misdn.C150_sa_round",
    "Verif.Misdn.C150_unused_violated"
   ],
   "note": "the request is exact; if time slot 16 is not in use it is written to descriptor 0"
  },
  {
   "property": "C151",
   "status": "proved",
   "theorems": [
    "Verif.Chain.C151_blocks",
    "Verif.Chain.C151_stream",
    "Verif.Chain.C151_decoded"
   ],
   "note": "frame types the synchroniser can follow (see C70), sent in their standard length"
  },
  {
   "property": "C152",
   "status": "proved",
   "theorems": [
    "Verif.Chain.C152_clean",
    "Verif.Chain.C152_mux"
   ],
   "note": "all types but extended data, which has no alignment bits behind the first 17"
  },
  {
   "property": "C153",
   "status": "proved",
   "theorems": [
    "Verif.Chain.C153_sender",
    "Verif.Chain.C153_sync",
    "Verif.Chain.C153_mux"
   ],
   "note": "up-link, receiver without TW-TS-001 extension"
  },
  {
   "property": "C154",
   "status": "partial",
   "theorems": [
    "Verif.TrauSync.C154_no_fault",
    "Verif.TrauSync.C154_silent",
    "Verif.TrauSync.C154_new_pattern_violated",
    "Verif.TrauSync.C154_chunking_partial",
    "Verif.TrauSync.C154_next_call_partial",
    "Verif.TrauSync.C154_next_call_exists"
   ],
   "note": "safety is proved for every admissible user; after a change made while a frame is delivered the rest of the buffer is still cut into frames without the new pattern being found, and the division into calls shows (proved); both hold for changes on loss of alignment, and from the next call on"
  },
  {
   "property": "C155",
   "status": "partial",
   "theorems": [
    "Verif.IpaCcm.C155_other",
    "Verif.IpaCcm.C155_id_get",
    "Verif.IpaCcm.C155_result",
    "Verif.IpaCcm.C155_silent",
    "Verif.IpaCcm.C155_slot",
    "Verif.IpaCcm.C155_same_slot",
    "Verif.IpaCcm.C155_safe_partial",
    "Verif.IpaCcm.C155_safe_iff",
    "Verif.IpaCcm.C155_pong_violated",
    "Verif.IpaCcm.C155_empty_violated",
    "Verif.IpaCcm.C155_short_ack_violated",
    "Verif.IpaCcm.C155_queue_violated"
   ],
   "note": "crashes on a PONG without keepalive FSM and on an empty CCM message; a short write of the ID ACK is not noticed; -1 returned through the read callback loses a queued message (all proved)"
  },
  {
   "property": "C156",
   "status": "partial",
   "theorems": [
    "Verif.Chain.C156_stream16",
    "Verif.Chain.C156_ccu16",
    "Verif.Chain.C156_stream64",
    "Verif.Chain.C156_ccu64",
    "Verif.Chain.C156_mcs9_alone_violated",
    "Verif.Chain.C156_mcs9_first_violated"
   ],
   "note": "proved for streams that begin with a frame of the primary pattern (a sync frame); MCS-9 frames before the first other frame are not delivered since only the primary pattern is searched, and without the secondary pattern the third MCS-9 frame in a row is lost (both proved)"
  },
  {
   "property": "C157",
   "status": "partial",
   "theorems": [
    "Verif.E1.Trace.C157_owned",
    "Verif.E1.Trace.C157_set",
    "Verif.E1.Trace.C157_update",
    "Verif.E1.Trace.C157_no_lapd_violated",
    "Verif.E1.Trace.C157_update_violated"
   ],
   "note": "ownership of descriptors is proved for all histories without clones and shutdown (see C128 for clones); violated by the code: only LAPD instances that exist are traced, and an update of a line ends its trace (proved)"
  },
  {
   "property": "C158",
   "status": "proved",
   "theorems": [
    "Verif.Lapd.C158_params",
    "Verif.Lapd.C158_fixed",
    "Verif.Lapd.C158_profiles"
   ],
   "note": ""
  },
  {
   "property": "C159",
   "status": "proved",
   "theorems": [
    "Verif.Demux.Re.C159_safe_active",
    "Verif.Demux.Re.C159_frames",
    "Verif.Demux.Re.C159_isolation",
    "Verif.Demux.Re.C159_example"
   ],
   "note": "calls of subch_demux_in from within the call-back are not modelled"
  },
  {
   "property": "C160",
   "status": "proved",
   "theorems": [
    "Verif.Chain.Ipa.C160_uplink",
    "Verif.Chain.Ipa.C160_downlink",
    "Verif.Chain.Ipa.C160_example"
   ],
   "note": "messages of 1 to 65535 octets, TEIs other than those of the IPA protocols 0xfe and 0xee"
  },
  {
   "property": "C161",
   "status": "proved",
   "theorems": [
    "Verif.Mux.C161_exact",
    "Verif.Mux.C161_even"
   ],
   "note": "the exact behaviour; where the scratch buffer is overrun is part of the statement"
  },
  {
   "property": "C162",
   "status": "partial",
   "theorems": [
    "Verif.Rs232.Drv.C162_order_partial",
    "Verif.Rs232.Drv.C162_octets",
    "Verif.Rs232.Drv.C162_exact_partial",
    "Verif.Rs232.Drv.C162_paced_partial",
    "Verif.Rs232.Drv.C162_stall_violated",
    "Verif.Rs232.Drv.C162_two_violated",
    "Verif.Rs232.Drv.C162_before_violated"
   ],
   "note": "order and conservation hold for all histories; that every message gets written is violated by the code (write events are not asked for again while messages are queued), the extent is exact"
  },
  {
   "property": "C163",
   "status": "partial",
   "theorems": [
    "Verif.Rs232.Drv.C163_fail_iff",
    "Verif.Rs232.Drv.C163_success_partial",
    "Verif.Rs232.Drv.C163_update_violated",
    "Verif.Rs232.Drv.C163_leak_violated"
   ],
   "note": "violated by the code: a descriptor stays open if its attributes cannot be read or set, and updating a line in operation registers its descriptor twice"
  },
  {
   "property": "C164",
   "status": "partial",
   "theorems": [
    "Verif.IpaProxy.C164_roundtrip_partial",
    "Verif.IpaProxy.C164_long_name_violated",
    "Verif.IpaProxy.C164_duplicate_violated",
    "Verif.IpaProxy.Net.C164_addresses_partial"
   ],
   "note": "holds for names of up to 15 octets and streams used once; violated otherwise"
  },
  {
   "property": "C165",
   "status": "partial",
   "theorems": [
    "Verif.IpaProxy.Net.C165_instance",
    "Verif.IpaProxy.Net.C165_listen_partial",
    "Verif.IpaProxy.Net.C165_connect",
    "Verif.IpaProxy.Net.C165_invalid_violated",
    "Verif.IpaProxy.Net.C165_address_violated"
   ],
   "note": "violated by the code: it listens at 0.0.0.0 whatever address was given, accepts strings that are no address, and takes ports modulo 65536 (proved); the rest holds"
  },
  {
   "property": "C166",
   "status": "partial",
   "theorems": [
    "Verif.Ortp.Net.C166_closed",
    "Verif.Ortp.Net.C166_own_partial",
    "Verif.Ortp.Net.C166_ports",
    "Verif.Ortp.Net.C166_connect",
    "Verif.Ortp.Net.C166_autoconnect",
    "Verif.Ortp.Net.C166_stdin_violated",
    "Verif.Ortp.Net.C166_fresh_violated",
    "Verif.Ortp.Net.C166_rebind_violated"
   ],
   "note": "violated by the code: descriptor 0 is used before the socket is bound (in polling mode also after connecting), and the numbers of closed sockets are used and watched after a bind has failed (proved for all such histories); the half-way failure of a bind inside oRTP is not modelled"
  },
  {
   "property": "C167",
   "status": "proved",
   "theorems": [
    "Verif.Vty.C167_line",
    "Verif.Vty.C167_lines",
    "Verif.Vty.C167_line_faithful",
    "Verif.Vty.C167_slot",
    "Verif.Vty.C167_slots",
    "Verif.Vty.C167_slots_all",
    "Verif.Vty.C167_slot_faithful"
   ],
   "note": "configurations are those of C127 (CfgOk per line), 32 time slots per line; rate counters (stats) are not modelled"
  },
  {
   "property": "C168",
   "status": "partial",
   "theorems": [
    "Verif.Ortp.Log.C168_text_partial",
    "Verif.Ortp.Log.C168_level",
    "Verif.Ortp.Log.C168_newline",
    "Verif.Ortp.Log.C168_domain_violated"
   ],
   "note": "violated by the code: the name of the domain becomes part of the format, so a percent sign in it is taken as a conversion (C168_domain_violated); proved for names without percent signs"
  },
  {
   "property": "C169",
   "status": "partial",
   "theorems": [
    "Verif.IpaProxy.Pair.C169_forward",
    "Verif.IpaProxy.Pair.C169_safe_partial",
    "Verif.IpaProxy.Pair.C169_no_hangup",
    "Verif.IpaProxy.Pair.C169_wake",
    "Verif.IpaProxy.Pair.C169_dst_lost_violated",
    "Verif.IpaProxy.Pair.C169_wake_violated",
    "Verif.IpaProxy.Pair.C169_src_lost_violated",
    "Verif.IpaProxy.Pair.C169_open_failed_violated"
   ],
   "note": "proved for all histories: exactly the routed messages, in their order, each once, translated, are handed to send() or still queued (C169_forward), and no fault unless the destination sends a routed message after the peer is gone (C169_safe_partial). Violated by the code: the loss of one side is not passed on to the other (C169_no_hangup): after the destination is lost nothing is ever sent and all is queued (C169_dst_lost_violated), after the peer is lost its freed connection is used (C169_src_lost_violated); what arrives before the connection to the destination is established is not sent until more arrives (C169_wake, C169_wake_violated); if the client cannot be opened the accepted descriptor is closed while it is still registered (C169_open_failed_violated)"
  },
  {
   "property": "C170",
   "status": "partial",
   "theorems": [
    "Verif.Ortp.Stat.C170_stats",
    "Verif.Ortp.Stat.C170_none",
    "Verif.Ortp.Stat.C170_delta",
    "Verif.Ortp.Stat.C170_samples",
    "Verif.Ortp.Stat.C170_fn_violated",
    "Verif.Ortp.Stat.C170_fn_error"
   ],
   "note": "the statistics and the samples are proved; violated by the code: GSM_FN_TO_MS takes a TDMA frame as 4 ms instead of 120/26 ms, so it is right for no frame number above 1 (C170_fn_violated)"
  },
  {
   "property": "C171",
   "status": "partial",
   "theorems": [
    "Verif.Gw.C171_safe",
    "Verif.Gw.C171_rtp",
    "Verif.Gw.C171_unique",
    "Verif.Gw.C171_stream_unique",
    "Verif.Gw.C171_queued",
    "Verif.Gw.C171_mute",
    "Verif.Gw.C171_e2e_partial",
    "Verif.Gw.C171_alloc_violated",
    "Verif.Gw.C171_fr_violated",
    "Verif.Gw.C171_connect_violated"
   ],
   "note": "proved for all runs from the initial state, if both sockets could be connected and (C171_rtp) oRTP can allocate its packets. Violated by the code: if a packet cannot be allocated its 20 ms are lost from the time stamp (C171_alloc_violated); full rate frames are sent but never accepted, so they are not carried between two gateways (C171_fr_violated, with C171_e2e_partial for enhanced full rate); if the remote address cannot be set the program runs on and never sends or receives a packet (C171_connect_violated)"
  },
  {
   "property": "C172",
   "status": "partial",
   "theorems": [
    "Verif.Gw.Line.C172_safe",
    "Verif.Gw.Line.C172_line",
    "Verif.Gw.Line.C172_uplink",
    "Verif.Gw.Line.C172_downlink",
    "Verif.Gw.Line.C172_clock_violated"
   ],
   "note": "proved: the stream for all histories, as a function of the frames the synchroniser finds (C172_line), and frame by frame while alignment is kept (C172_uplink). Violated by the code: while alignment is lost no call-back is made, so the time stamp stops (C172_clock_violated)"
  }
 ]
}