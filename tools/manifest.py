#!/usr/bin/env python3
# generates MANIFEST.json from the table below: property -> (status, theorems, note)
import json, os
R = "Verif.Raa."
D = "Verif.Demux."
O = "Verif.OldTrau."
X = "Verif.Mux."
S = "Verif.TrauSync."
F = "Verif.Trau."
C = "Verif.RtpConv."
E = "Verif.Ericsson."
LA = "Verif.Lapd."
E1 = "Verif.E1."
PC = "Verif.Pcap."
IC = "Verif.Ipa.Cli."
CC = "Verif.IpaCcm."
IS = "Verif.Ipa.Srv."
IK = "Verif.Ipa.Ka."
IP = "Verif.Ipa."
RS = "Verif.Rs232."
US = "Verif.Us."
PX = "Verif.IpaProxy."
OR = "Verif.Ortp."
GW = "Verif.Gw."
IA = "Verif.IpAccess."
IB = "Verif.IpAccess.Bsc."
IT = "Verif.IpAccess.Bts."
CF = "Verif.IpAccess.Cfg."
VT = "Verif.Vty."
TR = "Verif.Trace."
ED = "Verif.E1d."
DA = "Verif.Dahdi."
MI = "Verif.Misdn."
CH = "Verif.Chain."
T = {
 "C01": ("proved", [R+"C01_ra2_8k", R+"C01_ra2_16k", R+"C01_ra2_8k_rx", R+"C01_ra2_16k_rx"], ""),
 "C02": ("proved", [R+"C02_atrau_roundtrip", R+"C02_atrau_ra2_roundtrip"], ""),
 "C03": ("proved", [R+"C03_atrau_encode_safe"], ""),
 "C04": ("proved", [R+"C04_no_sync_emulation", R+"C04_sync_present"], ""),
 "C05": ("proved", [R+"C05_atrau_decode_safe", R+"C05_atrau_ra2_decode_safe", R+"C05_atrau_bad_header"], ""),
 "C06": ("proved", [D+"C06_demux_frames", D+"C06_demux_active", D+"C06_reachable_valid", D+"C06_init_silent"], ""),
 "C07": ("proved", [D+"C07_demux_chunking"], ""),
 "C08": ("proved", [D+"C08_demux_isolation", D+"C08_demux_inactive"], ""),
 "C09": ("proved", [D+"C09_demux_delivers", D+"C09_wraparound_limit"], "a run of 2^32-16 zero bits before the stream is excluded by the statement; C09_wraparound_limit shows why"),
 "C10": ("proved", [D+"C10_activate_einval", D+"C10_activate_exact", D+"C10_negative_undefined"], "negative sub-channel numbers are undefined behaviour (shift by a negative amount), see C10_negative_undefined"),
 "C11": ("proved", [X+"C11_enqueue_keeps_newest", X+"C11_queue_bounded"], ""),
 "C12": ("partial", [X+"C12_no_overrun_partial", X+"C12_overrun_violated", X+"C12_bit_lost_violated", X+"C161_exact"], "holds for frames of even length; the code violates it for odd lengths (witnesses proved); the behaviour for frames of any length is characterised exactly, see C161"),
 "C13": ("proved", [X+"C13_output", X+"C13_history", X+"C13_eviction_cuts_frames"], ""),
 "C14": ("proved", [X+"C14_mux_demux"], ""),
 "C30": ("proved", [O+"C30_speech_roundtrip", O+"C30_data_roundtrip", O+"C30_decode_total"], ""),
 "C31": ("proved", [O+"C31_up2down", O+"C31_up2down_refused"], ""),
 "C62": ("partial", [D+"C62_reinit_partial", D+"C62_reinit_violated", D+"C62_reinit_iff"], "violated by the code (witness proved); C62_reinit_iff is the exact extent"),
 "C15": ("proved", [S+"C15_chunking"], ""),
 "C16": ("proved", [S+"C16_first_frame", S+"C16_reacquired"], ""),
 "C17": ("proved", [S+"C17_full_frame_needed"], ""),
 "C18": ("proved", [S+"C18_nothing_before", S+"C18_first_match"], ""),
 "C19": ("proved", [S+"C19_keeps_alignment", S+"C19_loss"], ""),
 "C20": ("proved", [S+"C20_no_fault", S+"C20_asserts", S+"C20_assert_needed"], "API calls made from within the frame call-back are not modelled"),
 "C21": ("partial", [S+"C21_tolerance_partial", S+"C21_tolerance_violated", S+"C21_history_exists"], "the code violates it: the error counter is not reset by a loss (proved for every such history); holds once a good frame was received after re-acquisition"),
 "C22": ("partial", [S+"C22_received_bits_partial", S+"C22_fresh_partial", S+"C22_uninit_violated"], "the code violates it after a loss (witness proved); holds until the first loss, and after a loss if the re-acquisition takes at least a frame length of bits"),
 "C23": ("proved", [F+"C23_roundtrip", F+"C23_idle"], ""),
 "C24": ("partial", [F+"C24_oam_partial", F+"C24_oam_violated", F+"C24_oam_exact_partial", F+"C24_survive_iff"], "violated by the code (proved): D bits are shifted; what they become is proved exactly"),
 "C25": ("proved", [F+"C25_roundtrip"], ""),
 "C26": ("partial", [F+"C26_amr67_partial", F+"C26_amr67_violated", F+"C26_amr67_exact_partial"], "violated by the code (proved); the frames that survive are characterised exactly"),
 "C27": ("proved", [F+"C27_encode_buffer", F+"C27_overflow_undefined"], "larger dl_ta_usec values overflow int (undefined behaviour, proved)"),
 "C28": ("partial", [F+"C28_ta16_partial", F+"C28_ta16_uplink", F+"C28_ta16_violated", F+"C28_ta16_exact_partial"], "violated by the code for requests of more than 312 bits (proved); the lengths are proved exactly for every request"),
 "C29": ("proved", [F+"C29_classify", F+"code_unique"], "a buffer holding one more bit than a frame is required for O&M frames, see C64"),
 "C63": ("partial", [F+"C63_deterministic_partial", F+"C63_oam8_violated", F+"C63_amr67_violated", F+"C63_deterministic_iff"], "violated by the code for 8k O&M and AMR 6.7 frames (proved); exactly these"),
 "C64": ("partial", [F+"C64_reads16_partial", F+"C64_reads8_partial", F+"C64_oam_violated", F+"C64_amr67_violated", F+"C64_reads16_iff", F+"C64_reads8_iff"], "violated by the code for every 16k O&M and every 8k AMR 6.7 frame (proved); exactly these"),
 "C65": ("partial", [F+"C65_idle_direction_partial", F+"C65_idle_direction_violated", F+"C65_idle_direction_iff"], "up-link idle frames carry the down-link code (proved)"),
 "C66": ("proved", [F+"C66_wire_layout"], "16k O&M, 8k O&M and 8k AMR 6.7 are excluded, see C24, C26, C63"),
 "C67": ("proved", [F+"C67_ta8"], ""),
 "C68": ("proved", [F+"C68_request", F+"C68_closed_loop16", F+"C68_closed_loop8"], ""),
 "C69": ("proved", [F+"C69_classify8", F+"rows8_unique"], "eight bits more than a frame must be readable for AMR 6.7 frames, see C64"),
 "C32": ("proved", [C+"C32_rtp2trau", C+"C32_rtp2trau_control", C+"C32_trau2rtp", C+"C32_trau2rtp_tw", C+"C32_roundtrip_rtp", C+"C32_roundtrip_rtp_tw", C+"C32_roundtrip_trau", C+"C32_bad_frame", C+"C32_nodata", C+"C32_nodata_roundtrip", C+"C32_malformed", C+"C32_nospace"], "libosmocodec's SID detection is a parameter"),
 "C33": ("proved", [C+"C33_rtp2trau", C+"C33_rtp2trau_control", C+"C33_trau2rtp", C+"C33_trau2rtp_tw", C+"C33_roundtrip_rtp", C+"C33_roundtrip_rtp_tw", C+"C33_roundtrip_trau", C+"C33_burst", C+"C33_single_bit", C+"C33_bad_frame", C+"C33_nodata", C+"C33_malformed"], "libosmocodec's SID detection and CRC-8 helpers are parameters"),
 "C34": ("proved", [C+"C34_rtp2trau_16k", C+"C34_rtp2trau_8k", C+"C34_8k_uplink", C+"C34_malformed", C+"C34_trau2rtp_16k", C+"C34_trau2rtp_16k_tw", C+"C34_trau2rtp_8k", C+"C34_trau2rtp_8k_tw", C+"C34_roundtrip_16k", C+"C34_roundtrip_8k", C+"C34_roundtrip_trau_16k", C+"C34_burst"], ""),
 "C35": ("proved", [C+"C35_trau2rtp_data8", C+"C35_trau2rtp_data16", C+"C35_trau2rtp_hr", C+"C35_rtp2trau_data8", C+"C35_rtp2trau_data16", C+"C35_rtp2trau_hr", C+"C35_roundtrip_data8", C+"C35_roundtrip_data16", C+"C35_roundtrip_hr", C+"C35_roundtrip_rtp_hr", C+"C35_roundtrip_rtp_data8", C+"C35_edata_roundtrip", C+"C35_edata_idle"], ""),
 "C70": ("partial", [S+"C70_patterns", S+"C70_table", S+"C70_encoder", S+"C70_edata_violated"], "the patterns are proved exact; extended data frames do not match any 16k pattern (proved), 8k AMR 6.7 frames are encoded wrongly (C26)"),
 "C71": ("proved", [C+"C71_trau2rtp_safe", C+"C71_rtp2trau_safe"], ""),
 "C72": ("partial", [C+"C72_fr", C+"C72_efr", C+"C72_hr8", C+"C72_hr16_partial", C+"C72_hr16_violated", C+"C72_hr16_iff"], "violated by the code: C15 of an uplink 16k HR frame keeps its old value (proved)"),
 "C73": ("partial", [C+"C73_fr_violated", C+"C73_efr_violated", C+"C73_nodata_partial"], "violated by the code: down-link FR/EFR no-data frames are sent as speech frames (proved)"),
 "C74": ("proved", [C+"C74_fr", C+"C74_efr", C+"C74_hr16", C+"C74_hr8", C+"C74_data8", C+"C74_data16", C+"C74_dataHr", C+"C74_data8k"], ""),
 "C75": ("partial", [C+"C75_nodata_partial", C+"C75_hr8_violated"], "violated by the code for 8k HR in the down-link (proved)"),
 "C36": ("proved", [E+"C36_encode_sync", E+"C36_encode_data", E+"C36_encode_refused", E+"C36_decode_sync", E+"C36_decode_data"], "the encoder handles PCU -> CCU frames and the decoder CCU -> PCU frames, so there is no round trip; the spare bits in front of PSEQ are sent as 1, the diagram in the code shows 0"),
 "C37": ("partial", [E+"C37_decode_sync", E+"C37_decode_data_partial", E+"C37_decode_mcs9_partial", E+"C37_encode_data_partial", E+"C37_encode_sync_partial", E+"C37_encode_refused", E+"C37_encode_data_violated", E+"C37_encode_sync_violated", E+"C37_error_never_signalled_violated", E+"C37_bep_violated", E+"C37_decode_mcs9_violated", E+"C37_mcs9_lost_violated"], "violated by the code (proved): C8 and PC are misplaced, FN_SS is truncated, mean/CV BEP are mixed up, MCS-9 blocks lose 15 bits; everything else is proved exact"),
 "C38": ("proved", [E+"C38_sync16", E+"C38_control16", E+"C38_extended16", E+"C38_tbits16", E+"C38_crc16", E+"C38_sync64", E+"C38_control64", E+"C38_extended64", E+"C38_crc64"], ""),
 "C76": ("proved", [E+"C76_decode", E+"C76_encode16", E+"C76_encode64"], ""),
 "C77": ("partial", [E+"C77_independent_partial", E+"C77_violated", E+"C77_independent_iff"], "violated by the code for every MCS-9 frame (proved)"),
 "C48": ("proved", [LA+"C48_wire_layout", LA+"C48_roundtrip"], "frames for TEI 127 are TEI management, see C51"),
 "C49": ("proved", [LA+"C49_no_fault", LA+"C49_truncated", LA+"C49_badlen_only", LA+"C52_history"], ""),
 "C50": ("partial", [LA+"C50_consumed_once_partial", LA+"C50_violated", LA+"C50_consumed_iff"], "violated by the code for every frame with a truncated header (proved)"),
 "C51": ("proved", [LA+"C51_identity_request", LA+"C51_answers_distinct", LA+"C51_other_ignored", LA+"C52_history", LA+"C51_tei_alloc_duplicates"], "the application must not call the public lapd_tei_alloc() for a registered TEI"),
 "C52": ("proved", [LA+"C52_start_existing", LA+"C52_start_new", LA+"C52_stop", LA+"C52_transmit", LA+"C52_release", LA+"C52_history"], "the data link state machine is libosmocore's: any behaviour on existing data links is allowed"),
 "C53": ("partial", [LA+"C53_alloc2_callbacks", LA+"C53_violated"], "violated by the code: callback and data are swapped (proved); lapd_instance_alloc2 is correct"),
 "C78": ("partial", [LA+"C78_reference_zero_partial", LA+"C78_reference_not_echoed", LA+"C78_reference_iff"], "violated by the code for every non-zero reference number (proved)"),
 "C79": ("proved", [LA+"C79_addressed_only", LA+"C79_unknown_tei"], ""),
 "C80": ("partial", [LA+"C80_usable_partial", LA+"C80_violated", LA+"C80_usable_iff"], "violated by the code for SAPIs above 63, which lapd_sap_start accepts (proved)"),
 "C81": ("partial", [LA+"C81_event_partial", LA+"C81_violated", LA+"C81_safe_iff"], "violated by the code: reads beyond frames of zero and one octets (proved); exactly these"),
 "C82": ("proved", [LA+"C82_freed_exactly_once"], ""),
 "C83": ("proved", [LA+"C83_trace"], ""),
 "C42": ("proved", [E1+"rx_routing"], "the application callback is an action; what it does is a further operation of the history"),
 "C43": ("proved", [E1+"sign_tx_fifo", E1+"tx_ts_sign"], ""),
 "C44": ("partial", [E1+"fair_partial", E1+"fair_later_partial", E1+"fair_violated"], "violated by the code (proved for every number of rounds): links earlier in the list have strict priority; only these can delay a message without end: traffic on its own and on later links cannot (fair_later_partial)"),
 "C45": ("partial", [E1+"config_same_partial", E1+"config_retype_partial", E1+"config_rc", E1+"retype_violated", E1+"retype_every_violated"], "violated by the code (proved): the return value of the cleanup is ignored; re-typing without active links is proved correct"),
 "C46": ("proved", [E1+"line_refcount", E1+"link_keeps_line"], ""),
 "C47": ("proved", [E1+"line_numbers_unique", E1+"line_create_find", E1+"line_create_exact"], ""),
 "C84": ("partial", [E1+"messages_accounted", E1+"messages_conserved_partial", E1+"line_free_leaks_violated"], "violated by the code: messages queued in raw/HDLC timeslots of a freed line are lost (proved); everything else is accounted for"),
 "C85": ("proved", [E1+"link_freed_once"], ""),
 "C86": ("partial", [E1+"queued_wakes_partial", E1+"queued_wakes_violated", E1+"destroy_stuck_every_violated"], "violated by the code whenever a link is destroyed while its timeslot waits for the delay timer (proved); holds for histories without destruction while others wait"),
 "C87": ("partial", [E1+"event_signal", E1+"dlsap_up_map", E1+"event_type_violated", E1+"event_type_every_violated"], "violated by the code only in that the timeslot type is not checked (proved)"),
 "C88": ("partial", [E1+"clone_partial", E1+"clone_configured_violated"], "violated by the code for lines with configured timeslots (proved)"),
 "C89": ("partial", [E1+"ts_get_partial", E1+"ts_get_violated", E1+"ts_get_exact_partial"], "violated by the code for ts_nr 0 and above 32 (proved); the result is characterised for all numbers"),
 "C90": ("partial", [E1+"config_retype_partial", E1+"line_refcount", E1+"sign_timer_violated"], "violated by the code: the timer is not initialised after TRAU/I.460 (proved); sending after other previous types is covered by line_refcount (no fault in any admissible history)"),
 "C91": ("partial", [E1+"pcap_fd_set", E1+"sendmsg_traced", E1+"shutdown_closes", E1+"clone_pcap_violated", E1+"shutdown_lapd_violated"], "violated by the code: clones share the descriptor, LAPD instances keep it after shutdown (proved)"),
 "C92": ("proved", [E1+"tx_trau_len"], ""),
 "C61": ("proved", [PC+"C61_record", PC+"C61_file", PC+"C61_no_file", PC+"C61_short"], "for complete writes; see C93 for short ones"),
 "C93": ("partial", [PC+"C93_before_partial", PC+"C93_whole_partial", PC+"C61_short", PC+"short_write_violated", PC+"open_double_close_violated"], "violated by the code: the fragment of a short write stays in the file, the descriptor is closed twice (proved). Proved: the frames before any failure stay readable, and all frames do if failing writes leave nothing behind"),
 "C94": ("partial", [PC+"C61_sign_file", PC+"C61_sign_header", PC+"sign_direction_violated"], "violated by the code: the packet type is in host order and the same for both directions (proved); everything else holds"),
 "C39": ("proved", [IC+"C39_lifecycle", IC+"C39_no_callback", IC+"C39_open_once", IC+"C39_open", IC+"C39_close_idempotent", IC+"C39_reports"], "for histories in which the object is destroyed while closed and not in the down callback of a failed write, see C95"),
 "C40": ("partial", [IC+"C40_fifo", IC+"C40_freed_once", IC+"C40_write_event", IC+"C40_wake_partial", IC+"C40_wake_violated"], "order and no duplication are proved; violated by the code: a message queued while connecting stays queued because write events are disabled when the connection is established (proved)"),
 "C41": ("proved", [IK+"C41_no_false_alarm", IK+"C41_detects", IK+"C41_report_once", IK+"C41_interval", IK+"C41_next_ping", IK+"C41_stop_silent", IK+"C41_start", IK+"C41_terminates"], "for non-zero parameters; wait_zero_violated and interval_zero_violated show what happens otherwise; a generic connection needs a send callback (generic_no_send_violated)"),
 "C95": ("partial", [IC+"C39_lifecycle", IC+"destroy_in_down_violated", IC+"destroy_open_violated"], "violated by the code in the down callback of a failed write and while the connection is open (proved); C39_lifecycle covers destruction in all other situations"),
 "C96": ("partial", [IC+"C40_freed_once", IC+"C40_lossless_violated", IC+"stale_queue_sent", IC+"no_read_cb_leaks_violated"], "violated by the code (proved): short writes and EAGAIN lose data silently, the queue survives a reconnect, received messages leak without callback"),
 "C97": ("proved", [IS+"server_lifecycle", IS+"server_once", IS+"server_lost"], "callbacks follow the documented contract: -EBADF after destruction in the read callback, no error from ccm_cb after destruction"),
 "C98": ("proved", [IS+"server_fifo", IS+"server_write_event"], ""),
 "C99": ("partial", [IS+"server_fifo", IS+"server_queue_leaked_violated", IS+"server_send_error_violated"], "violated by the code (proved)"),
 "C100": ("partial", [IS+"server_ccm", IS+"server_ccm_cb_error", IS+"server_ccm_result_violated", IS+"server_ccm_destroy_violated", IS+"server_ccm_null_violated"], "the handling is proved; violated by the code: returning its result -1 from the read callback is a use after free (proved)"),
 "C101": ("partial", [IS+"link_fds", IS+"link_open_twice_violated", IS+"link_open_twice_every_violated"], "descriptor accounting is proved; opening twice is never refused (proved)"),
 "C102": ("proved", [IP+"ipa_header_roundtrip"], ""),
 "C56": ("proved", [RS+"C56_fragmentation", RS+"C56_roundtrip", RS+"C56_header"], "payloads up to 290 octets, the size of the buffer; a frame with an announced length of 0 is delivered one event late (zero_length_delayed)"),
 "C57": ("partial", [RS+"C57_safe_partial", RS+"C57_overrun_violated", RS+"C57_use_after_free_violated", RS+"C57_safe_iff"], "violated by the code: frames announcing more than 298 octets overrun the buffer, and after a read error the freed buffer is used (both proved); safe otherwise; without read errors it is safe exactly if no frame has more than 300 octets (proved)"),
 "C103": ("partial", [RS+"write_complete_partial", RS+"short_write_violated", RS+"no_callback_leaks_violated", RS+"no_callback_every_violated", RS+"C103_complete_iff"], "violated by the code for short writes and lines without callback (proved)"),
 "C58": ("proved", [US+"C58_roundtrip", US+"C58_accepted", US+"C58_control"], "frames of up to 1582 octets; longer packets are truncated (C58_accepted)"),
 "C104": ("partial", [US+"C104_descriptors_partial", US+"C104_stale_fd_violated", US+"C104_stdin_violated", US+"C104_update_violated"], "violated by the code after a failed reconnection, before the first connection and when a connected line is updated (all proved); holds otherwise"),
 "C105": ("partial", [US+"C105_altc_first", US+"C105_reconnect", US+"C105_no_retry_violated"], "the first packet and the immediate reconnection are proved; violated by the code: a failed reconnection is not retried (proved)"),
 "C106": ("partial", [US+"C106_wake_partial", US+"C106_wake_violated"], "violated by the code: a reconnection disables write events (proved)"),
 "C54": ("partial", [PX+"C54_forwarding", PX+"C54_identity_partial", PX+"C54_swapped_violated", PX+"C54_first_route_violated", PX+"C54_src_closed_violated"], "violated by the code: the translation tables are used in the wrong direction, and routes other than the first use freed objects after its deletion (proved); what is forwarded is characterised exactly for all admissible histories, and the property holds if no stream id is changed"),
 "C55": ("partial", [PX+"C55_duplicate_partial", PX+"C55_duplicate_violated", PX+"C55_refused_iff"], "violated by the code: only the first route between two instances is compared (proved)"),
 "C107": ("proved", [PX+"C107_refcount", PX+"C107_delete"], ""),
 "C108": ("partial", [PX+"C108_delete_partial", PX+"C108_last_route_violated", PX+"C108_unknown_instance_violated", PX+"C108_overlap_violated", PX+"C108_instance_fault_iff", PX+"C108_route_fault_iff"], "violated by the code when the last route between two instances or an unknown instance is deleted or streams overlap (all proved); holds for all other histories"),
 "C109": ("partial", [PX+"C109_names_partial", PX+"C109_long_name_violated", PX+"C109_names_iff"], "violated by the code for names of 16 and more octets (proved); holds for shorter names"),
 "C60": ("proved", [OR+"C60_timestamp", OR+"C60_only_send"], "a frame that cannot be allocated does not advance the clock, one that cannot be sent does"),
 "C110": ("proved", [OR+"C110_disabled"], ""),
 "C111": ("partial", [OR+"C111_registration_partial", OR+"C111_registered", OR+"C111_reconnect_violated"], "violated by the code: every second connect of a listening socket registers the descriptors again (proved); holds for sockets connected at most once and in polling mode"),
 "C112": ("proved", [OR+"C112_receive"], ""),
 "C113": ("proved", [OR+"C113_params"], ""),
 "C59": ("proved", [IA+"C59_roundtrip", IA+"C59_oml", IA+"C59_slot", IA+"C59_refused"], "the TRX number derived from the OML time slot is 0, like that of TRX 0; the type of the link tells them apart (C59_slot)"),
 "C114": ("proved", [IB+"C114_lines", IB+"C114_slots", IB+"C114_sign_slots"], ""),
 "C115": ("partial", [IB+"C115_attached_partial", IB+"C115_reconnect_violated", IB+"C115_reconnect_every_violated"], "violated by the code: the end of an old connection detaches the new one of the same TRX (proved for all such histories); holds if the time slot is free when a BTS connects"),
 "C116": ("partial", [IB+"C116_safe_partial", IB+"C116_trx_violated", IB+"C116_every_trx_violated", IB+"C116_assert_violated"], "violated by the code: TRX numbers above 30 are a null pointer dereference, a repeated identification aborts (proved); safe for all histories with well-behaved peers"),
 "C117": ("partial", [IB+"C117_keepalive_partial", IB+"C117_timeout_violated", IB+"C117_dangling_violated"], "violated by the code: every expiry uses a freed object, and a connection that changes its line leaves a dangling FSM (proved)"),
 "C118": ("partial", [IB+"C118_sent", IB+"C118_not_held", IB+"C118_channel", IB+"C118_receive", IB+"C118_pcap_violated"], "proved for links of the known types; violated by the code: a dropped message of another type is used after free if the line is traced (proved)"),
 "C119": ("proved", [IT+"C119_exact", IT+"C119_lineUpdate", IT+"C119_rslConnect", IT+"C119_rslClose", IT+"C119_connected", IT+"C119_ping"], "TRX numbers without a time slot: see C120"),
 "C120": ("partial", [IT+"C120_safe_partial", IT+"C120_step_iff", IT+"C120_safe_iff", IT+"C120_pong_violated", IT+"C120_pong_reachable", IT+"C120_empty_violated", IT+"C120_timeout_violated", IT+"C120_trx_violated", IT+"C120_closed_violated", IT+"C120_pcap_violated"], "violated by the code: a PONG without keepalive, an empty CCM message, every keepalive expiry, TRX numbers above 30, use of links of closed clients and traced messages of unconnected clients (all proved); safe for all other histories"),
 "C121": ("proved", [IT+"C121_identity", IT+"C121_same_slot"], ""),
 "C122": ("proved", [IT+"C122_fates", IT+"C122_sent", IT+"C122_only", IT+"C122_receive"], "abis_sendmsg() returns 0 also for dropped messages"),
 "C123": ("partial", [CF+"C123_settings_partial", CF+"C123_swapped_violated", CF+"C123_iff"], "violated by the code: DSCP and priority are swapped at all four places (proved); addresses and ports are right"),
 "C124": ("proved", [VT+"C124_tcp"], "for values set by commands; the API allows values that overflow (example)"),
 "C125": ("partial", [CF+"C125_update_partial", CF+"C125_first", CF+"C125_retry_violated", CF+"C125_second_line_violated"], "violated by the code: after a failure of the RSL socket every retry fails, as does every second line (proved); the rest is proved"),
 "C126": ("partial", [VT+"C126_roundtrip_partial", VT+"C126_socket_violated", VT+"C126_no_lines_violated"], "violated by the code: socket paths, and without lines the settings of the IPA driver, are not written (proved); holds otherwise. Commands are modelled after they were split into words by libosmovty"),
 "C127": ("partial", [VT+"C127_effect", VT+"C127_nonexistent_partial", VT+"C127_noPcap_violated", VT+"C127_safe", VT+"C127_driver", VT+"C127_invariant", VT+"C127_fault_iff"], "violated by the code: `no e1_line pcap` for a line that does not exist follows a null pointer (proved); holds for all other commands"),
 "C128": ("partial", [TR+"C128_line", TR+"C128_all_partial", TR+"C128_clone_violated", TR+"C128_lapd_violated"], "violated by the code: clones keep the descriptor of a trace that was stopped, LAPD instances created later are not traced (proved); holds for the line itself in all histories"),
 "C129": ("partial", [TR+"C129_keepalive_partial", TR+"C129_stale_violated"], "violated by the code: clones keep a pointer to parameters that were freed (proved); holds if they are not changed while there are connections"),
 "C130": ("partial", [ED+"C130_descriptors_partial", ED+"C130_assert", ED+"C130_unregistered_twice_violated", ED+"C130_leak_violated"], "violated by the code if the daemon reports fewer time slots than before, and buffers leak on read errors and short blocks (proved); holds for all histories with a daemon that reports all time slots"),
 "C131": ("proved", [ED+"C131_retry", ED+"C131_started", ED+"C131_reconnect", ED+"C131_again", ED+"C131_update"], "for a daemon that reports all time slots; an update of a connected line relies on the modes the daemon reports"),
 "C132": ("proved", [ED+"C132_fifo", ED+"C132_receive", ED+"C132_short_write_violated"], "what is given to write() is exact; a short write loses the rest of the message (C132_short_write_violated)"),
 "C133": ("partial", [ED+"C133_watched_partial", ED+"C133_drain", ED+"C133_update_violated", ED+"C133_reconnect_violated"], "violated by the code: an update of the line and a reconnection stop the watching (proved); holds for histories without them"),
 "C134": ("partial", [ED+"C134_rev", ED+"C134_block", ED+"C134_paced", ED+"C134_i460_violated"], "proved for TRAU time slots; I.460 time slots are opened but never served (proved for all histories)"),
 "C135": ("partial", [ED+"C135_alarm_partial", ED+"C135_unknown", ED+"C135_truncated_violated", ED+"C135_other_driver_violated", ED+"C135_truncated_every_violated", ED+"C135_first_every_violated", ED+"C135_alarm_iff"], "violated by the code for interfaces above 15 and lines of other drivers with the same port number (proved); holds if port numbers are unique"),
 "C136": ("partial", [DA+"C136_channel_number_partial", DA+"C136_channel_number_unique", DA+"C136_port_violated", DA+"C136_span_violated"], "violated by the code: ports above 127 and spans with more than 32 channels are accessed behind the end of arrays (proved); holds otherwise"),
 "C137": ("partial", [DA+"C137_descriptors_partial", DA+"C137_stdin_violated", DA+"C137_release_violated", DA+"C137_retry_violated"], "violated by the code for the descriptor 0, for freed lines and in that a failed open is never repeated (proved); holds for all other histories"),
 "C138": ("partial", [DA+"C138_as_configured_partial", DA+"C138_update_frame", DA+"C138_safe_partial", DA+"C138_hdlc_violated", DA+"C138_failed_update_violated"], "violated by the code: HDLC keeps the LAPD instance of a former use, a failed update leaves a signalling time slot without one (proved); the rest holds for all histories, and all proper ones are safe when requests succeed"),
 "C139": ("partial", [DA+"C139_hdlc_roundtrip_partial", DA+"C139_short_violated", DA+"C139_lapd_frames", DA+"C139_hdlc_exact_partial"], "violated by the code for messages of one octet (proved); holds for 2 to 282 octets; what is delivered is characterised for all lengths"),
 "C140": ("partial", [DA+"C140_order", DA+"C140_config_frees", DA+"C140_wake_partial", DA+"C140_progress", DA+"C140_idle", DA+"C140_stuck_violated"], "order and completeness are proved for all histories; an update of the line stops the watching while messages are queued (proved)"),
 "C141": ("proved", [DA+"C141_rev_bits", DA+"C141_trau_block", DA+"C141_i460_block", DA+"C141_raw_block", DA+"C141_short_block"], ""),
 "C142": ("proved", [DA+"C142_events_exact", DA+"C142_lapd_events_exact"], ""),
 "C143": ("proved", [MI+"C143_coherent", MI+"C143_alternate", MI+"C143_indication_exact", MI+"C143_means_unique"], ""),
 "C144": ("partial", [MI+"C144_descriptors_partial", MI+"C144_stdin_violated", MI+"C144_release_violated"], "false if the standard input is closed (descriptor 0 is never closed) and if a line is freed (its descriptors stay registered); proved for all other histories"),
 "C145": ("partial", [MI+"C145_as_configured_partial", MI+"C145_d_channel", MI+"C145_suits", MI+"C145_complete", MI+"C145_untouched", MI+"C145_retry_violated", MI+"C145_i460_violated"], "false after a failed request: later updates return 0 without repeating it; I.460 time slots are bound to channel 0 and not served; the rest is proved"),
 "C146": ("partial", [MI+"C146_order", MI+"C146_flow", MI+"C146_sign_awake", MI+"C146_b_awake_partial", MI+"C146_progress", MI+"C146_config_frees", MI+"C146_idle", MI+"C146_short_violated", MI+"C146_early_violated"], "order and flow control are proved; a refused block, or a message sent before the first update, leaves the queue without event (proved)"),
 "C147": ("proved", [MI+"C147_rev_bits", MI+"C147_receive", MI+"C147_send"], ""),
 "C148": ("partial", [MI+"C148_safe_partial", MI+"C148_no_leak_partial", MI+"C148_short_frame_violated", MI+"C148_room_violated", MI+"C148_retype_violated", MI+"C148_leak_violated"], "proved for histories that use the API properly; witnesses for frames without header, messages without room, retyped time slots and lost buffers"),
 "C149": ("proved", [MI+"C149_channel", MI+"C149_lookup", MI+"C149_send", MI+"C149_receive"], ""),
 "C150": ("partial", [MI+"C150_sa_exact_partial", MI+"C150_sa_round", MI+"C150_unused_violated"], "the request is exact; if time slot 16 is not in use it is written to descriptor 0"),
 "C151": ("proved", [CH+"C151_blocks", CH+"C151_stream", CH+"C151_decoded"], "frame types the synchroniser can follow (see C70), sent in their standard length"),
 "C152": ("proved", [CH+"C152_clean", CH+"C152_mux"], "all types but extended data, which has no alignment bits behind the first 17"),
 "C153": ("proved", [CH+"C153_sender", CH+"C153_sync", CH+"C153_mux"], "up-link, receiver without TW-TS-001 extension"),
 "C154": ("partial", [S+"C154_no_fault", S+"C154_silent", S+"C154_new_pattern_violated", S+"C154_chunking_partial", S+"C154_next_call_partial", S+"C154_next_call_exists"], "safety is proved for every admissible user; after a change made while a frame is delivered the rest of the buffer is still cut into frames without the new pattern being found, and the division into calls shows (proved); both hold for changes on loss of alignment, and from the next call on"),
 "C155": ("partial", [CC+t for t in ("C155_other","C155_id_get","C155_result","C155_silent","C155_slot","C155_same_slot","C155_safe_partial","C155_safe_iff","C155_pong_violated","C155_empty_violated","C155_short_ack_violated","C155_queue_violated")], "crashes on a PONG without keepalive FSM and on an empty CCM message; a short write of the ID ACK is not noticed; -1 returned through the read callback loses a queued message (all proved)"),
 "C156": ("partial", [CH+t for t in ("C156_stream16","C156_ccu16","C156_stream64","C156_ccu64","C156_mcs9_alone_violated","C156_mcs9_first_violated")], "proved for streams that begin with a frame of the primary pattern (a sync frame); MCS-9 frames before the first other frame are not delivered since only the primary pattern is searched, and without the secondary pattern the third MCS-9 frame in a row is lost (both proved)"),
 "C157": ("partial", ["Verif.E1.Trace."+t for t in ("C157_owned","C157_set","C157_update","C157_no_lapd_violated","C157_update_violated")], "ownership of descriptors is proved for all histories without clones and shutdown (see C128 for clones); violated by the code: only LAPD instances that exist are traced, and an update of a line ends its trace (proved)"),
 "C162": ("partial", [RS+"Drv."+t for t in ("C162_order_partial","C162_octets","C162_exact_partial","C162_paced_partial","C162_stall_violated","C162_two_violated","C162_before_violated")], "order and conservation hold for all histories; that every message gets written is violated by the code (write events are not asked for again while messages are queued), the extent is exact"),
 "C163": ("partial", [RS+"Drv."+t for t in ("C163_fail_iff","C163_success_partial","C163_update_violated","C163_leak_violated")], "violated by the code: a descriptor stays open if its attributes cannot be read or set, and updating a line in operation registers its descriptor twice"),
 "C164": ("partial", [PX+t for t in ("C164_roundtrip_partial","C164_long_name_violated","C164_duplicate_violated","Net.C164_addresses_partial")], "holds for names of up to 15 octets and streams used once; violated otherwise"),
 "C166": ("partial", [OR+"Net."+t for t in ("C166_closed","C166_own_partial","C166_ports","C166_connect","C166_autoconnect","C166_stdin_violated","C166_fresh_violated","C166_rebind_violated")], "violated by the code: descriptor 0 is used before the socket is bound (in polling mode also after connecting), and the numbers of closed sockets are used and watched after a bind has failed (proved for all such histories); the half-way failure of a bind inside oRTP is not modelled"),
 "C167": ("proved", [VT+t for t in ("C167_line","C167_lines","C167_line_faithful","C167_slot","C167_slots","C167_slots_all","C167_slot_faithful")], "configurations are those of C127 (CfgOk per line), 32 time slots per line; rate counters (stats) are not modelled"),
 "C168": ("partial", [OR+"Log."+t for t in ("C168_text_partial","C168_level","C168_newline","C168_domain_violated")], "violated by the code: the name of the domain becomes part of the format, so a percent sign in it is taken as a conversion (C168_domain_violated); proved for names without percent signs"),
 "C169": ("partial", [PX+"Pair."+t for t in ("C169_forward","C169_safe_partial","C169_no_hangup","C169_wake","C169_dst_lost_violated","C169_wake_violated","C169_src_lost_violated","C169_open_failed_violated")], "proved for all histories: exactly the routed messages, in their order, each once, translated, are handed to send() or still queued (C169_forward), and no fault unless the destination sends a routed message after the peer is gone (C169_safe_partial). Violated by the code: the loss of one side is not passed on to the other (C169_no_hangup): after the destination is lost nothing is ever sent and all is queued (C169_dst_lost_violated), after the peer is lost its freed connection is used (C169_src_lost_violated); what arrives before the connection to the destination is established is not sent until more arrives (C169_wake, C169_wake_violated); if the client cannot be opened the accepted descriptor is closed while it is still registered (C169_open_failed_violated)"),
 "C170": ("partial", [OR+"Stat."+t for t in ("C170_stats","C170_none","C170_delta","C170_samples","C170_fn_violated","C170_fn_error")], "the statistics and the samples are proved; violated by the code: GSM_FN_TO_MS takes a TDMA frame as 4 ms instead of 120/26 ms, so it is right for no frame number above 1 (C170_fn_violated)"),
 "C171": ("partial", [GW+t for t in ("C171_safe","C171_rtp","C171_unique","C171_stream_unique","C171_queued","C171_mute","C171_e2e_partial","C171_alloc_violated","C171_fr_violated","C171_connect_violated")], "proved for all runs from the initial state, if both sockets could be connected and (C171_rtp) oRTP can allocate its packets. Violated by the code: if a packet cannot be allocated its 20 ms are lost from the time stamp (C171_alloc_violated); full rate frames are sent but never accepted, so they are not carried between two gateways (C171_fr_violated, with C171_e2e_partial for enhanced full rate); if the remote address cannot be set the program runs on and never sends or receives a packet (C171_connect_violated)"),
 "C172": ("partial", [GW+"Line."+t for t in ("C172_safe","C172_line","C172_uplink","C172_downlink","C172_clock_violated")], "proved: the stream for all histories, as a function of the frames the synchroniser finds (C172_line), and frame by frame while alignment is kept (C172_uplink). Violated by the code: while alignment is lost no call-back is made, so the time stamp stops (C172_clock_violated)"),
 "C165": ("partial", [PX+"Net."+t for t in ("C165_instance","C165_listen_partial","C165_connect","C165_invalid_violated","C165_address_violated")], "violated by the code: it listens at 0.0.0.0 whatever address was given, accepts strings that are no address, and takes ports modulo 65536 (proved); the rest holds"),
 "C161": ("proved", [X+"C161_exact", X+"C161_even"], "the exact behaviour; where the scratch buffer is overrun is part of the statement"),
 "C160": ("proved", ["Verif.Chain.Ipa."+t for t in ("C160_uplink","C160_downlink","C160_example")], "messages of 1 to 65535 octets, TEIs other than those of the IPA protocols 0xfe and 0xee"),
 "C159": ("proved", ["Verif.Demux.Re."+t for t in ("C159_safe_active","C159_frames","C159_isolation","C159_example")], "calls of subch_demux_in from within the call-back are not modelled"),
 "C158": ("proved", ["Verif.Lapd."+t for t in ("C158_params","C158_fixed","C158_profiles")], ""),
}
out = {"claims": [{"property": k, "status": v[0], "theorems": v[1], "note": v[2]} for k, v in sorted(T.items(), key=lambda kv: int(kv[0][1:]))]}
json.dump(out, open(os.path.join(os.path.dirname(__file__), "..", "MANIFEST.json"), "w"), indent=1)
