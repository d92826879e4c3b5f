#!/usr/bin/env python3
# Generates /verif/properties.jsonl (one property per line).  Run from anywhere.
import json, os
P = []
def p(title, statement, quantifier, why, *anchors):
    P.append(dict(id="C%02d" % (len(P)+1), title=title, statement=statement,
                  quantifier=quantifier, why_tests_cant=why, anchors=list(anchors)))

# ---- RA2 / RAA'
p("RA2 rate adaption is lossless",
  "Unpacking what osmo_csd_ra2_8k_pack / osmo_csd_ra2_16k_pack produced returns the original bits, every unused bit of every produced octet is 1, and unpacking depends only on the 1 (8k) or 2 (16k) most significant bits of each octet.",
  "all buffer lengths and all bit contents, all received octets",
  "unit tests use a few vectors; the claim is for every length and content",
  "src/trau/csd_ra2.c:osmo_csd_ra2_8k_pack", "src/trau/csd_ra2.c:osmo_csd_ra2_8k_unpack", "src/trau/csd_ra2.c:osmo_csd_ra2_16k_pack", "src/trau/csd_ra2.c:osmo_csd_ra2_16k_unpack")
p("A-TRAU frames carry any user data unchanged",
  "osmo_csd144_from_atrau_bits applied to the output of osmo_csd144_to_atrau_bits returns 0 and hands back exactly the given M-bits, 288 D-bits, C4 and C5; the same holds through the RA2 octet form.",
  "all 2^292 combinations of D-bits, M-bits, C4 and C5",
  "2^292 inputs; the zero-substitution code has data dependent control flow",
  "src/trau/raa_prime_encode.c:osmo_csd144_to_atrau_bits", "src/trau/raa_prime_decode.c:osmo_csd144_from_atrau_bits", "src/trau/raa_prime_encode.c:osmo_csd144_to_atrau_ra2", "src/trau/raa_prime_decode.c:osmo_csd144_from_atrau_ra2")
p("A-TRAU encoder stays in its buffers",
  "osmo_csd144_to_atrau_bits never fires its assertions, never writes more than 4 entries into its position table and writes exactly the 320 output bits.",
  "all user data", "needs all zero-run patterns of each 36-bit subframe",
  "src/trau/raa_prime_encode.c:find_z_seqs", "src/trau/raa_prime_encode.c:atrau_pack_subframe")
p("A-TRAU frames never emulate the frame sync pattern",
  "In any back-to-back stream of frames produced by osmo_csd144_to_atrau_bits, a 1 preceded by at least 16 zeros occurs only at bit 16 of a frame (the true sync position).",
  "all streams of any number of encoded frames with any contents", "unbounded streams of arbitrary user data",
  "src/trau/raa_prime_encode.c:atrau_pack_subframe", "src/trau/raa_prime_encode.c:encode_zsp")
p("A-TRAU decoder is safe on arbitrary input",
  "osmo_csd144_from_atrau_bits on any 320 received bits terminates with 0 or -EINVAL, never asserts, never reads outside the 320 bits and never writes outside the 288 D-bits.",
  "all 2^320 received frames", "input is attacker/line controlled; 2^320 frames",
  "src/trau/raa_prime_decode.c:decode_subframe", "src/trau/raa_prime_decode.c:decode_zsp")
# ---- demux
p("Sub-channel demux: every delivered frame is a well-formed, complete frame",
  "For any sequence of subch_demux_activate/deactivate/in calls after subch_demux_init on a zeroed structure, every callback carries exactly 320 bits, starting with 16 zeros and a one, on a currently active sub-channel, and the per-channel bit buffer is never written out of bounds. Until a sub-channel is activated, nothing is delivered.",
  "all call histories and all input bytes", "unbounded histories",
  "src/subchan_demux.c:subch_demux_in", "src/subchan_demux.c:append_bit_resync_out", "src/subchan_demux.c:resync_to_here")
p("Sub-channel demux output does not depend on how the input is chunked",
  "Feeding the bytes a and then b to subch_demux_in produces the same callbacks in the same order and the same final state as feeding a followed by b in one call.",
  "all splits of all byte streams, all states", "all schedules of read() sizes",
  "src/subchan_demux.c:subch_demux_in")
p("Sub-channels are isolated from each other",
  "The frames delivered for sub-channel c depend only on bits 2c and 2c+1 of the input bytes and on c's own state; other sub-channels being active or not and their data do not matter.",
  "all streams, all activation masks, all sub-channels", "product of all contents of the other three sub-channels",
  "src/subchan_demux.c:subch_demux_in")
p("Sub-channel demux delivers every frame of an aligned stream",
  "When an active sub-channel in any state (in which fewer than 2^32-16 zero bits in a row were just received) receives a concatenation of 320-bit frames each starting with 16 zeros and a one and not otherwise emulating sync, exactly those frames are delivered, once each and in order, with at most one additional (stale, partially filled) frame before the first one.",
  "all starting states, all numbers and contents of frames", "unbounded streams from arbitrary states",
  "src/subchan_demux.c:append_bit_resync_out", "src/subchan_demux.c:sync_hdr_complete")
p("Demux activation argument check",
  "subch_demux_activate/deactivate return -EINVAL and change nothing for sub-channel numbers >= 4, and for 0..3 change exactly the activity of that sub-channel.",
  "all sub-channel numbers and states", "all histories",
  "src/subchan_demux.c:subch_demux_activate", "src/subchan_demux.c:subch_demux_deactivate")
# ---- mux
p("Mux transmit queue is bounded and drops oldest first",
  "After any sequence of subchan_mux_enqueue and subchan_mux_out calls no sub-channel queues more than 3 frames, and when an enqueue evicts, it evicts the oldest frames and keeps the newest.",
  "all call histories", "unbounded histories",
  "src/subchan_demux.c:subchan_mux_enqueue", "src/subchan_demux.c:tx_queue_evict")
p("Mux output never overruns its scratch buffer",
  "subchan_mux_out never copies more than the two requested bits per sub-channel and byte into its 8-bit scratch buffer.",
  "all queues of frames of any length", "depends on unusual entry lengths and histories",
  "src/subchan_demux.c:get_subch_bits", "src/subchan_demux.c:mux_output_byte")
p("Mux emits each queued frame in order, gap-free, padded with idle frames",
  "For frames of even length the bits leaving on a sub-channel are the concatenation of the queued frames in FIFO order, with a complete idle TRAU frame inserted exactly when the queue is empty, and subchan_mux_out always returns the requested length.",
  "all queue contents and all request lengths", "unbounded histories",
  "src/subchan_demux.c:subchan_mux_out", "src/subchan_demux.c:get_subch_bits")
p("Mux followed by demux reproduces the frames",
  "Frames enqueued on the four sub-channels of a muxer whose output octets are fed to a demuxer come out unchanged, in order and on the same sub-channel.",
  "all frames without sync emulation on all four sub-channels", "composition over unbounded histories",
  "src/subchan_demux.c:subchan_mux_out", "src/subchan_demux.c:subch_demux_in")
# ---- trau sync
p("TRAU sync output does not depend on input chunking",
  "Calling osmo_trau_sync_rx_ubits with a then b yields the same callbacks and state as calling it once with a followed by b.",
  "all splits of all bit streams, all reachable states, all patterns", "all schedules of read() sizes",
  "src/trau/trau_sync.c:osmo_trau_sync_rx_ubits", "src/trau/trau_sync.c:trau_sync_aligned", "src/trau/trau_sync.c:trau_sync_wait_align")
p("TRAU sync: frame delivered on acquisition is the last frame-length of received bits and matches the pattern",
  "The frame delivered when alignment is acquired has exactly the pattern length, equals the most recently received bits and matches the primary pattern in every masked bit.",
  "all bit streams after osmo_trau_sync_alloc and all patterns", "unbounded streams; ring-buffer wrap-around",
  "src/trau/trau_sync.c:rx_history_align", "src/trau/trau_sync.c:correlate_history_against_pattern")
p("TRAU sync needs a full frame of real input before the first delivery",
  "After osmo_trau_sync_alloc no callback is made before at least one complete frame length of bits has been received, for every registered pattern.",
  "all patterns, all streams shorter than a frame", "all start-up streams",
  "src/trau/trau_sync.c:osmo_trau_sync_alloc", "src/trau/trau_sync.c:sync_patterns")
p("TRAU sync acquires alignment at the first matching window",
  "From a fresh instance alignment is acquired exactly at the first bit position at which the last frame-length of received bits match the primary pattern; earlier nothing is delivered.",
  "all streams and patterns", "unbounded streams",
  "src/trau/trau_sync.c:trau_sync_wait_align")
p("TRAU sync declares loss exactly on the third consecutive errored frame",
  "While aligned, consecutive blocks of frame length are delivered as frames; a NULL callback is made exactly when three consecutive blocks each fail all configured patterns, that third block is not delivered, and otherwise alignment is kept.",
  "all block sequences, all patterns, starting from a fresh alignment", "unbounded streams",
  "src/trau/trau_sync.c:trau_sync_aligned")
p("TRAU sync never asserts or leaves its history buffer",
  "No sequence of rx_ubits, set_pat, set_secondary_pat (with equal length and valid index) and timer expiries fires an assertion or indexes outside the history buffer.",
  "all API call histories", "unbounded histories",
  "src/trau/trau_sync.c:rx_history_add_bits", "src/trau/trau_sync.c:correlate_history_against_pattern")
p("TRAU sync tolerance after re-acquisition",
  "After alignment was lost and re-acquired, again three consecutive errored frames are needed before the next loss is declared.",
  "all streams leading to loss and re-acquisition", "history dependent",
  "src/trau/trau_sync.c:trau_sync_aligned", "src/trau/trau_sync.c:num_consecutive_errors")
p("TRAU sync delivers only received bits",
  "Every frame delivered consists only of bits received through osmo_trau_sync_rx_ubits, also on re-acquisition after a loss.",
  "all streams and all contents of uninitialised stack memory", "depends on indeterminate memory contents",
  "src/trau/trau_sync.c:rx_history_align")
# ---- trau frame (libosmotrau)
p("16k TRAU frames round-trip",
  "For each of FR, EFR, AMR, HR, DATA, DATA_HR, D145_SYNC and EDATA frames osmo_trau_frame_decode_16k(osmo_trau_frame_encode(f)) returns 0 and the same type, direction, C-bits, D-bits and T-bits (M-bits for EDATA, CRC and UFI for HR); an IDLE frame decodes as IDLE with all control and data bits behind the type code set.",
  "all C/D/T/M bit contents valid for the frame type", "2^280 contents per type",
  "src/trau/trau_frame.c:osmo_trau_frame_encode", "src/trau/trau_frame.c:osmo_trau_frame_decode_16k")
p("16k O&M TRAU frames round-trip",
  "Encoding and decoding a 16k O&M frame returns its C-, D- and S-bits.",
  "all O&M contents", "2^264 contents",
  "src/trau/trau_frame.c:encode16_oam", "src/trau/trau_frame.c:decode16_oam")
p("8k TRAU frames round-trip",
  "For each 8k sub-type (HR, AMR low, AMR 7.4, DATA, OAM) osmo_trau_frame_decode_8k(osmo_trau_frame_encode(f), dir) returns 0 and the same contents.",
  "all contents", "2^130 contents per type",
  "src/trau/trau_frame.c:osmo_trau_frame_decode_8k", "src/trau/trau_frame.c:osmo_trau_frame_encode")
p("8k AMR 6.7 frames round-trip",
  "An encoded 8k AMR 6.7 kbit/s frame is recognised as such by osmo_trau_frame_decode_8k and returns the encoded bits.",
  "all contents", "all contents",
  "src/trau/trau_frame.c:encode8_amr_67", "src/trau/trau_frame.c:decode8_amr_67")
p("TRAU frame encode respects the output buffer",
  "osmo_trau_frame_encode either returns a negative error without touching the buffer or writes at most n_bits bits and returns the number written (for time alignment values whose multiplication by 4 does not overflow int).",
  "all frames, all buffer sizes, all timing adjustments", "all sizes and TA values",
  "src/trau/trau_frame.c:osmo_trau_frame_encode", "src/trau/trau_frame.c:encode16_handle_ta")
p("Time alignment of 16k downlink frames lengthens or shortens the frame as requested",
  "For a requested downlink time alignment of t us the 16k frame is lengthened by t/62.5 us bits (limited to 312), or shortened by at most 4 bits for negative t.",
  "all requested alignments", "all integers",
  "src/trau/trau_frame.c:encode16_handle_ta")
p("16k frame type classification is total and table-exact",
  "osmo_trau_frame_decode_16k classifies any 320 bits by C1..C5 exactly per the documented table and returns -EINVAL for all other codes.",
  "all 2^320 inputs", "2^320 inputs",
  "src/trau/trau_frame.c:osmo_trau_frame_decode_16k")
# ---- old API
p("Legacy TRAU frame codec round-trips",
  "decode_trau_frame(encode_trau_frame(f)) gives back f for full-rate, EFR, idle and data frames, and decoding arbitrary 320 bits never fails for supported types.",
  "all frame contents", "2^280 contents",
  "src/trau_frame.c:encode_trau_frame", "src/trau_frame.c:decode_trau_frame")
p("Legacy up-link to down-link conversion",
  "trau_frame_up2down turns every decoded up-link frame of a supported type into a frame whose control bits identify the same payload kind in down-link direction and leaves the payload bits unchanged.",
  "all frames", "all contents",
  "src/trau_frame.c:trau_frame_up2down")
# ---- rtp conv
p("FR RTP <-> TRAU speech bits are a lossless permutation",
  "Converting a 33 byte FR RTP payload to an uplink TRAU frame and back (plain RFC 3551 or TS 101 318 extended format) returns the same payload; a downlink frame carries the same speech bits; a bad frame yields an empty payload (or the marked one in extended format), an empty payload a bad frame; malformed payloads and too small output buffers are refused.",
  "all 2^260 speech frames", "2^260 contents",
  "src/trau/trau_rtp_conv.c:rtp2trau_fr", "src/trau/trau_rtp_conv.c:trau2rtp_fr")
p("EFR RTP <-> TRAU conversion preserves speech and protects it by CRC",
  "Converting a 31 byte EFR RTP payload to an uplink TRAU frame and back returns the same payload; the check bits put into the frame are the CRC of TS 08.60, and a frame with a single corrupted protected bit, or a burst of up to three, is taken for a bad frame.",
  "all 2^244 speech frames, all protected bit positions", "2^244 contents",
  "src/trau/trau_rtp_conv.c:rtp2trau_efr", "src/trau/trau_rtp_conv.c:trau2rtp_efr")
p("HR RTP <-> TRAU conversion preserves speech",
  "Converting a 14/15 byte HR RTP payload to a (16k uplink or 8k) TRAU frame and back returns the same payload; the frame carries the CRC and a frame with a corrupted protected bit is taken for a bad one; malformed payloads are refused.",
  "all 2^112 speech frames", "2^112 contents",
  "src/trau/trau_rtp_conv.c:rtp2trau_hr16", "src/trau/trau_rtp_conv.c:trau2rtp_hr16", "src/trau/trau_rtp_conv.c:rtp2trau_hr8", "src/trau/trau_rtp_conv.c:trau2rtp_hr8")
p("CSD clearmode RTP <-> TRAU data frames preserve V.110 contents",
  "TRAU data frame -> CLEARMODE RTP -> TRAU data frame preserves all D-bits; RTP payloads of wrong length or with wrong V.110 alignment are rejected or yield idle data.",
  "all contents", "2^252 contents",
  "src/trau/trau_rtp_conv.c:trau2rtp_data_fr", "src/trau/trau_rtp_conv.c:rtp2trau_data_fr")
# ---- ericsson
p("Ericsson 16k PCU-CCU frames follow the documented layout",
  "er_gprs_trau_frame_encode_16k() lays out every PCU-SYNC-IND and PCU-DATA-IND as documented (fields, T bits, odd parity, CRC of CS-1), whatever the buffer contained, and returns the number of bits to transmit according to the time adjustment; unsupported coding schemes are refused.  er_gprs_trau_frame_decode_16k() delivers a CCU-SYNC-IND or CCU-DATA-IND if and only if the 320 bits are laid out as that frame, with the values of all its fields.",
  "all field values and payloads, all 2^320 received frames, all earlier contents of the buffer", "2^320 frames",
  "src/trau/trau_pcu_ericsson.c:er_gprs_trau_frame_encode_16k", "src/trau/trau_pcu_ericsson.c:er_gprs_trau_frame_decode_16k")
p("Ericsson 64k PCU-CCU frames follow the documented layout",
  "er_gprs_trau_frame_encode_64k() lays out every PCU-SYNC-IND and PCU-DATA-IND (CS-1..4, MCS-1..9) as documented, and er_gprs_trau_frame_decode_64k() delivers a frame if and only if the 1280 bits are laid out as that frame, with the values of all its fields and the complete block.",
  "all field values and payloads, all 2^1280 received frames", "2^1280 frames",
  "src/trau/trau_pcu_ericsson.c:er_gprs_trau_frame_encode_64k", "src/trau/trau_pcu_ericsson.c:er_gprs_trau_frame_decode_64k")
p("Corrupted Ericsson CCU-PCU frames are rejected",
  "A valid frame with errors in the synchronisation bits, with a single error (and other odd numbers) in the parity protected control bits, with an error in a T bit of a sync frame, or (CS-1) with an error burst of at most 16 bits or an odd number of errors in the payload and CRC, is refused by the decoders with -EINVAL and a zeroed structure.",
  "all frames, all error patterns of these classes", "all contents times error patterns",
  "src/trau/trau_pcu_ericsson.c:er_gprs_trau_frame_decode_16k", "src/trau/trau_pcu_ericsson.c:er_gprs_trau_frame_decode_64k", "src/trau/trau_pcu_ericsson.c:calc_parity")
# ---- IPA
p("IPA client connection life cycle",
  "For any sequence of open/close/connect result/timeout/read/write events the up/down callback alternates properly, is never made twice for one connection, close is idempotent and an open connection cannot be opened again.",
  "all event schedules", "all schedules",
  "src/input/ipa.c:ipa_client_conn_open", "src/input/ipa.c:ipa_client_conn_close", "src/input/ipa.c:ipa_client_fd_cb")
p("IPA transmit queue is FIFO and lossless while connected",
  "Messages passed to ipa_client_conn_send are handed to the socket in order, one per write event, none duplicated; write interest stays enabled exactly while messages are pending.",
  "all schedules of sends and write events", "all schedules",
  "src/input/ipa.c:ipa_client_conn_send", "src/input/ipa.c:ipa_client_write_default_cb")
p("IPA keepalive detects a dead peer and never a live one",
  "With non-zero interval and wait_for_resp: once started the keepalive sends a PING, reports a timeout iff no PONG arrives within the response timer, sends the next PING only after the interval, and after stop makes no further callback or ping.",
  "all schedules of pong, timer, start, stop events", "all schedules",
  "src/input/ipa_keepalive.c:ipa_keepalive_fsm")
# ---- e1 input
p("Signalling messages reach exactly the link with matching TEI and SAPI",
  "e1inp_rx_ts on a signalling timeslot passes a message up with the first link whose (TEI, SAPI) match as destination, and returns -EINVAL, freeing the message, if there is none.",
  "all link tables and messages", "all histories of link creation/destruction",
  "src/e1_input.c:e1inp_rx_ts", "src/e1_input.c:e1inp_lookup_sign_link")
p("Signalling transmit: per-link FIFO, no loss, no duplication",
  "Messages sent with abis_sendmsg on a link are returned by e1inp_tx_ts in order, each exactly once, tagged with their link.",
  "all schedules of abis_sendmsg and e1inp_tx_ts over any number of links", "all schedules",
  "src/e1_input.c:abis_sendmsg", "src/e1_input.c:e1inp_tx_ts")
p("Signalling transmit is fair between links",
  "A message queued on one link is eventually transmitted even if other links keep queueing messages (round robin).",
  "all schedules", "liveness over infinite schedules",
  "src/e1_input.c:e1inp_tx_ts")
p("A timeslot with active signalling links cannot be re-typed",
  "e1inp_ts_config_* on a signalling timeslot that still has signalling links leaves the timeslot and its links unchanged.",
  "all timeslot states", "all histories",
  "src/e1_input.c:cleanup_e1inp_ts", "src/e1_input.c:e1inp_ts_config_trau")
p("E1 line reference counting",
  "A line is freed exactly when its last reference (constructor or signalling link) is dropped, for any sequence of create/link create/link destroy/put; no operation uses a freed line.",
  "all operation sequences", "all histories",
  "src/e1_input.c:e1inp_line_use_cb", "src/e1_input.c:e1inp_sign_link_create", "src/e1_input.c:e1inp_sign_link_destroy")
p("E1 line numbers are unique",
  "e1inp_line_create never creates two lines of the same number and e1inp_line_find returns the line created with that number.",
  "all operation sequences", "all histories",
  "src/e1_input.c:e1inp_line_create", "src/e1_input.c:e1inp_line_find")
# ---- LAPD
p("LAPD header encoding and parsing are inverse",
  "A frame sent for any I, S or U format, TEI, SAPI, C/R, N(S), N(R), P/F is parsed by lapd_receive into the same values and the same payload.",
  "all field values, all payloads, both address lengths", "all contents",
  "src/input/lapd.c:send_ph_data_req", "src/input/lapd.c:lapd_receive")
p("LAPD parser is memory safe",
  "lapd_receive on any received octet string never reads past its length before it is rejected or parsed and returns BAD_LEN for truncated headers.",
  "all octet strings of all lengths", "attacker controlled input",
  "src/input/lapd.c:lapd_receive")
p("LAPD frames with bad length do not leak",
  "lapd_receive takes ownership of (frees or passes on) the message in every case.",
  "all octet strings", "all inputs",
  "src/input/lapd.c:lapd_receive")
p("TEI assignment",
  "A TEI identity request registers the TEI once and is answered with an identity assigned message for the same TEI; a TEI is known afterwards; TEIs are never duplicated.",
  "all receive histories", "all histories",
  "src/input/lapd.c:lapd_tei_receive", "src/input/lapd.c:lapd_tei_alloc")
p("LAPD SAP life cycle",
  "lapd_sap_start returns -EEXIST for an existing SAP and otherwise creates it, lapd_sap_stop and lapd_transmit act only on an existing SAP, and there is never more than one SAP per (TEI, SAPI).",
  "all call histories", "all histories",
  "src/input/lapd.c:lapd_sap_start", "src/input/lapd.c:lapd_sap_stop", "src/input/lapd.c:lapd_transmit")
p("Deprecated lapd_instance_alloc passes its callbacks correctly",
  "An instance allocated by lapd_instance_alloc transmits through the given transmit callback with the given callback data, like lapd_instance_alloc2.",
  "all callbacks and data", "function is deprecated and untested",
  "src/input/lapd.c:lapd_instance_alloc")
# ---- ipa proxy
p("IPA proxy forwards with the configured stream id translation",
  "A message with stream id s received on the bind side of a route s->d is forwarded with stream id d, a message with stream id d from the connect side is forwarded with stream id s, and unrouted stream ids are dropped.",
  "all route tables and messages", "all route configurations",
  "src/ipa_proxy.c:ipa_sock_src_cb", "src/ipa_proxy.c:ipa_sock_dst_cb", "src/ipa_proxy.c:__ipa_route_add")
p("IPA proxy route table rejects duplicates",
  "No sequence of route additions and deletions leaves two identical routes in the table.",
  "all configuration histories", "all histories",
  "src/ipa_proxy.c:__ipa_route_add")
# ---- drivers
p("RS232 framing round-trips for any read fragmentation",
  "A message built for the serial line and received in any fragmentation is delivered once with the same payload.",
  "all payloads up to the buffer size, all fragmentations", "all schedules of read() sizes",
  "src/input/rs232.c:rs232_build_msg", "src/input/rs232.c:handle_ser_read")
p("RS232 receiver never overruns its buffer",
  "No received octet sequence makes the serial receiver write outside its 300 byte message buffer or use a freed buffer.",
  "all received streams, all read results", "line controlled input",
  "src/input/rs232.c:handle_ser_read")
p("Unix socket driver framing",
  "Every LAPD frame written by the driver carries the version/type header and is recognised as data by the receiver with the same contents; frames with wrong version, type or length are rejected.",
  "all packets", "all contents",
  "src/input/unixsocket.c:unixsocket_read_cb", "src/input/unixsocket.c:unixsocket_write_msg_lapd_cb")
p("ip.access timeslot/TRX mapping",
  "The timeslot for a TRX's RSL link and the TRX derived back from a timeslot agree, and the OML timeslot maps to no TRX.",
  "all TRX numbers", "all numbers",
  "include/osmocom/abis/e1_input.h:e1inp_line_ipa_rsl_ts", "src/input/ipaccess.c")
p("RTP transmit timestamps advance by the declared durations",
  "The timestamp of the n-th sent frame equals the initial timestamp plus the sum of the durations of all earlier sent and skipped frames modulo 2^32, while the socket is enabled; a disabled socket sends nothing and does not advance.",
  "all call sequences", "all histories",
  "src/trau/osmo_ortp.c:osmo_rtp_send_frame_ext", "src/trau/osmo_ortp.c:osmo_rtp_skipped_frame")
p("PCAP records describe exactly the frame written",
  "Every record written by osmo_pcap_lapd_write has included and original length equal to frame length plus 16, the direction encoded in the packet type, and the frame octets at the end; concatenated records can be split again unambiguously.",
  "all frames and directions, all sequences of frames", "all contents and histories",
  "src/input/lapd_pcap.c:osmo_pcap_lapd_write")
# ---- appended while the model grew
p("Re-initialising a demultiplexer starts from a clean state",
  "Calling subch_demux_init on a demultiplexer that has been in use leaves it in the same state as a newly initialised one, so no frame is delivered before a new alignment pattern has been received.",
  "all histories before the re-initialisation", "depends on where in a frame the re-initialisation happens",
  "src/subchan_demux.c:subch_demux_init")
p("Encoded TRAU frames do not depend on the former buffer contents",
  "The bits osmo_trau_frame_encode returns are a function of the frame only; no bit of the returned frame is left over from what was in the output buffer.",
  "all frames and all buffer contents", "stale bits only show for particular buffer contents",
  "src/trau/trau_frame.c:osmo_trau_frame_encode", "src/trau/trau_frame.c:encode8_oam", "src/trau/trau_frame.c:encode8_amr_67")
p("TRAU frame decoders read only one frame",
  "osmo_trau_frame_decode_16k reads at most 320 bits and osmo_trau_frame_decode_8k at most 160 bits; what follows does not matter.",
  "all received frames", "an over-read by one bit goes unnoticed in a test",
  "src/trau/trau_frame.c:osmo_trau_frame_decode_16k", "src/trau/trau_frame.c:osmo_trau_frame_decode_8k", "src/trau/trau_frame.c:decode16_oam", "src/trau/trau_frame.c:decode8_amr_67")
p("Idle TRAU frames carry the type code of their direction",
  "An IDLE frame encoded for the up-link (down-link) carries the up-link (down-link) idle speech frame type code.",
  "both directions, all frame contents", "all contents",
  "src/trau/trau_frame.c:encode16_idle")
p("TRAU frames have the wire layout of TS 48.060 / 48.061",
  "The bits produced for a speech, data or idle frame are exactly those of the figures in the standards: synchronisation bits, type code, control, data and T bits in their places.",
  "all frame types with a correct encoder, all contents", "all contents and positions",
  "src/trau/trau_frame.c:osmo_trau_frame_encode")
p("Time alignment of 8k downlink frames",
  "An 8k down-link speech frame with time alignment of dl_ta_usec is 160 + dl_ta_usec*2/250 bits long, limited to 158..319 bits; added bits are ones after the complete frame; up-link frames are never changed.",
  "all frames and all dl_ta_usec values that do not overflow", "all values",
  "src/trau/trau_frame.c:encode8_handle_ta")
p("Requested time alignment is decoded as in the standards and closes the control loop",
  "osmo_trau_frame_dl_ta_us returns the delay requested by the time alignment bits of an up-link frame for each frame type, 0 for other types, down-link frames and unused codes; feeding it to the next down-link frame changes that frame's length by exactly the requested time.",
  "all frames, all time alignment codes", "all contents",
  "src/trau/trau_frame.c:osmo_trau_frame_dl_ta_us", "src/trau/trau_frame.c:encode16_handle_ta", "src/trau/trau_frame.c:encode8_handle_ta")
p("8k TRAU frames are classified by their synchronisation pattern",
  "osmo_trau_frame_decode_8k returns 0 and the type whose synchronisation pattern (and control bits, for HR speech, data and O&M) the received bits show, at most one type matches, and returns -EINVAL without changing contents if none does.",
  "all received bits, both directions", "2^160 inputs",
  "src/trau/trau_frame.c:osmo_trau_frame_decode_8k", "src/trau/trau_frame.c:is_hr", "src/trau/trau_frame.c:is_amr_low", "src/trau/trau_frame.c:is_amr_67", "src/trau/trau_frame.c:is_amr_74")
# ---- synchroniser patterns / RTP conversion, second round
p("The synchroniser looks for exactly the alignment bits of the standards",
  "For each pattern id the synchroniser has the frame length of the standard and a received bit string matches the pattern if and only if it shows every alignment bit of the standard (no bit left out, no payload bit included); every frame emitted by osmo_trau_frame_encode() matches the pattern for its type.",
  "all patterns, all received bit strings, all frames", "2^1280 bit strings",
  "src/trau/trau_sync.c:sync_patterns", "src/trau/trau_sync.c:expand_sync_pattern", "src/trau/trau_frame.c:osmo_trau_frame_encode")
p("RTP <-> TRAU conversion stays within its buffers",
  "osmo_trau2rtp() and osmo_rtp2trau() return, without accessing memory outside of the frame, the payload or the output buffer, for every frame contents, payload of any length, output buffer size and converter state.",
  "all frames, payloads, buffer sizes and states", "unbounded inputs; a small overrun goes unnoticed in a test",
  "src/trau/trau_rtp_conv.c:osmo_trau2rtp", "src/trau/trau_rtp_conv.c:osmo_rtp2trau")
p("A frame converted from RTP depends on the payload only",
  "All bits of a frame produced by osmo_rtp2trau() that are transmitted are determined by the payload and the converter state; nothing of what the caller's frame structure contained before is transmitted.",
  "all earlier contents of the structure, all payloads", "2^600 earlier contents",
  "src/trau/trau_rtp_conv.c:rtp2trau_fr", "src/trau/trau_rtp_conv.c:rtp2trau_efr", "src/trau/trau_rtp_conv.c:rtp2trau_hr16", "src/trau/trau_rtp_conv.c:rtp2trau_hr8")
p("No payload to send becomes an idle frame in the downlink",
  "If there is no payload (length 0) in the downlink, what is transmitted is an idle speech frame, recognisable as such by the BTS.",
  "all converter states and frames", "all earlier contents",
  "src/trau/trau_rtp_conv.c:rtp2trau_fr", "src/trau/trau_rtp_conv.c:rtp2trau_efr")
p("RTP payloads survive RTP -> TRAU -> wire -> TRAU -> RTP",
  "Converting a payload to a frame, encoding it, decoding the received bits and converting back gives the original payload: FR, EFR, HR on 16k and 8k sub-slots and CSD data.",
  "all payloads, old contents of buffers and structures", "2^260 payloads",
  "src/trau/trau_rtp_conv.c:osmo_rtp2trau", "src/trau/trau_rtp_conv.c:osmo_trau2rtp", "src/trau/trau_frame.c:osmo_trau_frame_encode", "src/trau/trau_frame.c:osmo_trau_frame_decode_16k", "src/trau/trau_frame.c:osmo_trau_frame_decode_8k")
p("No payload never turns into speech",
  "A frame made of an empty payload is never converted back to a speech payload.",
  "all directions, frame types, converter states", "all histories of the structure",
  "src/trau/trau_rtp_conv.c:rtp2trau_hr8", "src/trau/trau_rtp_conv.c:trau2rtp_hr8")
# ---- ericsson, second round
p("Ericsson PCU-CCU coders are memory safe and total",
  "For every frame structure (also with invalid enumeration values of tav or unsupported coding schemes) the encoders write only inside of the buffer (324 / 1296 bits) and return either -EINVAL or a number of bits that does not exceed it; the decoders read only the frame and return 0 with a frame or -EINVAL with a zeroed structure.",
  "all structures, all frames", "2^1280 frames",
  "src/trau/trau_pcu_ericsson.c:er_gprs_trau_frame_encode_16k", "src/trau/trau_pcu_ericsson.c:er_gprs_trau_frame_encode_64k", "src/trau/trau_pcu_ericsson.c:er_gprs_trau_frame_decode_16k", "src/trau/trau_pcu_ericsson.c:er_gprs_trau_frame_decode_64k")
p("What the Ericsson 64k decoder delivers is determined by the frame",
  "The structure delivered by er_gprs_trau_frame_decode_64k() is a function of the received bits: it does not depend on uninitialised memory.",
  "all frames, all earlier contents of the stack", "the stack usually has the same contents in a test",
  "src/trau/trau_pcu_ericsson.c:dec_ccu_data_ind_64_mcs9")
# ---- lapd, second round
p("TEI identity assignment answers the request it belongs to",
  "The identity assigned message sent in answer to an identity request carries the reference number of that request.",
  "all requests", "2^16 reference numbers",
  "src/input/lapd.c:lapd_tei_receive")
p("LAPD frames reach only the data link they are addressed to",
  "A received frame is handed to a data link only if its TEI is registered, and then to the one for the TEI and SAPI in its address field, with exactly the octets behind the header, at most N201 of them; a frame for an unregistered TEI changes nothing and is reported as UNKNOWN_TEI.",
  "all octet strings, all table states", "unbounded tables and frames",
  "src/input/lapd.c:lapd_receive")
p("Every LAPD SAP that can be started can be used",
  "After a successful lapd_sap_start(tei, sapi) a frame of the peer on that TEI and SAPI is handed to the data link of this SAP.",
  "all TEIs, SAPIs, frames and table states", "all argument values and states",
  "src/input/lapd.c:lapd_sap_start", "src/input/lapd.c:lapd_receive")
p("LAPD input from a timeslot reports unknown TEIs and is safe",
  "e1inp_rx_ts_lapd() reads only octets of the frame, raises S_L_INP_TEI_UNKNOWN exactly for complete frames with an unregistered TEI, with the TEI and SAPI of the frame, and returns -EIO then and 0 otherwise.",
  "all frames including empty ones, all table states", "all lengths",
  "src/e1_input.c:e1inp_rx_ts_lapd")
p("LAPD SAPs are freed exactly once",
  "In every history each SAP is freed exactly once: by its release or by lapd_instance_free(), and never used afterwards.",
  "all histories of an instance, any behaviour of the data links", "unbounded histories",
  "src/input/lapd.c:send_dlsap", "src/input/lapd.c:lapd_instance_free", "src/input/lapd.c:lapd_sap_free")
p("The LAPD pcap trace is complete and ordered",
  "With a pcap file configured, the frames recorded as input are exactly the received frames and those recorded as output exactly the transmitted frames, in order, including TEI management and rejected frames.",
  "all histories of an instance", "unbounded histories",
  "src/input/lapd.c:lapd_receive", "src/input/lapd.c:send_ph_data_req", "src/input/lapd.c:lapd_tei_receive")
# ---- e1_input, second round
p("Every message handed to the E1 input core is disposed of exactly once",
  "Each message passed to abis_sendmsg, e1inp_ts_send_raw, e1inp_ts_send_hdlc, e1inp_rx_ts or e1inp_dlsap_up is passed on (callback or driver) or freed exactly once, or is still queued; none is lost.",
  "all histories of API calls and driver events", "unbounded histories with any number of lines, links and messages",
  "src/e1_input.c:abis_sendmsg", "src/e1_input.c:e1inp_rx_ts", "src/e1_input.c:e1inp_tx_ts", "src/e1_input.c:e1inp_line_use_cb")
p("Signalling links are destroyed exactly once",
  "In every history each signalling link is freed at most once; a nested e1inp_sign_link_destroy of the same link from the driver's close callback does nothing; a destroyed link's queued messages are freed, other links are unaffected.",
  "all histories including re-entrant destruction", "unbounded histories and re-entrance",
  "src/e1_input.c:e1inp_sign_link_destroy")
p("Queued signalling messages wake up the driver",
  "Whenever a message is queued on a signalling link, the driver has been asked for write events or the transmit delay timer of the timeslot is running.",
  "all histories of API calls, write events and timer expiries", "interleavings of links sharing a timeslot",
  "src/e1_input.c:abis_sendmsg", "src/e1_input.c:e1inp_sign_link_destroy", "src/input/dahdi.c:handle_ts1_write", "src/input/dahdi.c:timeout_ts1_write")
p("Link events carry the matching link",
  "e1inp_event() dispatches exactly one signal with line, timeslot number, type, TRX, TEI and SAPI of the first link matching TEI and SAPI, or returns -EINVAL without one; DL-ESTABLISH and DL-RELEASE give TEI_UP and TEI_DN; a timeslot that is no signalling timeslot is rejected.",
  "all histories, timeslots, TEIs and SAPIs", "unbounded link tables",
  "src/e1_input.c:e1inp_event", "src/e1_input.c:e1inp_int_snd_event", "src/e1_input.c:e1inp_dlsap_up")
p("A cloned line is independent of the original",
  "e1inp_line_clone() gives a line with the same number, driver and operations, with its own use count and own timeslots, not in the list of lines; using or freeing it does not touch the original.",
  "all histories and line states", "all configurations of the 32 timeslots",
  "src/e1_input.c:e1inp_line_clone")
p("Timeslot lookup stays within the line",
  "e1inp_get_mux(e1_nr, ts_nr) returns the timeslot with that number of the line with that number, or NULL.",
  "all 2^16 arguments, all line tables", "all histories of line creation and destruction",
  "src/e1_input.c:e1inp_ts_get", "src/e1_input.c:e1inp_get_mux")
p("A timeslot re-configured for signalling is ready to send",
  "After e1inp_ts_config_sign() returned 0, a link created on the timeslot can send messages, whatever type the timeslot had before.",
  "all sequences of timeslot configurations", "union members overlay each other; depends on the previous type",
  "src/e1_input.c:e1inp_ts_config_sign", "src/e1_input.c:abis_sendmsg")
p("pcap descriptors are owned by one user and never used after close",
  "e1_set_pcap_fd2() makes the line and all its LAPD instances use the new descriptor and closes the old one once; on failure nothing changes; sent messages are recorded in the line's file exactly if a file is set and no LAPD instance records them; no line or LAPD instance refers to a descriptor that was closed.",
  "all line states, clones, shutdown", "all combinations of lines, clones and LAPD instances",
  "src/e1_input.c:e1_set_pcap_fd2", "src/e1_input.c:e1inp_line_clone", "src/e1_input.c:e1i_sig_cb", "src/e1_input.c:write_pcap_packet")
p("A TRAU timeslot always has data to transmit",
  "e1inp_tx_ts() on a TRAU timeslot returns a message of exactly 40 octets, whatever is queued on its sub-channels.",
  "all histories", "unbounded queues and histories",
  "src/e1_input.c:e1inp_tx_ts", "src/subchan_demux.c:subchan_mux_out")
# ---- pcap, second round
p("pcap files survive failed writes",
  "After a failed or short write of a record the frames recorded successfully before and afterwards can still be read from the file; a descriptor is closed once when the file header cannot be written.",
  "all sequences of write results", "all fault schedules",
  "src/input/lapd_pcap.c:osmo_pcap_lapd_write", "src/input/lapd_pcap.c:osmo_pcap_lapd_set_fd", "src/input/lapd_pcap.c:osmo_pcap_lapd_open")
p("pcap records of signalling messages show direction and address",
  "The records that abis_sendmsg and e1inp_rx_ts write can be split again, carry SAPI, TEI and message octets, and their packet type says whether the message was sent or received.",
  "all messages, SAPIs, TEIs and directions, all sequences", "all contents and histories",
  "src/e1_input.c:write_pcap_packet", "src/e1_input.c:e1_set_pcap_fd2")
# ---- IPA
p("IPA client connections can be destroyed at any time",
  "ipa_client_conn_destroy() may be called at any time, also from the callbacks of the connection, without any later use of the freed object.",
  "all histories and callbacks", "depends on callback nesting and pending events",
  "src/input/ipa.c:ipa_client_conn_destroy", "src/input/ipa.c:ipa_client_write_default_cb")
p("IPA client messages arrive complete or the loss is reported",
  "While no \"down\" is reported every message handed to the socket is accepted completely; messages queued for one connection are not sent on a later one; received messages are freed or delivered.",
  "all results of send(), all histories", "short writes and errors at any point",
  "src/input/ipa.c:ipa_client_write_default_cb", "src/input/ipa.c:ipa_client_read")
p("IPA server connection life cycle",
  "For every history of events, API calls and callbacks a server connection's socket is closed exactly once, then closed_cb is called exactly once, then the object is freed exactly once; nothing is delivered or sent afterwards; a lost connection is reported by closed_cb; the destructor may be called again from closed_cb.",
  "all event schedules, all nestings of callbacks", "unbounded histories, re-entrancy",
  "src/input/ipa.c:ipa_server_conn_destroy", "src/input/ipa.c:ipa_server_conn_cb", "src/input/ipa.c:ipa_server_conn_create")
p("IPA server transmit queue is FIFO",
  "Messages passed to ipa_server_conn_send() are handed to the socket in order, each once, one per write event, and freed; write events stay enabled while messages are queued.",
  "all schedules of sends and write events", "unbounded histories",
  "src/input/ipa.c:ipa_server_conn_send", "src/input/ipa.c:ipa_server_conn_write")
p("IPA server messages are neither leaked nor lost silently",
  "Every message passed to ipa_server_conn_send() is freed when the connection is destroyed at the latest, and a failing send() is reported.",
  "all histories, all results of send()", "fault schedules",
  "src/input/ipa.c:ipa_server_conn_destroy", "src/input/ipa.c:ipa_server_conn_write")
p("IPA server CCM handling",
  "ipa_server_conn_ccm() passes an ID RESP with unit id to ccm_cb, ignores other messages, and on any error (malformed message, error of ccm_cb) closes the connection and returns -1; its result can be returned from the read callback.",
  "all CCM messages, all results of the callback", "all message contents and callback behaviours",
  "src/input/ipa.c:ipa_server_conn_ccm")
p("IPA listening sockets: every descriptor is closed exactly once",
  "Every socket created by ipa_server_link_open() or accepted is closed exactly once, or was handed over to the application by a successful accept_cb, or is still in use; opening an open link is refused.",
  "all histories of open, close, accept", "unbounded histories",
  "src/input/ipa.c:ipa_server_link_open", "src/input/ipa.c:ipa_server_link_close", "src/input/ipa.c:ipa_server_fd_cb")
p("IPA message headers delimit messages",
  "A stream of messages built with ipa_msg_push_header() can be split again into protocol and payload, for payloads of less than 65536 octets.",
  "all sequences of messages", "all lengths and contents",
  "src/input/ipa.c:ipa_msg_push_header")
p("RS232 output keeps the line synchronised and messages are not leaked",
  "Every frame passed to the serial port is sent completely before the next one begins, and every received message is delivered or freed.",
  "all results of write(), lines with and without callback", "all fault schedules of write()",
  "src/input/rs232.c:handle_ser_write", "src/input/rs232.c:handle_ser_read")
p("Unix socket driver: only its own descriptors are used, each closed exactly once",
  "In every history of line updates, packets, losses and failed reconnections the driver writes to, registers and closes only open sockets of its own, and closes each exactly once.",
  "all histories, all results of the system calls", "unbounded histories, fault schedules",
  "src/input/unixsocket.c:unixsocket_exception_cb", "src/input/unixsocket.c:unixsocket_line_update", "src/input/unixsocket.c:unixsocket_write_msg", "src/input/unixsocket.c:e1inp_ericsson_set_altc")
p("Unix socket driver: reconnection",
  "A lost connection is established again, and retried until it succeeds; the first packet on every new connection turns the super channel off.",
  "all histories, all results of the system calls", "unbounded histories, fault schedules",
  "src/input/unixsocket.c:unixsocket_exception_cb", "src/input/unixsocket.c:unixsocket_line_update")
p("Unix socket driver: queued messages wake the driver",
  "Once a message is queued, write events stay enabled until the queue is empty.",
  "all histories", "unbounded histories",
  "src/input/unixsocket.c:ts_want_write", "src/input/unixsocket.c:unixsocket_write_cb", "src/input/unixsocket.c:unixsocket_line_update")
p("IPA proxy: an instance can be deleted exactly when no route uses it",
  "After every history of configuration commands the use count of an instance is the number of its uses by routes, deletion of a used instance is refused and of an unused one succeeds and changes nothing else, and every route refers to existing instances.",
  "all histories of configuration commands and connections", "unbounded histories",
  "src/ipa_proxy.c:__ipa_instance_del", "src/ipa_proxy.c:__ipa_route_add", "src/ipa_proxy.c:__ipa_route_del")
p("IPA proxy: deleting routes and instances is safe and leaves the others working",
  "No configuration command follows a dangling or null pointer or reads outside of an object, and deleting a route leaves all others in operation.",
  "all histories of configuration commands", "unbounded histories",
  "src/ipa_proxy.c:__ipa_route_del", "src/ipa_proxy.c:__ipa_instance_del")
p("IPA proxy: instance names are unique",
  "An instance with the name of an existing one is refused, and an instance can be found again under the name it was added with.",
  "all names", "all lengths and contents",
  "src/ipa_proxy.c:__ipa_instance_add", "src/ipa_proxy.c:ipa_instance_add")
p("RTP sockets send and receive nothing before they are connected",
  "Until osmo_rtp_socket_connect() with a port other than 0 or osmo_rtp_socket_autoconnect() succeeds, frames, skipped frames and polls have no effect and return 0, and nothing is received.",
  "all call sequences", "all histories",
  "src/trau/osmo_ortp.c:osmo_rtp_socket_connect", "src/trau/osmo_ortp.c:osmo_rtp_socket_poll", "src/trau/osmo_ortp.c:osmo_rtp_send_frame_ext")
p("RTP sockets register their descriptors exactly once",
  "The descriptors are in the select loop exactly while the socket is connected, not in polling mode and not freed, whatever registration fails; connecting again to another remote address is possible.",
  "all call sequences, all results of system calls", "all histories, fault schedules",
  "src/trau/osmo_ortp.c:osmo_rtp_socket_fdreg", "src/trau/osmo_ortp.c:osmo_rtp_socket_connect", "src/trau/osmo_ortp.c:osmo_rtp_socket_free")
p("RTP reception delivers every packet once, unchanged",
  "Every read event of a listening socket and every poll of a connected one takes at most one packet and passes it, unless empty, to rx_cb with its payload, sequence number, time stamp and marker; the receive clock advances by 160 for each read event.",
  "all call sequences, all packets", "all histories",
  "src/trau/osmo_ortp.c:recv_with_cb", "src/trau/osmo_ortp.c:osmo_rtp_fd_cb", "src/trau/osmo_ortp.c:osmo_rtp_socket_poll")
p("RTP jitter buffer settings",
  "The jitter buffer and its adaptive mode are in the state set last, unknown parameters are refused, and the result tells whether the mode is enabled.",
  "all call sequences, all values", "all histories",
  "src/trau/osmo_ortp.c:osmo_rtp_socket_set_param")
p("ip.access BSC: a line lives exactly as long as it is used",
  "In every history of the BSC, a (cloned) line is allocated exactly while connections are attached to it or it has signalling links, with one reference for each; the lines of all connections and links exist. Signalling links can only be made on the OML time slot and those the application configured for signalling.",
  "all histories of connections, identifications, messages and calls of the application", "all histories",
  "src/input/ipaccess.c:ipaccess_bsc_rcvmsg", "src/input/ipaccess.c:ipaccess_bsc_conn_closed_cb", "src/e1_input.c:e1inp_line_put2")
p("ip.access BSC: every connection is attached to its time slot",
  "Every open connection is the one known to the time slot it belongs to, so that messages can be sent on it, also if a BTS reconnects.",
  "all histories", "all histories",
  "src/input/ipaccess.c:ipaccess_bsc_rcvmsg", "src/input/ipaccess.c:ipaccess_bsc_conn_closed_cb")
p("ip.access BSC: no identification crashes it",
  "No identification response of a BTS, with any TRX number, at any time, makes the BSC follow an invalid pointer or abort.",
  "all histories, all TRX numbers", "hostile peers, all histories",
  "src/input/ipaccess.c:ipaccess_bsc_rcvmsg")
p("ip.access BSC: keepalive",
  "The keepalive of a connection exists only as long as the connection, and when it expires the connection is closed without harm.",
  "all histories", "all histories, all timer expiries",
  "src/input/ipaccess.c:ipa_bsc_keepalive_timeout_cb", "src/input/ipaccess.c:ipaccess_bsc_keepalive_fsm_alloc")
p("ip.access BSC: messages are sent once, in order, on the right connection",
  "What the application sends on a signalling link is transmitted once, in order, with the TEI of the link as protocol, on the connection of its time slot; it is delayed only while there is none. Received messages are delivered unchanged to the link of the time slot with this TEI, else the connection is closed.",
  "all histories, all messages", "all histories",
  "src/input/ipaccess.c:ipaccess_bsc_write_cb", "src/input/ipaccess.c:ipaccess_bsc_conn_read_cb", "src/e1_input.c:abis_sendmsg")
p("ip.access BTS: clients belong to their time slots",
  "In every history of the BTS, the IPA clients and keepalive FSMs that exist are exactly those known to the time slots of the line, one for each; a keepalive runs only while its client is connected; updating the line, connecting and closing an RSL link replaces or removes exactly the client of its time slot; a PING is sent on a client when it is connected and at each expiry of its running keepalive.",
  "all histories of line updates, connections, messages, timeouts and calls of the application", "all histories",
  "src/input/ipaccess.c:ipaccess_line_update", "src/input/ipaccess.c:e1inp_ipa_bts_rsl_connect_n", "src/input/ipaccess.c:e1inp_ipa_bts_rsl_close_n")
p("ip.access BTS: nothing crashes it",
  "No message of the BSC, expiry of a timer or call of the application makes the BTS follow an invalid pointer or abort.",
  "all histories, all messages", "hostile peers, all histories",
  "src/input/ipaccess.c:ipaccess_bts_read_cb", "src/input/ipaccess.c:ipa_bts_keepalive_timeout_cb", "src/input/ipaccess.c:e1inp_ipa_bts_rsl_connect_n")
p("ip.access BTS: identity, end to end",
  "The answer to an ID GET on a client carries the TRX number of its own time slot, so that a BSC attaches the connection to the time slot with the same index.",
  "all histories of a BTS and of a BSC", "all histories, two parties",
  "src/input/ipaccess.c:ipaccess_bts_read_cb", "src/input/ipaccess.c:ipaccess_bsc_rcvmsg", "src/input/ipa.c:ipaccess_bts_handle_ccm")
p("ip.access BTS: messages are sent and received once",
  "What the application sends on a signalling link is transmitted once, in order, with the TEI of the link as protocol, on the client of its time slot if that is connected, and dropped else; nothing stays queued. Received messages are delivered unchanged to the link of the time slot with this TEI, else the client is closed.",
  "all histories, all messages", "all histories",
  "src/input/ipaccess.c:__ipaccess_bts_write_cb", "src/input/ipaccess.c:ipaccess_bts_read_cb", "src/e1_input.c:abis_sendmsg")
p("ip.access: sockets have the configured DSCP and priority",
  "Every socket that the ip.access driver opens has the address and port of its purpose, and the DSCP and socket priority configured for OML or RSL, respectively.",
  "all histories of line updates, all settings", "all values, all histories",
  "src/input/ipaccess.c:ipaccess_line_update", "src/input/ipaccess.c:e1inp_ipa_bts_rsl_connect_n", "src/e1_input_vty.c:cfg_ipa_dscp")
p("TCP keepalive as configured",
  "For every line, however configured by commands, the TCP keepalive of its connections is off exactly if it was switched off, and else has the configured or default values; the user timeout does not overflow and is not shorter than the time until the probes have failed.",
  "all command sequences, all values", "all values, all histories",
  "src/input/ipaccess.c:update_fd_settings", "src/e1_input_vty.c:set_keepalive_params")
p("ip.access BSC: listening sockets",
  "An update of a line in the role of a BSC succeeds exactly if the line then listens for OML and RSL; it listens once for each however often it is updated, and an update that failed can be repeated when the cause is gone.",
  "all histories of line updates, all results of system calls", "fault schedules, all histories",
  "src/input/ipaccess.c:ipaccess_line_update")
p("Configuration: what is written can be read again",
  "The configuration that is written, when read again, is accepted completely and gives the same configuration.",
  "all configurations reached by commands", "all configurations",
  "src/e1_input_vty.c:e1inp_config_write", "src/e1_input_vty.c:e1inp_vty_init")
p("Configuration: effect of commands",
  "Every command changes what it is meant to change of its line and nothing else; commands for lines that do not exist or do not suit the driver are refused without effect; numbers of lines stay unique, values within their ranges, and keepalive is only configured where it is supported.",
  "all command sequences", "all histories",
  "src/e1_input_vty.c", "src/e1_input.c:e1inp_line_create")
p("Traces record the packets of a line in the file configured",
  "While a trace is configured for a line, all packets of the line, of its clones and of its LAPD instances are recorded in this file; otherwise, and in other files or sockets, none are.",
  "all histories of trace commands, connections, LAPD instances, packets and descriptors of the application", "all histories, descriptor reuse",
  "src/e1_input.c:e1_set_pcap_fd2", "src/e1_input.c:e1inp_line_clone", "src/input/lapd.c:lapd_instance_alloc2")
p("IPA keepalive parameters of connections",
  "The keepalive of a connection is set up with the parameters configured for its line, whenever these are changed.",
  "all histories of commands and connections", "all histories",
  "src/e1_input_vty.c:set_ipa_keepalive_params", "src/e1_input.c:e1inp_line_clone", "src/input/ipaccess.c:ipaccess_bsc_keepalive_fsm_alloc")
p("osmo-e1d: descriptors of time slots",
  "In every history of configuration, line updates, events, losses of the daemon and reconnections, the opening and closing of time slots is balanced, exactly the open ones are watched by the select loop, no descriptor is leaked or closed twice, none is open without a connection to the daemon, and buffers for reading are passed on or freed.",
  "all histories, all answers of the daemon", "all histories, fault schedules",
  "src/input/e1d.c:e1d_line_update", "src/input/e1d.c:terminate_line", "src/input/e1d.c:fsm_e1d_client_connected_cb")
p("osmo-e1d: reconnection and configuration",
  "Once a line is in use there is either a connection to the daemon or the next attempt is scheduled; when an attempt succeeds, and when a line is updated, all time slots of the lines in use are open and watched in the mode of their configured type.",
  "all histories, all configurations", "all histories, fault schedules",
  "src/input/e1d.c:fsm_e1d_client_disconnected_cb", "src/input/e1d.c:fsm_e1d_client_connected_onenter_cb", "src/input/e1d.c:e1d_line_update")
p("osmo-e1d: raw and HDLC messages once and in order",
  "What the application sends on a raw or HDLC time slot is given to write() once and in the order of sending, whatever happens to the connection in between; what is read is passed on unchanged.",
  "all histories, all messages", "all histories",
  "src/input/e1d.c:handle_ts_raw_write", "src/input/e1d.c:handle_ts_hdlc_write", "src/e1_input.c:e1inp_ts_send_raw")
p("osmo-e1d: queued messages are written",
  "As long as messages are queued on a time slot of a connected line, it is watched for writing, so that they are written as soon as the time slot is ready.",
  "all histories", "all schedules, liveness",
  "src/input/e1d.c:e1d_want_write", "src/input/e1d.c:e1d_line_update")
p("osmo-e1d: TRAU time slots",
  "Every block read from a TRAU time slot is passed on with the order of the bits of each octet reversed and answered by exactly one block from the multiplexer, reversed too; I.460 time slots are served alike.",
  "all histories, all blocks", "all histories, all values",
  "src/input/e1d.c:handle_ts_trau_read", "src/input/e1d.c:handle_ts_trau_write", "src/input/e1d.c:e1d_fd_cb")
p("osmo-e1d: alarms",
  "An alarm that the daemon reports for an interface and line is signalled once, with the signal that belongs to it, for the E1 line that uses this interface and line, and for no other.",
  "all sets of lines, all alarms, interfaces and lines", "all values",
  "src/input/e1d.c:e1d_client_event_cb", "src/input/e1d.c:e1inp_port_find")
p("DAHDI: channel numbers",
  "A line update opens, for a time slot in use, the channel that belongs to this time slot on the span of the line's port, and no two time slots get the same channel.",
  "all histories, all answers of the kernel about its spans, all ports and time slots", "all histories, all configurations of cards",
  "src/input/dahdi.c:reread_span_cfgs", "src/input/dahdi.c:dahdi_e1_setup", "src/input/dahdi.c:dahdi_open_slot")
p("DAHDI: descriptors of time slots",
  "In every history a time slot is opened only when it is not open, only the open descriptor is read, written and closed, what the select loop watches is open, and a failed attempt to open it is repeated by the next update.",
  "all histories, all answers of the kernel", "all histories, fault schedules",
  "src/input/dahdi.c:dahdi_e1_setup", "src/input/dahdi.c:dahdi_open_slot")
p("DAHDI: time slots are as configured",
  "After a successful line update each time slot is as configured: closed if it has no use, otherwise open and watched, with a LAPD instance exactly if it is for signalling; other lines and queued messages are not affected, and no event leads to undefined behaviour.",
  "all histories, all configurations", "all histories, all configurations",
  "src/input/dahdi.c:dahdi_e1_setup", "src/input/dahdi.c:dahdi_e1_line_update")
p("DAHDI: HDLC frames arrive as they were sent",
  "A message sent on an HDLC time slot, and a LAPD frame on a signalling time slot, is delivered on the other side unchanged, without the check sequence the controllers add.",
  "all messages, all states of the time slots, all check sequences", "all values",
  "src/input/dahdi.c:handle_hdlc_write", "src/input/dahdi.c:handle_hdlc_read", "src/input/dahdi.c:handle_ts1_read", "src/input/dahdi.c:dahdi_write_msg")
p("DAHDI: queued messages go out once and in order",
  "The messages sent on a signalling, raw or HDLC time slot are given to LAPD or to write() once and in the order of sending, and as long as there are some in the queue the driver waits for a write event or its timer runs.",
  "all histories, all messages", "all histories, liveness",
  "src/input/dahdi.c:handle_ts1_write", "src/input/dahdi.c:handle_hdlc_write", "src/input/dahdi.c:handle_ts_raw_write", "src/input/dahdi.c:ts_want_write", "src/input/dahdi.c:timeout_ts1_write")
p("DAHDI: blocks of TRAU, I.460 and raw time slots",
  "Every complete block read is passed on once, with the order of the bits reversed on TRAU time slots and unchanged on I.460 and raw ones, and answered by one block of the multiplexer or the queue; incomplete blocks have no effect.",
  "all blocks, all states", "all values",
  "src/input/dahdi.c:handle_tsX_read", "src/input/dahdi.c:handle_tsX_write", "src/input/dahdi.c:handle_ts_raw_read", "src/input/dahdi.c:handle_ts_raw_write")
p("DAHDI: events",
  "Each event the kernel reports is counted or signalled exactly as its kind demands, once and in the order in which events are reported, and nothing else is.",
  "all events, states and results of read and write", "all combinations",
  "src/input/dahdi.c:handle_dahdi_exception", "src/input/dahdi.c:dahdi_fd_cb")
p("mISDN: signals of a line are coherent",
  "The signals of a line follow from the indications of the card only: each indication is passed on as the signal it means, an alarm is signalled exactly when the first of loss of signal, alarm indication signal and remote alarm indication appears, its end exactly when the last of them ends, so that alarm and end of alarm alternate; unknown indications have no effect.",
  "all histories, all indications", "all histories",
  "src/input/misdn.c:mph_information_ind", "src/input/misdn.c:handle_ts1_read", "src/input/misdn.c:handle_ts_hdlc_read")
p("mISDN: sockets are opened and closed in pairs",
  "In every history a time slot (and the D-channel) gets a new socket only when it has none, only an open socket is bound, activated, used and closed, and what the select loop watches is open.",
  "all histories, all answers of the kernel", "all histories, fault schedules",
  "src/input/misdn.c:mi_e1_setup", "src/input/misdn.c:misdn_fd_cb")
p("mISDN: time slots are as configured",
  "A line update that returns 0 leaves each time slot as configured, its socket bound to its card with the protocol and channel it needs and activated, and the D-channel open exactly if it is needed; a time slot whose type has not changed is not touched.",
  "all histories, all configurations, all answers of the kernel", "all histories, all configurations",
  "src/input/misdn.c:mi_e1_setup", "src/input/misdn.c:_mi_e1_line_update", "src/input/misdn.c:activate_bchan")
p("mISDN: queued messages go out once, in order, and not faster than confirmed",
  "Messages sent on a signalling, raw or HDLC time slot are given to LAPD or the kernel once and in the order of sending; on raw and HDLC time slots at most one accepted block is unconfirmed; a message in the queue always has a write event, timer or confirmation to wait for.",
  "all histories, all messages, all results of send()", "all histories, liveness",
  "src/input/misdn.c:handle_ts1_write", "src/input/misdn.c:handle_ts_raw_write", "src/input/misdn.c:handle_ts_hdlc_write", "src/input/misdn.c:timeout_ts1_write", "src/input/misdn.c:ts_want_write")
p("mISDN: octets of frames",
  "The octets of received and sent frames are passed on completely, once and unchanged, except that the bits of each octet are reversed on raw time slots; on TRAU time slots as many octets are sent as were received.",
  "all frames, all states", "all values",
  "src/input/misdn.c:handle_ts_raw_read", "src/input/misdn.c:handle_ts_raw_write", "src/input/misdn.c:handle_ts_hdlc_read", "src/input/misdn.c:handle_ts_hdlc_write", "src/input/misdn.c:handle_tsX_read", "src/input/misdn.c:handle_tsX_write")
p("mISDN: no frame or history leads to undefined behaviour",
  "Whatever is received and in whichever order the API is used, the driver does not use memory it must not use, does not abort and loses no buffer.",
  "all histories, all received frames", "all histories, all values",
  "src/input/misdn.c:misdn_fd_cb", "src/input/misdn.c:handle_ts1_read", "src/input/misdn.c:handle_ts_raw_read")
p("mISDN: signalling links with LAPD in the kernel",
  "Establishment, release and messages are passed on for the links that exist, with the address of the link, and each message is sent to the channel the kernel assigned last to its link, independently of other links.",
  "all histories, all links and addresses", "all histories",
  "src/input/misdn.c:handle_ts1_read", "src/input/misdn.c:handle_ts1_write", "src/e1_input.c:e1inp_lookup_sign_link")
p("mISDN: Sa bits",
  "Setting the Sa bits sends exactly one request with these bits to the card of the line, and the bits of an indication are passed on unchanged.",
  "all bits, all states", "all values and states",
  "src/input/misdn.c:set_sa_bits", "src/input/misdn.c:mph_information_ind")
p("Encoded TRAU frames reach the receiver through the synchroniser",
  "A stream of frames produced by the encoder, after any number of ones, is delivered by a new synchroniser frame by frame, every frame once, in order and unchanged, whatever the division into buffers and in spite of errors in up to two frames in a row; each delivered frame is decoded to the frame that was encoded.",
  "all sequences of frames, all error patterns without three errored frames in a row, all divisions of the stream", "composition of three modules over unbounded streams",
  "src/trau/trau_frame.c:osmo_trau_frame_encode", "src/trau/trau_sync.c:osmo_trau_sync_rx_ubits", "src/trau/trau_frame.c:osmo_trau_frame_decode_16k", "src/trau/trau_frame.c:osmo_trau_frame_decode_8k")
p("Encoded TRAU frames reach the receiver through multiplexer and demultiplexer",
  "The bits of an encoded 16k TRAU frame show the alignment pattern at their start only; frames given to the sub-channels of a multiplexer are delivered by the demultiplexer of the other side on the same sub-channel, complete, unchanged and in order, with idle frames in between.",
  "all frames, all interleavings of enqueueing and output", "composition over unbounded streams and schedules",
  "src/trau/trau_frame.c:osmo_trau_frame_encode", "src/subchan_demux.c:subchan_mux_out", "src/subchan_demux.c:subchan_demux_in")
p("Calls arrive as they were sent, from RTP to RTP",
  "The payloads of full rate and enhanced full rate RTP packets, converted to TRAU frames, encoded, sent over a synchronised or multiplexed 16k sub-slot, decoded and converted back are the same payloads in the same order, none missing, none added.",
  "all payloads and sequences of them, all divisions and schedules", "composition of five modules over unbounded streams",
  "src/trau/trau_rtp_conv.c:osmo_rtp2trau", "src/trau/trau_rtp_conv.c:osmo_trau2rtp", "src/trau/trau_sync.c:osmo_trau_sync_rx_ubits", "src/subchan_demux.c:subchan_demux_in")
p("Changing the synchronisation pattern from within the frame call-back",
  "The user may select other patterns from within the frame call-back of the synchroniser: whatever it selects, no memory outside of the buffers is touched, nothing aborts and the call terminates; no frame is delivered before the new pattern has been found, and the result does not depend on the division of the stream into calls.",
  "all users (arbitrary reactions to any history of call-backs), all streams, all divisions into calls", "all histories and users",
  "src/trau/trau_sync.c:osmo_trau_sync_set_pat", "src/trau/trau_sync.c:osmo_trau_sync_set_secondary_pat", "src/trau/trau_sync.c:trau_sync_aligned", "src/trau/trau_sync.c:trau_sync_wait_align")
p("CCM messages on an IPA client connection are handled by the public handler",
  "ipaccess_bts_handle_ccm() leaves messages of other protocols alone (0). An ID GET is answered with one ID RESP, which identifies the TRX of this very connection, and one ID ACK, and the unit passed is as before; the BSC finds the connection on the time slot of this TRX. A PONG reaches the keepalive of this connection only. On a failure the socket is closed once and -1 is returned, otherwise 1 and nothing is changed. No message crashes the program, an identification reported as done was sent completely, and queued messages are not lost.",
  "all connections, messages, units and results of the socket calls", "all inputs and histories of the connection",
  "src/input/ipaccess.c:ipaccess_bts_handle_ccm", "src/input/ipaccess.c:ipaccess_line_ts", "src/input/ipa.c:ipa_client_conn_close")
p("Frames of an Ericsson CCU reach the user through the synchroniser",
  "On a 16k link and on a 64k link with the MCS-9 pattern as secondary pattern, every frame the CCU sends is delivered once, in order, unchanged and whatever the division into buffers, in spite of errors in up to two frames in a row; each delivered frame is decoded to what it says.",
  "all sequences of sync, data and MCS-9 frames, all error patterns without three errored frames in a row, all divisions of the stream", "composition of two modules over unbounded streams",
  "src/trau/trau_sync.c:osmo_trau_sync_rx_ubits", "src/trau/trau_sync.c:osmo_trau_sync_set_secondary_pat", "src/trau/trau_pcu_ericsson.c:er_gprs_trau_frame_decode_16k", "src/trau/trau_pcu_ericsson.c:er_gprs_trau_frame_decode_64k")
p("The trace file for all lines",
  "A descriptor set with e1_set_pcap_fd() is used for all lines: every signalling message of any line is recorded in it until another one is set. If the file header cannot be written, nothing changes. Descriptors handed to the library for all or for single lines are closed once, when they are replaced, not used afterwards, and not lost.",
  "all histories of trace files for all and for single lines, line updates and LAPD instances", "all histories, descriptor ownership",
  "src/e1_input.c:e1_set_pcap_fd", "src/e1_input.c:e1_set_pcap_fd2", "src/e1_input.c:e1inp_line_update", "src/e1_input.c:e1inp_rx_ts")
p("Data links work with the parameters of the LAPD profile",
  "Each data link has the window of its SAPI, N200, N201, T200 and T203 of the profile that was in force when it was set up, whether by the application or by a received frame; a profile set later, or any other call, does not change them. The profiles offered are complete and valid for modulo 128 numbering, with the windows and timers of GSM 08.56 on Abis.",
  "all histories of calls, frames and profiles", "all histories",
  "src/input/lapd.c:lapd_sap_alloc", "src/input/lapd.c:lapd_instance_set_profile", "src/input/lapd.c:lapd_profile_abis", "src/input/lapd.c:lapd_receive")
p("Changing sub-channels from within the frame call-back",
  "The frame call-back of the demultiplexer may activate, deactivate or re-initialise sub-channels: whatever it does, no memory outside of the buffers is touched and each frame is delivered on a sub-channel that is active at that time; as long as it does not re-initialise, frames are complete and aligned; a sub-channel it does not touch delivers exactly the frames it would deliver otherwise.",
  "all call-backs (arbitrary reactions to any history), all states and inputs", "all histories and users",
  "src/subchan_demux.c:subch_demux_in", "src/subchan_demux.c:append_bit_resync_out", "src/subchan_demux.c:subch_demux_activate", "src/subchan_demux.c:subch_demux_deactivate")
p("Signalling messages between BTS and BSC, end to end",
  "Messages sent with abis_sendmsg() on the links of a connected time slot of a BTS, cut into messages by the IPA header and received by a BSC whose time slot has links with the same TEIs, are delivered there once, unchanged, in order, each on the link with its TEI; and likewise from the BSC to the BTS.",
  "all reachable states of both sides, all sequences of messages on any number of links", "composition of two programs over unbounded histories",
  "src/input/ipaccess.c:ipaccess_bsc_conn_read_cb", "src/input/ipaccess.c:ipaccess_bts_read_cb", "src/input/ipaccess.c:ts_want_write", "src/e1_input.c:abis_sendmsg", "src/input/ipa.c:ipa_msg_push_header")
p("What the multiplexer sends of frames of any length",
  "For frames of any length, also odd lengths and empty ones, and any interleaving of enqueueing and output: the bits that leave on a sub-channel, and what is left of its queue, depend on the calls that concern this sub-channel only. They are the bits of the last three frames in order, then those of idle frames, two for every octet, except that if one bit of a frame is left and the next one has two or more, its second bit is not sent; on sub-channel 3 (only) that is an access outside of the output array.",
  "all histories of enqueueing frames of any length on any sub-channel and requesting any number of octets", "all inputs and histories",
  "src/subchan_demux.c:subchan_mux_out", "src/subchan_demux.c:subchan_mux_enqueue", "src/subchan_demux.c:get_subch_bits")
p("Serial line: every message is written, once and in order",
  "The messages passed to abis_sendmsg() for a signalling link of a line with the rs232 driver are written to the serial port in the order they were sent, each once, with the CRAPD header; and every message is written once the port has become writable often enough, without a further message having to be sent.",
  "all histories of creating links, sending messages to any of them, setting up the line, and events of the select loop with every result of read() and write(); all messages",
  "a stall only shows for schedules in which messages are queued faster than the port becomes writable; order and conservation hold over histories",
  "src/input/rs232.c:serial_fd_cb", "src/input/rs232.c:handle_ser_write", "src/input/rs232.c:rs232_want_write", "src/input/rs232.c:rs232_setup", "src/e1_input.c:abis_sendmsg", "src/e1_input.c:e1inp_tx_ts")
p("Serial line: setting up a line",
  "A set-up of a serial line that fails leaves no descriptor open; one that succeeds leaves the line watched by the select loop exactly once, with empty reception state; a line in operation can be updated.",
  "all states of the line and all outcomes of the system calls",
  "failures of system calls are not provoked by tests; the state before the update ranges over all histories",
  "src/input/rs232.c:rs232_setup", "src/input/rs232.c:rs232_line_update")
p("IPA proxy: the written configuration restores the proxy",
  "After any history of configuration commands, the configuration written by the proxy, when read by a new process, gives the same instances and the same routes in the same order, and the same configuration when written again.",
  "all histories of adding and deleting instances and routes, and of connections",
  "the state that is written is the result of an unbounded history; tests can only try some",
  "src/ipa_proxy.c:ipa_cfg_write", "src/ipa_proxy.c:__ipa_instance_add", "src/ipa_proxy.c:__ipa_route_add", "src/ipa_proxy.c:ipa_instance_del", "src/ipa_proxy.c:ipa_route_del")
p("IPA proxy: addresses and ports",
  "For the routes of an instance of type bind, the proxy listens at the address and port given for that instance, with one socket for all routes between two instances; for a connection to it, the proxy connects to the address and port given for the destination instance. Strings that are not an address, and numbers that are not a port, are refused.",
  "all histories of adding and deleting instances and routes and of connections; all addresses and ports",
  "the instance used is that of a route created anywhere in an unbounded history of additions and deletions",
  "src/ipa_proxy.c:__ipa_instance_add", "src/ipa_proxy.c:__ipa_route_add", "src/ipa_proxy.c:ipa_sock_src_accept_cb")

p("RTP sockets: only the descriptors of the session are used",
  "Every socket opened for an RTP socket is closed exactly once; the priority that is set, the local address that is reported and the descriptors watched by the select loop are those of the sockets the RTP socket has at that time, never those of another file of the program.",
  "all histories of binding, connecting (with or without polling mode), setting the priority, asking for the address and freeing, with every outcome of oRTP and of the registration",
  "a stale number is only noticed after a failure and if the number is in use by something else; it depends on the whole history of binds",
  "src/trau/osmo_ortp.c:osmo_rtp_socket_bind", "src/trau/osmo_ortp.c:osmo_rtp_socket_connect", "src/trau/osmo_ortp.c:osmo_rtp_socket_fdreg", "src/trau/osmo_ortp.c:osmo_rtp_socket_set_priority", "src/trau/osmo_ortp.c:osmo_rtp_get_bound_ip_port", "src/trau/osmo_ortp.c:osmo_rtp_socket_free")

p("E1 lines: what the show commands print",
  "'show e1_line' and 'show e1_timeslot' print, for every configuration the commands can produce, a text from which the configuration is known again: two lines printed alike have the same number, driver, name, pcap file and (IPA driver) keepalive settings, two time slots printed alike the same type; the form without a number prints what the forms with a number print, line by line in the order of creation; a number without line is refused.",
  "all configurations of lines and time slots, all arguments",
  "that two different configurations are never printed alike is a statement over pairs of configurations",
  "src/e1_input_vty.c:show_e1line", "src/e1_input_vty.c:show_e1ts", "src/e1_input_vty.c:e1line_dump_vty", "src/e1_input_vty.c:e1line_ka_dump_vty", "src/e1_input_vty.c:e1ts_dump_vty", "src/input/dahdi.c:dahdi_vty_show")

p("oRTP messages in the log",
  "A message of the oRTP library is logged with the name of its domain in front, its text unchanged, exactly one added newline if its format does not end with one, and the level of the same meaning; logging a message whose format fits its arguments is never undefined.",
  "all domains, levels, formats and arguments",
  "the text of the domain is controlled by another library; it holds or fails depending on its octets",
  "src/trau/osmo_ortp.c:my_ortp_logfn", "src/trau/osmo_ortp.c:ortp_to_osmo_lvl")

p("IPA proxy: a proxied connection",
  "Between a peer and the destination of its route the proxy passes on exactly the messages whose stream has a route, in their order, each once, unchanged but for the translated stream; a message of one side is handed to the other as soon as that side's socket is writable; when either side is lost the other is closed or the connection is made again; no freed connection is used, and a connection that cannot be proxied is refused completely.",
  "all routing tables and all histories of accepting, connecting, receiving, sending, errors and timeouts on the two sockets of a proxied connection",
  "it must hold for every interleaving of the events of two sockets, in particular for a message that arrives before the other side is connected or after it was lost",
  "src/ipa_proxy.c:ipa_sock_src_accept_cb", "src/ipa_proxy.c:ipa_sock_src_cb", "src/ipa_proxy.c:ipa_sock_dst_cb", "src/input/ipa.c:ipa_client_fd_cb", "src/input/ipa.c:ipa_server_conn_cb", "src/input/ipa.c:ipa_server_fd_cb")

p("RTP sockets: statistics and conversions of time",
  "The numbers of packets, octets and lost packets reported for an RTP socket are, modulo 2^32, the real ones, so that the differences of two reports count what happened in between, across wraps; milliseconds, samples and TDMA frame numbers are converted by the rates of the GSM system.",
  "all histories of sent, received and lost packets; all numbers of milliseconds and of frames",
  "the wrap of a counter comes after billions of octets, and an error of a fraction of a millisecond per frame is only seen over many frames",
  "src/trau/osmo_ortp.c:osmo_rtp_socket_stats", "include/osmocom/trau/osmo_ortp.h:GSM_FN_TO_MS", "include/osmocom/trau/osmo_ortp.h:GSM_MS_TO_SAMPLES")

p("TRAU/RTP gateway",
  "For each sub-slot the gateway sends exactly the full rate and enhanced full rate frames that are not marked bad and whose check bits are right, in order, each as one RTP packet with its speech bits, and the RTP time stamp advances by 160 for every 20 ms, sent or not; each RTP packet with speech or without data, and each time the queue runs empty, puts exactly one valid 320 bit down-link frame with that speech on the sub-slot, other packets none; in local loop each frame appears on the other sub-slot instead, with its data, and no RTP is sent; two gateways back to back carry the speech from frame to frame; no frame and no packet can make it fail.",
  "all sequences of frames, losses of synchronisation, RTP packets and empty queues on the two sub-slots, all contents of uninitialised buffers",
  "the time stamp of a packet depends on all frames before it, and what the decoder makes of a frame on all its bits",
  "contrib/trau2rtp/trau2rtp.c:sync_frame_out_cb", "contrib/trau2rtp/trau2rtp.c:ortp_rx_cb", "contrib/trau2rtp/trau2rtp.c:mux_q_empty_cb", "contrib/trau2rtp/trau2rtp.c:opposite_schan", "contrib/trau2rtp/trau2rtp.c:init", "contrib/trau2rtp/trau2rtp.c:main")

p("TRAU/RTP gateway: from the bits of the line to the RTP stream",
  "However the bits of a sub-slot are cut into pieces, whatever arrives on the other sub-slot and by RTP in between: once a frame was recognised, every 320 bits are taken as one frame as long as no three in a row have wrong alignment bits, every good speech frame among them is sent as one RTP packet, and its time stamp is that of its place in the bit stream, 160 for every 320 bits; nothing else is sent and nothing fails. What is put out to the line of each sub-slot depends on its RTP packets and empty queues only, not on the bits received: one 320 bit frame for each packet with speech or without data and for each empty queue.",
  "all bit streams and all ways of cutting them, all interleavings with the other sub-slot, RTP packets and empty queues, all contents of uninitialised memory",
  "the time stamp depends on the whole history of the synchroniser, including losses of alignment",
  "contrib/trau2rtp/trau2rtp.c:i460_demux_bits_cb", "contrib/trau2rtp/trau2rtp.c:sync_frame_out_cb", "src/trau/trau_sync.c:osmo_trau_sync_rx_ubits")

out = os.path.join(os.path.dirname(os.path.abspath(__file__)), "..", "properties.jsonl")
with open(out, "w") as f:
    for o in P: f.write(json.dumps(o) + "\n")
print(len(P))
