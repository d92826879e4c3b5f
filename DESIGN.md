# Formal model of libosmo-abis in Lean 4 — design

(This file is generated by `tools/design.py` from `tools/design_head.md`, `properties.jsonl` and `MANIFEST.json`.)

## Approach

* Every modelled C function becomes a small, total, computable Lean function; the comment on
  each definition cites the file and lines it models and states any simplification.
* The bit-level code (`ubit_t` arrays holding 0/1) is modelled with `Bool`; octets with `BitVec 8`
  (or `Nat` where only sizes matter). A C assertion failure, an out-of-bounds access, the use of
  uninitialised memory or of freed objects and undefined arithmetic are *distinct outcomes* of the model
  (`Fault.oob`, `.assert`, `.uninit`, `.badptr`, `.ub` in an `Except`), never silently totalised, so that
  "never happens" is a provable statement.
* Event-driven code (FSMs, queues, sockets, timers) is modelled as a step function
  `state → event → Except Fault (state × outputs)`; histories are lists of events; properties quantify over
  all lists and are proved by induction with an invariant. What the kernel, a daemon, a peer or an
  application call-back answers is part of the event, hence arbitrary; contracts the API demands of the caller are
  explicit hypotheses (`Adm…`, `…Ok`) and `example`s show that non-trivial histories meet them.
* Specifications live in `Verif/Spec/*.lean`, which do not use the helpers of the model beyond its data types.
  Property theorems live in `Verif/Props/*.lean` and are named after the property (`C17_…`); next to
  them are `example`s showing that their hypotheses are met by concrete non-trivial data. Invariants and
  lemmas are in `Verif/Proof/*.lean`.
* Where the code violates the property a user would expect, the expected property is kept in
  `properties.jsonl`, its negation is proved (`*_violated`; for all inputs of a class where possible, else with a concrete
  witness), and the part that does hold is proved as `*_partial`. For many of them a theorem `*_iff` or `*_exact…` gives
  the exact extent: the property holds for these inputs, states or histories and for no others.

## Trusted base

* The Lean 4.33.0 kernel. Axioms used by the theorems: at most `propext`, `Classical.choice` and
  `Quot.sound` (the three of Lean's library; each theorem's set is printed by `#print axioms`, and `vcheck` checks it).
  No own axioms, no compiled evaluation.
* `kernel_rfl` (`Verif/KernelRfl.lean`) is a tactic that closes `a = b` with `Eq.refl a` and leaves the whole
  check to the kernel; `decide +kernel` is used on *complete* finite domains (all octets, all table
  indices, all frame types) inside general proofs, and on concrete histories in witnesses and examples.
* The hand translation from C to Lean, cited line by line. It was tested with seeded mistakes
  (`seeded/LOG.jsonl`: edit of a definition, the claim it breaks, the theorems that fail), which tests the
  theorems, not the translation.
* The specifications in `Verif/Spec`, to be compared with the English in `properties.jsonl`, and the
  standards they quote (TS 48.060, 48.061, 44.021 layouts).
* Assumptions about other software, as stated at each use: libosmocore (FSM core refuses transitions
  outside `out_state_mask` and events outside `in_event_mask`; `llist`, `msgb`, write queues, timers, `osmo_fd`
  registration, i.e. call-backs only for registered descriptors with requested events), talloc (freeing a parent frees its
  children), libosmocodec (parameters), oRTP (arbitrary answers), the kernel and daemons (arbitrary answers).

## Not modelled

Allocation failures (unless stated), logging, statistics, the splitting of
command lines into words by libosmovty, the state machine of libosmogsm's lapd_core (arbitrary actions on
existing data links), termios, the sockets themselves, `src/init.c`, threads (the library is single-threaded).
Integer overflow is modelled where a caller or peer can reach it.

## Defects of the code found while proving

Every `*_violated` theorem exhibits one; the remarks below name them (status *partial*). Notable ones:
use after free in the IPA keepalive handling of ip.access lines (C117, C120), swapped DSCP and priority (C123), the
receive buffer of the RS232 driver overrun by a length octet (C57), the TRAU synchroniser's error counter that survives a loss
(C21), swapped call-back arguments in `lapd_instance_alloc` (C53), TEI identity responses that lose the reference number (C78),
misplaced bits in 16k O&M and 8k AMR 6.7 TRAU frames (C24, C26), translation tables of the IPA proxy used in
the wrong direction (C54), write events switched off with queued messages in several drivers (C40, C86, C106, C133).

## Plan and result per property

For each group: the C source, the Lean modules (under `lean/Verif/`), what is modelled, what is not,
and the method of proof; then one row per property. *partial* means: the property as stated in
`properties.jsonl` does not hold of the code (the negation is proved, `*_violated`) or is proved only
for part of its domain (`*_partial`); the note says which.

### RA2 and A-TRAU (RAA') (C01, C02, C03, C04, C05)

* Source: src/trau/csd_ra2.c, raa_prime_encode.c, raa_prime_decode.c
* Lean: `Ra2`, `RaaPrime`; `Props/Raa`
* Modelled: all functions of the three files, on bit lists with explicit buffer bounds
* Not modelled: nothing
* Method: induction over the length; invariant of the scan for Z sequences, induction over Z sequences; a run-length invariant excludes sync emulation

| id | property | status | theorems | remark |
|----|----|----|----|----|
| C01 | RA2 rate adaption is lossless | proved | `C01_ra2_8k`, `C01_ra2_16k`, `C01_ra2_8k_rx`, `C01_ra2_16k_rx` |  |
| C02 | A-TRAU frames carry any user data unchanged | proved | `C02_atrau_roundtrip`, `C02_atrau_ra2_roundtrip` |  |
| C03 | A-TRAU encoder stays in its buffers | proved | `C03_atrau_encode_safe` |  |
| C04 | A-TRAU frames never emulate the frame sync pattern | proved | `C04_no_sync_emulation`, `C04_sync_present` |  |
| C05 | A-TRAU decoder is safe on arbitrary input | proved | `C05_atrau_decode_safe`, `C05_atrau_ra2_decode_safe`, `C05_atrau_bad_header` |  |

### Sub-channel demultiplexer (C06, C07, C08, C09, C10, C62)

* Source: src/subchan_demux.c (demux half)
* Lean: `Demux`; `Spec/Demux`; `Props/Demux`
* Modelled: all functions; the counter of consecutive zeros is a 32-bit word; the data call-back is an output
* Not modelled: calls of the API from within the call-back
* Method: state invariant by induction over the bits and calls; chunking by the monoid law of the fold; isolation by projection of the state

| id | property | status | theorems | remark |
|----|----|----|----|----|
| C06 | Sub-channel demux: every delivered frame is a well-formed, complete frame | proved | `C06_demux_frames`, `C06_demux_active`, `C06_reachable_valid`, `C06_init_silent` |  |
| C07 | Sub-channel demux output does not depend on how the input is chunked | proved | `C07_demux_chunking` |  |
| C08 | Sub-channels are isolated from each other | proved | `C08_demux_isolation`, `C08_demux_inactive` |  |
| C09 | Sub-channel demux delivers every frame of an aligned stream | proved | `C09_demux_delivers`, `C09_wraparound_limit` | a run of 2^32-16 zero bits before the stream is excluded by the statement; C09_wraparound_limit shows why |
| C10 | Demux activation argument check | proved | `C10_activate_einval`, `C10_activate_exact`, `C10_negative_undefined` | negative sub-channel numbers are undefined behaviour (shift by a negative amount), see C10_negative_undefined |
| C62 | Re-initialising a demultiplexer starts from a clean state | partial | `C62_reinit_partial`, `C62_reinit_violated`, `C62_reinit_iff` | violated by the code (witness proved); C62_reinit_iff is the exact extent |

### Sub-channel multiplexer (C11, C12, C13, C14)

* Source: src/subchan_demux.c (mux half), trau_idle_frame
* Lean: `Mux`; `Props/Mux`
* Modelled: all functions incl. the scratch buffer of `alloc_add_idle_frame`/`get_subch_bits`; a buffer overrun is an error value
* Not modelled: allocation failure
* Method: queue invariant, induction over calls; C14 composes with C09

| id | property | status | theorems | remark |
|----|----|----|----|----|
| C11 | Mux transmit queue is bounded and drops oldest first | proved | `C11_enqueue_keeps_newest`, `C11_queue_bounded` |  |
| C12 | Mux output never overruns its scratch buffer | partial | `C12_no_overrun_partial`, `C12_overrun_violated`, `C12_bit_lost_violated`, `C161_exact` | holds for frames of even length; the code violates it for odd lengths (witnesses proved); the behaviour for frames of any length is characterised exactly, see C161 |
| C13 | Mux emits each queued frame in order, gap-free, padded with idle frames | proved | `C13_output`, `C13_history`, `C13_eviction_cuts_frames` |  |
| C14 | Mux followed by demux reproduces the frames | proved | `C14_mux_demux` |  |

### TRAU synchroniser (C15, C16, C17, C18, C19, C20, C21, C22, C70)

* Source: src/trau/trau_sync.c
* Lean: `TrauSync`; `Spec/TrauSync`, `Spec/Sync`; `Props/TrauSync`, `Props/SyncPat`
* Modelled: completely: the FSM with the semantics of libosmocore, the ring buffer, all pattern tables
* Not modelled: API calls made from within the frame call-back
* Method: refinement of the ring buffer to the list of received bits; induction over the history; the pattern tables are compared with TS 48.060/48.061 bit by bit

| id | property | status | theorems | remark |
|----|----|----|----|----|
| C15 | TRAU sync output does not depend on input chunking | proved | `C15_chunking` |  |
| C16 | TRAU sync: frame delivered on acquisition is the last frame-length of received bits and matches the pattern | proved | `C16_first_frame`, `C16_reacquired` |  |
| C17 | TRAU sync needs a full frame of real input before the first delivery | proved | `C17_full_frame_needed` |  |
| C18 | TRAU sync acquires alignment at the first matching window | proved | `C18_nothing_before`, `C18_first_match` |  |
| C19 | TRAU sync declares loss exactly on the third consecutive errored frame | proved | `C19_keeps_alignment`, `C19_loss` |  |
| C20 | TRAU sync never asserts or leaves its history buffer | proved | `C20_no_fault`, `C20_asserts`, `C20_assert_needed` | API calls made from within the frame call-back are not modelled |
| C21 | TRAU sync tolerance after re-acquisition | partial | `C21_tolerance_partial`, `C21_tolerance_violated`, `C21_history_exists` | the code violates it: the error counter is not reset by a loss (proved for every such history); holds once a good frame was received after re-acquisition |
| C22 | TRAU sync delivers only received bits | partial | `C22_received_bits_partial`, `C22_fresh_partial`, `C22_uninit_violated` | the code violates it after a loss (witness proved); holds until the first loss, and after a loss if the re-acquisition takes at least a frame length of bits |
| C70 | The synchroniser looks for exactly the alignment bits of the standards | partial | `C70_patterns`, `C70_table`, `C70_encoder`, `C70_edata_violated` | the patterns are proved exact; extended data frames do not match any 16k pattern (proved), 8k AMR 6.7 frames are encoded wrongly (C26) |

### TRAU frame codec (C23, C24, C25, C26, C27, C28, C29, C63, C64, C65, C66, C67, C68, C69)

* Source: src/trau/trau_frame.c
* Lean: `TrauFrame`; `Spec/TrauFrame`; `Props/TrauFrame`, `Props/TrauClass`
* Modelled: all encoders/decoders, both rates, time alignment; the output buffer has an explicit size; decoding reads only what the caller supplied
* Not modelled: osmo_trau_frame_dl_ta_us values that overflow `int` are an error value
* Method: symbolic evaluation in the kernel over free payload bits: the frame is a list of free variables, so one reduction covers all payloads; case split over the finite frame types; witnesses for the defects

| id | property | status | theorems | remark |
|----|----|----|----|----|
| C23 | 16k TRAU frames round-trip | proved | `C23_roundtrip`, `C23_idle` |  |
| C24 | 16k O&M TRAU frames round-trip | partial | `C24_oam_partial`, `C24_oam_violated`, `C24_oam_exact_partial`, `C24_survive_iff` | violated by the code (proved): D bits are shifted; what they become is proved exactly |
| C25 | 8k TRAU frames round-trip | proved | `C25_roundtrip` |  |
| C26 | 8k AMR 6.7 frames round-trip | partial | `C26_amr67_partial`, `C26_amr67_violated`, `C26_amr67_exact_partial` | violated by the code (proved); the frames that survive are characterised exactly |
| C27 | TRAU frame encode respects the output buffer | proved | `C27_encode_buffer`, `C27_overflow_undefined` | larger dl_ta_usec values overflow int (undefined behaviour, proved) |
| C28 | Time alignment of 16k downlink frames lengthens or shortens the frame as requested | partial | `C28_ta16_partial`, `C28_ta16_uplink`, `C28_ta16_violated`, `C28_ta16_exact_partial` | violated by the code for requests of more than 312 bits (proved); the lengths are proved exactly for every request |
| C29 | 16k frame type classification is total and table-exact | proved | `C29_classify`, `code_unique` | a buffer holding one more bit than a frame is required for O&M frames, see C64 |
| C63 | Encoded TRAU frames do not depend on the former buffer contents | partial | `C63_deterministic_partial`, `C63_oam8_violated`, `C63_amr67_violated`, `C63_deterministic_iff` | violated by the code for 8k O&M and AMR 6.7 frames (proved); exactly these |
| C64 | TRAU frame decoders read only one frame | partial | `C64_reads16_partial`, `C64_reads8_partial`, `C64_oam_violated`, `C64_amr67_violated`, `C64_reads16_iff`, `C64_reads8_iff` | violated by the code for every 16k O&M and every 8k AMR 6.7 frame (proved); exactly these |
| C65 | Idle TRAU frames carry the type code of their direction | partial | `C65_idle_direction_partial`, `C65_idle_direction_violated`, `C65_idle_direction_iff` | up-link idle frames carry the down-link code (proved) |
| C66 | TRAU frames have the wire layout of TS 48.060 / 48.061 | proved | `C66_wire_layout` | 16k O&M, 8k O&M and 8k AMR 6.7 are excluded, see C24, C26, C63 |
| C67 | Time alignment of 8k downlink frames | proved | `C67_ta8` |  |
| C68 | Requested time alignment is decoded as in the standards and closes the control loop | proved | `C68_request`, `C68_closed_loop16`, `C68_closed_loop8` |  |
| C69 | 8k TRAU frames are classified by their synchronisation pattern | proved | `C69_classify8`, `rows8_unique` | eight bits more than a frame must be readable for AMR 6.7 frames, see C64 |

### Legacy TRAU frame codec (C30, C31)

* Source: src/trau_frame.c
* Lean: `OldTrauFrame`; `Props/OldTrau`
* Modelled: all functions
* Not modelled: nothing
* Method: as for the TRAU frame codec

| id | property | status | theorems | remark |
|----|----|----|----|----|
| C30 | Legacy TRAU frame codec round-trips | proved | `C30_speech_roundtrip`, `C30_data_roundtrip`, `C30_decode_total` |  |
| C31 | Legacy up-link to down-link conversion | proved | `C31_up2down`, `C31_up2down_refused` |  |

### RTP conversion (C32, C33, C34, C35, C71, C72, C73, C74, C75)

* Source: src/trau/trau_rtp_conv.c
* Lean: `RtpConv`; `Spec/RtpConv`; `Props/Rtp*`
* Modelled: all conversions FR/EFR/HR16/HR8/data, CRCs bit by bit
* Not modelled: libosmocodec's SID classification and CRC parameters: parameters of the theorems; AMR conversion is not implemented in the C code
* Method: the bit tables are proved to be permutations (full enumeration of the table in the kernel); symbolic evaluation; CRC linearity; composition with C23/C25 for the end-to-end theorems

| id | property | status | theorems | remark |
|----|----|----|----|----|
| C32 | FR RTP <-> TRAU speech bits are a lossless permutation | proved | `C32_rtp2trau`, `C32_rtp2trau_control`, `C32_trau2rtp`, `C32_trau2rtp_tw`, `C32_roundtrip_rtp`, `C32_roundtrip_rtp_tw`, `C32_roundtrip_trau`, `C32_bad_frame`, `C32_nodata`, `C32_nodata_roundtrip`, `C32_malformed`, `C32_nospace` | libosmocodec's SID detection is a parameter |
| C33 | EFR RTP <-> TRAU conversion preserves speech and protects it by CRC | proved | `C33_rtp2trau`, `C33_rtp2trau_control`, `C33_trau2rtp`, `C33_trau2rtp_tw`, `C33_roundtrip_rtp`, `C33_roundtrip_rtp_tw`, `C33_roundtrip_trau`, `C33_burst`, `C33_single_bit`, `C33_bad_frame`, `C33_nodata`, `C33_malformed` | libosmocodec's SID detection and CRC-8 helpers are parameters |
| C34 | HR RTP <-> TRAU conversion preserves speech | proved | `C34_rtp2trau_16k`, `C34_rtp2trau_8k`, `C34_8k_uplink`, `C34_malformed`, `C34_trau2rtp_16k`, `C34_trau2rtp_16k_tw`, `C34_trau2rtp_8k`, `C34_trau2rtp_8k_tw`, `C34_roundtrip_16k`, `C34_roundtrip_8k`, `C34_roundtrip_trau_16k`, `C34_burst` |  |
| C35 | CSD clearmode RTP <-> TRAU data frames preserve V.110 contents | proved | `C35_trau2rtp_data8`, `C35_trau2rtp_data16`, `C35_trau2rtp_hr`, `C35_rtp2trau_data8`, `C35_rtp2trau_data16`, `C35_rtp2trau_hr`, `C35_roundtrip_data8`, `C35_roundtrip_data16`, `C35_roundtrip_hr`, `C35_roundtrip_rtp_hr`, `C35_roundtrip_rtp_data8`, `C35_edata_roundtrip`, `C35_edata_idle` |  |
| C71 | RTP <-> TRAU conversion stays within its buffers | proved | `C71_trau2rtp_safe`, `C71_rtp2trau_safe` |  |
| C72 | A frame converted from RTP depends on the payload only | partial | `C72_fr`, `C72_efr`, `C72_hr8`, `C72_hr16_partial`, `C72_hr16_violated`, `C72_hr16_iff` | violated by the code: C15 of an uplink 16k HR frame keeps its old value (proved) |
| C73 | No payload to send becomes an idle frame in the downlink | partial | `C73_fr_violated`, `C73_efr_violated`, `C73_nodata_partial` | violated by the code: down-link FR/EFR no-data frames are sent as speech frames (proved) |
| C74 | RTP payloads survive RTP -> TRAU -> wire -> TRAU -> RTP | proved | `C74_fr`, `C74_efr`, `C74_hr16`, `C74_hr8`, `C74_data8`, `C74_data16`, `C74_dataHr`, `C74_data8k` |  |
| C75 | No payload never turns into speech | partial | `C75_nodata_partial`, `C75_hr8_violated` | violated by the code for 8k HR in the down-link (proved) |

### Ericsson PCU-CCU frames (C36, C37, C38, C76, C77)

* Source: src/trau/trau_pcu_ericsson.c
* Lean: `Ericsson`; `Spec/Ericsson`; `Props/Ericsson*`
* Modelled: 16k and 64k encoders and decoders for all coding schemes
* Not modelled: the hex dump helpers
* Method: symbolic evaluation over free payload bits, table of the documented layout as independent specification; parity/CRC arguments by linearity

| id | property | status | theorems | remark |
|----|----|----|----|----|
| C36 | Ericsson 16k PCU-CCU frames follow the documented layout | proved | `C36_encode_sync`, `C36_encode_data`, `C36_encode_refused`, `C36_decode_sync`, `C36_decode_data` | the encoder handles PCU -> CCU frames and the decoder CCU -> PCU frames, so there is no round trip; the spare bits in front of PSEQ are sent as 1, the diagram in the code shows 0 |
| C37 | Ericsson 64k PCU-CCU frames follow the documented layout | partial | `C37_decode_sync`, `C37_decode_data_partial`, `C37_decode_mcs9_partial`, `C37_encode_data_partial`, `C37_encode_sync_partial`, `C37_encode_refused`, `C37_encode_data_violated`, `C37_encode_sync_violated`, `C37_error_never_signalled_violated`, `C37_bep_violated`, `C37_decode_mcs9_violated`, `C37_mcs9_lost_violated` | violated by the code (proved): C8 and PC are misplaced, FN_SS is truncated, mean/CV BEP are mixed up, MCS-9 blocks lose 15 bits; everything else is proved exact |
| C38 | Corrupted Ericsson CCU-PCU frames are rejected | proved | `C38_sync16`, `C38_control16`, `C38_extended16`, `C38_tbits16`, `C38_crc16`, `C38_sync64`, `C38_control64`, `C38_extended64`, `C38_crc64` |  |
| C76 | Ericsson PCU-CCU coders are memory safe and total | proved | `C76_decode`, `C76_encode16`, `C76_encode64` |  |
| C77 | What the Ericsson 64k decoder delivers is determined by the frame | partial | `C77_independent_partial`, `C77_violated`, `C77_independent_iff` | violated by the code for every MCS-9 frame (proved) |

### IPA client, server, keepalive (C39, C40, C41, C95, C96, C97, C98, C99, C100, C101, C102)

* Source: src/input/ipa.c, src/input/ipa_keepalive.c
* Lean: `IpaClient`, `IpaServer`, `IpaKeepalive`; `Spec/Ipa*`; `Props/Ipa*`
* Modelled: all functions; the kernel (results of connect/read/write) and the call-backs are inputs of the step function, their answers arbitrary
* Not modelled: libosmocore's message reassembly is modelled by its documented effect
* Method: step function, invariants by induction over all event lists; witnesses are concrete histories evaluated by the kernel

| id | property | status | theorems | remark |
|----|----|----|----|----|
| C39 | IPA client connection life cycle | proved | `C39_lifecycle`, `C39_no_callback`, `C39_open_once`, `C39_open`, `C39_close_idempotent`, `C39_reports` | for histories in which the object is destroyed while closed and not in the down callback of a failed write, see C95 |
| C40 | IPA transmit queue is FIFO and lossless while connected | partial | `C40_fifo`, `C40_freed_once`, `C40_write_event`, `C40_wake_partial`, `C40_wake_violated` | order and no duplication are proved; violated by the code: a message queued while connecting stays queued because write events are disabled when the connection is established (proved) |
| C41 | IPA keepalive detects a dead peer and never a live one | proved | `C41_no_false_alarm`, `C41_detects`, `C41_report_once`, `C41_interval`, `C41_next_ping`, `C41_stop_silent`, `C41_start`, `C41_terminates` | for non-zero parameters; wait_zero_violated and interval_zero_violated show what happens otherwise; a generic connection needs a send callback (generic_no_send_violated) |
| C95 | IPA client connections can be destroyed at any time | partial | `C39_lifecycle`, `destroy_in_down_violated`, `destroy_open_violated` | violated by the code in the down callback of a failed write and while the connection is open (proved); C39_lifecycle covers destruction in all other situations |
| C96 | IPA client messages arrive complete or the loss is reported | partial | `C40_freed_once`, `C40_lossless_violated`, `stale_queue_sent`, `no_read_cb_leaks_violated` | violated by the code (proved): short writes and EAGAIN lose data silently, the queue survives a reconnect, received messages leak without callback |
| C97 | IPA server connection life cycle | proved | `server_lifecycle`, `server_once`, `server_lost` | callbacks follow the documented contract: -EBADF after destruction in the read callback, no error from ccm_cb after destruction |
| C98 | IPA server transmit queue is FIFO | proved | `server_fifo`, `server_write_event` |  |
| C99 | IPA server messages are neither leaked nor lost silently | partial | `server_fifo`, `server_queue_leaked_violated`, `server_send_error_violated` | violated by the code (proved) |
| C100 | IPA server CCM handling | partial | `server_ccm`, `server_ccm_cb_error`, `server_ccm_result_violated`, `server_ccm_destroy_violated`, `server_ccm_null_violated` | the handling is proved; violated by the code: returning its result -1 from the read callback is a use after free (proved) |
| C101 | IPA listening sockets: every descriptor is closed exactly once | partial | `link_fds`, `link_open_twice_violated`, `link_open_twice_every_violated` | descriptor accounting is proved; opening twice is never refused (proved) |
| C102 | IPA message headers delimit messages | proved | `ipa_header_roundtrip` |  |

### E1 input core (C42, C43, C44, C45, C46, C47, C84, C85, C86, C87, C88, C89, C90, C91, C92)

* Source: src/e1_input.c
* Lean: `E1Input`; `Spec/E1`; `Props/E1`, `E1Cfg`, `E1Hist`
* Modelled: lines, timeslots, signalling links, tx queues, timers, reference counts, line cloning, pcap descriptors; drivers are an arbitrary environment
* Not modelled: statistics, signals other than link events, name tables
* Method: one well-formedness invariant over all histories; ghost ledgers (sent / delivered / freed) for exactly-once properties

| id | property | status | theorems | remark |
|----|----|----|----|----|
| C42 | Signalling messages reach exactly the link with matching TEI and SAPI | proved | `rx_routing` | the application callback is an action; what it does is a further operation of the history |
| C43 | Signalling transmit: per-link FIFO, no loss, no duplication | proved | `sign_tx_fifo`, `tx_ts_sign` |  |
| C44 | Signalling transmit is fair between links | partial | `fair_partial`, `fair_later_partial`, `fair_violated` | violated by the code (proved for every number of rounds): links earlier in the list have strict priority; only these can delay a message without end: traffic on its own and on later links cannot (fair_later_partial) |
| C45 | A timeslot with active signalling links cannot be re-typed | partial | `config_same_partial`, `config_retype_partial`, `config_rc`, `retype_violated`, `retype_every_violated` | violated by the code (proved): the return value of the cleanup is ignored; re-typing without active links is proved correct |
| C46 | E1 line reference counting | proved | `line_refcount`, `link_keeps_line` |  |
| C47 | E1 line numbers are unique | proved | `line_numbers_unique`, `line_create_find`, `line_create_exact` |  |
| C84 | Every message handed to the E1 input core is disposed of exactly once | partial | `messages_accounted`, `messages_conserved_partial`, `line_free_leaks_violated` | violated by the code: messages queued in raw/HDLC timeslots of a freed line are lost (proved); everything else is accounted for |
| C85 | Signalling links are destroyed exactly once | proved | `link_freed_once` |  |
| C86 | Queued signalling messages wake up the driver | partial | `queued_wakes_partial`, `queued_wakes_violated`, `destroy_stuck_every_violated` | violated by the code whenever a link is destroyed while its timeslot waits for the delay timer (proved); holds for histories without destruction while others wait |
| C87 | Link events carry the matching link | partial | `event_signal`, `dlsap_up_map`, `event_type_violated`, `event_type_every_violated` | violated by the code only in that the timeslot type is not checked (proved) |
| C88 | A cloned line is independent of the original | partial | `clone_partial`, `clone_configured_violated` | violated by the code for lines with configured timeslots (proved) |
| C89 | Timeslot lookup stays within the line | partial | `ts_get_partial`, `ts_get_violated`, `ts_get_exact_partial` | violated by the code for ts_nr 0 and above 32 (proved); the result is characterised for all numbers |
| C90 | A timeslot re-configured for signalling is ready to send | partial | `config_retype_partial`, `line_refcount`, `sign_timer_violated` | violated by the code: the timer is not initialised after TRAU/I.460 (proved); sending after other previous types is covered by line_refcount (no fault in any admissible history) |
| C91 | pcap descriptors are owned by one user and never used after close | partial | `pcap_fd_set`, `sendmsg_traced`, `shutdown_closes`, `clone_pcap_violated`, `shutdown_lapd_violated` | violated by the code: clones share the descriptor, LAPD instances keep it after shutdown (proved) |
| C92 | A TRAU timeslot always has data to transmit | proved | `tx_trau_len` |  |

### LAPD (C48, C49, C50, C51, C52, C53, C78, C79, C80, C81, C82, C83)

* Source: src/input/lapd.c
* Lean: `Lapd`; `Spec/Lapd`; `Props/Lapd`, `LapdHist`
* Modelled: TEI management, SAP life cycle, header codec, receive path, pcap hook
* Not modelled: libosmogsm's lapd_core state machine: its calls into this file are arbitrary actions of the environment
* Method: codec proved for all header values; list invariants by induction over histories

| id | property | status | theorems | remark |
|----|----|----|----|----|
| C48 | LAPD header encoding and parsing are inverse | proved | `C48_wire_layout`, `C48_roundtrip` | frames for TEI 127 are TEI management, see C51 |
| C49 | LAPD parser is memory safe | proved | `C49_no_fault`, `C49_truncated`, `C49_badlen_only`, `C52_history` |  |
| C50 | LAPD frames with bad length do not leak | partial | `C50_consumed_once_partial`, `C50_violated`, `C50_consumed_iff` | violated by the code for every frame with a truncated header (proved) |
| C51 | TEI assignment | proved | `C51_identity_request`, `C51_answers_distinct`, `C51_other_ignored`, `C52_history`, `C51_tei_alloc_duplicates` | the application must not call the public lapd_tei_alloc() for a registered TEI |
| C52 | LAPD SAP life cycle | proved | `C52_start_existing`, `C52_start_new`, `C52_stop`, `C52_transmit`, `C52_release`, `C52_history` | the data link state machine is libosmocore's: any behaviour on existing data links is allowed |
| C53 | Deprecated lapd_instance_alloc passes its callbacks correctly | partial | `C53_alloc2_callbacks`, `C53_violated` | violated by the code: callback and data are swapped (proved); lapd_instance_alloc2 is correct |
| C78 | TEI identity assignment answers the request it belongs to | partial | `C78_reference_zero_partial`, `C78_reference_not_echoed`, `C78_reference_iff` | violated by the code for every non-zero reference number (proved) |
| C79 | LAPD frames reach only the data link they are addressed to | proved | `C79_addressed_only`, `C79_unknown_tei` |  |
| C80 | Every LAPD SAP that can be started can be used | partial | `C80_usable_partial`, `C80_violated`, `C80_usable_iff` | violated by the code for SAPIs above 63, which lapd_sap_start accepts (proved) |
| C81 | LAPD input from a timeslot reports unknown TEIs and is safe | partial | `C81_event_partial`, `C81_violated`, `C81_safe_iff` | violated by the code: reads beyond frames of zero and one octets (proved); exactly these |
| C82 | LAPD SAPs are freed exactly once | proved | `C82_freed_exactly_once` |  |
| C83 | The LAPD pcap trace is complete and ordered | proved | `C83_trace` |  |

### IPA proxy (C54, C55, C107, C108, C109)

* Source: src/ipa_proxy.c
* Lean: `IpaProxy`; `Spec/IpaProxy`; `Props/IpaProxy`
* Modelled: instances, routes, shared connections, translation and forwarding, deletion
* Not modelled: VTY text; sockets (see IPA client/server)
* Method: invariant of the route table and of the ownership of shared objects; use after free is an error value

| id | property | status | theorems | remark |
|----|----|----|----|----|
| C54 | IPA proxy forwards with the configured stream id translation | partial | `C54_forwarding`, `C54_identity_partial`, `C54_swapped_violated`, `C54_first_route_violated`, `C54_src_closed_violated` | violated by the code: the translation tables are used in the wrong direction, and routes other than the first use freed objects after its deletion (proved); what is forwarded is characterised exactly for all admissible histories, and the property holds if no stream id is changed |
| C55 | IPA proxy route table rejects duplicates | partial | `C55_duplicate_partial`, `C55_duplicate_violated`, `C55_refused_iff` | violated by the code: only the first route between two instances is compared (proved) |
| C107 | IPA proxy: an instance can be deleted exactly when no route uses it | proved | `C107_refcount`, `C107_delete` |  |
| C108 | IPA proxy: deleting routes and instances is safe and leaves the others working | partial | `C108_delete_partial`, `C108_last_route_violated`, `C108_unknown_instance_violated`, `C108_overlap_violated`, `C108_instance_fault_iff`, `C108_route_fault_iff` | violated by the code when the last route between two instances or an unknown instance is deleted or streams overlap (all proved); holds for all other histories |
| C109 | IPA proxy: instance names are unique | partial | `C109_names_partial`, `C109_long_name_violated`, `C109_names_iff` | violated by the code for names of 16 and more octets (proved); holds for shorter names |

### RS232 driver (C56, C57, C103)

* Source: src/input/rs232.c
* Lean: `Rs232`; `Spec/Rs232`; `Props/Rs232`
* Modelled: framing, receive buffer, transmit path
* Not modelled: termios set-up
* Method: induction over the fragmentation of reads

| id | property | status | theorems | remark |
|----|----|----|----|----|
| C56 | RS232 framing round-trips for any read fragmentation | proved | `C56_fragmentation`, `C56_roundtrip`, `C56_header` | payloads up to 290 octets, the size of the buffer; a frame with an announced length of 0 is delivered one event late (zero_length_delayed) |
| C57 | RS232 receiver never overruns its buffer | partial | `C57_safe_partial`, `C57_overrun_violated`, `C57_use_after_free_violated`, `C57_safe_iff` | violated by the code: frames announcing more than 298 octets overrun the buffer, and after a read error the freed buffer is used (both proved); safe otherwise; without read errors it is safe exactly if no frame has more than 300 octets (proved) |
| C103 | RS232 output keeps the line synchronised and messages are not leaked | partial | `write_complete_partial`, `short_write_violated`, `no_callback_leaks_violated`, `no_callback_every_violated`, `C103_complete_iff` | violated by the code for short writes and lines without callback (proved) |

### Unix socket driver (C58, C104, C105, C106)

* Source: src/input/unixsocket.c
* Lean: `Unixsocket`; `Spec/Unixsocket`; `Props/Unixsocket`
* Modelled: framing, control messages, connection, reconnection timer
* Not modelled: the socket itself (results of calls are inputs)
* Method: invariant of the descriptor table over all histories

| id | property | status | theorems | remark |
|----|----|----|----|----|
| C58 | Unix socket driver framing | proved | `C58_roundtrip`, `C58_accepted`, `C58_control` | frames of up to 1582 octets; longer packets are truncated (C58_accepted) |
| C104 | Unix socket driver: only its own descriptors are used, each closed exactly once | partial | `C104_descriptors_partial`, `C104_stale_fd_violated`, `C104_stdin_violated`, `C104_update_violated` | violated by the code after a failed reconnection, before the first connection and when a connected line is updated (all proved); holds otherwise |
| C105 | Unix socket driver: reconnection | partial | `C105_altc_first`, `C105_reconnect`, `C105_no_retry_violated` | the first packet and the immediate reconnection are proved; violated by the code: a failed reconnection is not retried (proved) |
| C106 | Unix socket driver: queued messages wake the driver | partial | `C106_wake_partial`, `C106_wake_violated` | violated by the code: a reconnection disables write events (proved) |

### ip.access numbering (C59)

* Source: src/input/ipaccess.c, include/osmocom/abis/e1_input.h
* Lean: `IpAccess`; `Props/IpAccess`
* Modelled: the mapping helpers
* Not modelled: -
* Method: arithmetic

| id | property | status | theorems | remark |
|----|----|----|----|----|
| C59 | ip.access timeslot/TRX mapping | proved | `C59_roundtrip`, `C59_oml`, `C59_slot`, `C59_refused` | the TRX number derived from the OML time slot is 0, like that of TRX 0; the type of the link tells them apart (C59_slot) |

### RTP sockets (C60, C110, C111, C112, C113)

* Source: src/trau/osmo_ortp.c
* Lean: `Ortp`; `Spec/Ortp`; `Props/Ortp`
* Modelled: socket life cycle, time stamps, reception, jitter settings
* Not modelled: oRTP itself (results of its functions are inputs)
* Method: induction over histories

| id | property | status | theorems | remark |
|----|----|----|----|----|
| C60 | RTP transmit timestamps advance by the declared durations | proved | `C60_timestamp`, `C60_only_send` | a frame that cannot be allocated does not advance the clock, one that cannot be sent does |
| C110 | RTP sockets send and receive nothing before they are connected | proved | `C110_disabled` |  |
| C111 | RTP sockets register their descriptors exactly once | partial | `C111_registration_partial`, `C111_registered`, `C111_reconnect_violated` | violated by the code: every second connect of a listening socket registers the descriptors again (proved); holds for sockets connected at most once and in polling mode |
| C112 | RTP reception delivers every packet once, unchanged | proved | `C112_receive` |  |
| C113 | RTP jitter buffer settings | proved | `C113_params` |  |

### pcap traces (C61, C93, C94)

* Source: src/input/lapd_pcap.c, src/e1_input.c (pcap part)
* Lean: `Pcap`; `Spec/Pcap`; `Props/Pcap`, `Props/PcapFail`
* Modelled: file contents as octet list, partial writes
* Not modelled: the file system
* Method: list reasoning; parser of the file as independent specification

| id | property | status | theorems | remark |
|----|----|----|----|----|
| C61 | PCAP records describe exactly the frame written | proved | `C61_record`, `C61_file`, `C61_no_file`, `C61_short` | for complete writes; see C93 for short ones |
| C93 | pcap files survive failed writes | partial | `C93_before_partial`, `C93_whole_partial`, `C61_short`, `short_write_violated`, `open_double_close_violated` | violated by the code: the fragment of a short write stays in the file, the descriptor is closed twice (proved). Proved: the frames before any failure stay readable, and all frames do if failing writes leave nothing behind |
| C94 | pcap records of signalling messages show direction and address | partial | `C61_sign_file`, `C61_sign_header`, `sign_direction_violated` | violated by the code: the packet type is in host order and the same for both directions (proved); everything else holds |

### ip.access, BSC side (C114, C115, C116, C117, C118)

* Source: src/input/ipaccess.c
* Lean: `IpAccess`; `Spec/IpAccess`; `Props/IpAccess`
* Modelled: accept, CCM identification, line cloning, sign links, keepalive, transmission, receive path
* Not modelled: address printing
* Method: invariant over all histories with arbitrary peers

| id | property | status | theorems | remark |
|----|----|----|----|----|
| C114 | ip.access BSC: a line lives exactly as long as it is used | proved | `C114_lines`, `C114_slots`, `C114_sign_slots` |  |
| C115 | ip.access BSC: every connection is attached to its time slot | partial | `C115_attached_partial`, `C115_reconnect_violated`, `C115_reconnect_every_violated` | violated by the code: the end of an old connection detaches the new one of the same TRX (proved for all such histories); holds if the time slot is free when a BTS connects |
| C116 | ip.access BSC: no identification crashes it | partial | `C116_safe_partial`, `C116_trx_violated`, `C116_every_trx_violated`, `C116_assert_violated` | violated by the code: TRX numbers above 30 are a null pointer dereference, a repeated identification aborts (proved); safe for all histories with well-behaved peers |
| C117 | ip.access BSC: keepalive | partial | `C117_keepalive_partial`, `C117_timeout_violated`, `C117_dangling_violated` | violated by the code: every expiry uses a freed object, and a connection that changes its line leaves a dangling FSM (proved) |
| C118 | ip.access BSC: messages are sent once, in order, on the right connection | partial | `C118_sent`, `C118_not_held`, `C118_channel`, `C118_receive`, `C118_pcap_violated` | proved for links of the known types; violated by the code: a dropped message of another type is used after free if the line is traced (proved) |

### ip.access, BTS side (C119, C120, C121, C122)

* Source: src/input/ipaccess.c
* Lean: `IpAccessBts`; `Spec/IpAccessBts`; `Props/IpAccessBts`
* Modelled: client connections per timeslot, identity response, keepalive, transmission
* Not modelled: -
* Method: invariant over all histories with arbitrary peers

| id | property | status | theorems | remark |
|----|----|----|----|----|
| C119 | ip.access BTS: clients belong to their time slots | proved | `C119_exact`, `C119_lineUpdate`, `C119_rslConnect`, `C119_rslClose`, `C119_connected`, `C119_ping` | TRX numbers without a time slot: see C120 |
| C120 | ip.access BTS: nothing crashes it | partial | `C120_safe_partial`, `C120_step_iff`, `C120_safe_iff`, `C120_pong_violated`, `C120_pong_reachable`, `C120_empty_violated`, `C120_timeout_violated`, `C120_trx_violated`, `C120_closed_violated`, `C120_pcap_violated` | violated by the code: a PONG without keepalive, an empty CCM message, every keepalive expiry, TRX numbers above 30, use of links of closed clients and traced messages of unconnected clients (all proved); safe for all other histories |
| C121 | ip.access BTS: identity, end to end | proved | `C121_identity`, `C121_same_slot` |  |
| C122 | ip.access BTS: messages are sent and received once | proved | `C122_fates`, `C122_sent`, `C122_only`, `C122_receive` | abis_sendmsg() returns 0 also for dropped messages |

### ip.access sockets (C123, C125)

* Source: src/input/ipaccess.c
* Lean: `IpAccessCfg`; `Props/IpAccessCfg`
* Modelled: line update, DSCP/priority arguments, listening sockets
* Not modelled: the sockets
* Method: case analysis; witnesses

| id | property | status | theorems | remark |
|----|----|----|----|----|
| C123 | ip.access: sockets have the configured DSCP and priority | partial | `C123_settings_partial`, `C123_swapped_violated`, `C123_iff` | violated by the code: DSCP and priority are swapped at all four places (proved); addresses and ports are right |
| C125 | ip.access BSC: listening sockets | partial | `C125_update_partial`, `C125_first`, `C125_retry_violated`, `C125_second_line_violated` | violated by the code: after a failure of the RSL socket every retry fails, as does every second line (proved); the rest is proved |

### Configuration (C124, C126, C127)

* Source: src/e1_input_vty.c
* Lean: `E1Vty`; `Spec/E1Vty`; `Props/E1Vty`
* Modelled: all configuration commands after word splitting, config write
* Not modelled: `show` commands (C167); word splitting by libosmovty
* Method: the written configuration is replayed symbolically; induction over lines

| id | property | status | theorems | remark |
|----|----|----|----|----|
| C124 | TCP keepalive as configured | proved | `C124_tcp` | for values set by commands; the API allows values that overflow (example) |
| C126 | Configuration: what is written can be read again | partial | `C126_roundtrip_partial`, `C126_socket_violated`, `C126_no_lines_violated` | violated by the code: socket paths, and without lines the settings of the IPA driver, are not written (proved); holds otherwise. Commands are modelled after they were split into words by libosmovty |
| C127 | Configuration: effect of commands | partial | `C127_effect`, `C127_nonexistent_partial`, `C127_noPcap_violated`, `C127_safe`, `C127_driver`, `C127_invariant`, `C127_fault_iff` | violated by the code: `no e1_line pcap` for a line that does not exist follows a null pointer (proved); holds for all other commands |

### Traces and keepalive parameters of clones (C128, C129)

* Source: src/e1_input.c, src/e1_input_vty.c, src/input/ipaccess.c, lapd.c
* Lean: `LineTrace`; `Spec/LineTrace`; `Props/LineTrace`
* Modelled: ownership of descriptors and parameter blocks shared by clones
* Not modelled: -
* Method: invariant over histories

| id | property | status | theorems | remark |
|----|----|----|----|----|
| C128 | Traces record the packets of a line in the file configured | partial | `C128_line`, `C128_all_partial`, `C128_clone_violated`, `C128_lapd_violated` | violated by the code: clones keep the descriptor of a trace that was stopped, LAPD instances created later are not traced (proved); holds for the line itself in all histories |
| C129 | IPA keepalive parameters of connections | partial | `C129_keepalive_partial`, `C129_stale_violated` | violated by the code: clones keep a pointer to parameters that were freed (proved); holds if they are not changed while there are connections |

### osmo-e1d driver (C130, C131, C132, C133, C134, C135)

* Source: src/input/e1d.c
* Lean: `E1d`; `Spec/E1d`; `Props/E1d`
* Modelled: line update, connection and reconnection, descriptors per timeslot, raw/HDLC/TRAU read and write, alarms
* Not modelled: the daemon (its answers are inputs)
* Method: invariant over all histories; refinement of the descriptor table

| id | property | status | theorems | remark |
|----|----|----|----|----|
| C130 | osmo-e1d: descriptors of time slots | partial | `C130_descriptors_partial`, `C130_assert`, `C130_unregistered_twice_violated`, `C130_leak_violated` | violated by the code if the daemon reports fewer time slots than before, and buffers leak on read errors and short blocks (proved); holds for all histories with a daemon that reports all time slots |
| C131 | osmo-e1d: reconnection and configuration | proved | `C131_retry`, `C131_started`, `C131_reconnect`, `C131_again`, `C131_update` | for a daemon that reports all time slots; an update of a connected line relies on the modes the daemon reports |
| C132 | osmo-e1d: raw and HDLC messages once and in order | proved | `C132_fifo`, `C132_receive`, `C132_short_write_violated` | what is given to write() is exact; a short write loses the rest of the message (C132_short_write_violated) |
| C133 | osmo-e1d: queued messages are written | partial | `C133_watched_partial`, `C133_drain`, `C133_update_violated`, `C133_reconnect_violated` | violated by the code: an update of the line and a reconnection stop the watching (proved); holds for histories without them |
| C134 | osmo-e1d: TRAU time slots | partial | `C134_rev`, `C134_block`, `C134_paced`, `C134_i460_violated` | proved for TRAU time slots; I.460 time slots are opened but never served (proved for all histories) |
| C135 | osmo-e1d: alarms | partial | `C135_alarm_partial`, `C135_unknown`, `C135_truncated_violated`, `C135_other_driver_violated`, `C135_truncated_every_violated`, `C135_first_every_violated`, `C135_alarm_iff` | violated by the code for interfaces above 15 and lines of other drivers with the same port number (proved); holds if port numbers are unique |

### DAHDI driver (C136, C137, C138, C139, C140, C141, C142)

* Source: src/input/dahdi.c
* Lean: Verif.Dahdi, Spec.Dahdi, Proof.Dahdi, Proof.DahdiRun, Props.Dahdi
* Modelled: reading the spans, the channel numbers, the loop of dahdi_e1_setup with all its branches and errors, every event handler, queues, timer, LAPD output, exceptions, freed lines; the kernel's answers are arbitrary
* Not modelled: logging, allocation failures, dahdi_vty_show, the contents of the ioctl() requests for buffers; multiplexer and LAPD are inputs here (own groups)
* Method: invariants over all histories (descriptor non-zero where registered, cache equal to the last answer), a balance relation for opening and closing, first-in first-out by induction over histories; a simulation of the configured types for the safety of proper histories; full domain evaluation only for bit reversal of one octet

| id | property | status | theorems | remark |
|----|----|----|----|----|
| C136 | DAHDI: channel numbers | partial | `C136_channel_number_partial`, `C136_channel_number_unique`, `C136_port_violated`, `C136_span_violated` | violated by the code: ports above 127 and spans with more than 32 channels are accessed behind the end of arrays (proved); holds otherwise |
| C137 | DAHDI: descriptors of time slots | partial | `C137_descriptors_partial`, `C137_stdin_violated`, `C137_release_violated`, `C137_retry_violated` | violated by the code for the descriptor 0, for freed lines and in that a failed open is never repeated (proved); holds for all other histories |
| C138 | DAHDI: time slots are as configured | partial | `C138_as_configured_partial`, `C138_update_frame`, `C138_safe_partial`, `C138_hdlc_violated`, `C138_failed_update_violated` | violated by the code: HDLC keeps the LAPD instance of a former use, a failed update leaves a signalling time slot without one (proved); the rest holds for all histories, and all proper ones are safe when requests succeed |
| C139 | DAHDI: HDLC frames arrive as they were sent | partial | `C139_hdlc_roundtrip_partial`, `C139_short_violated`, `C139_lapd_frames`, `C139_hdlc_exact_partial` | violated by the code for messages of one octet (proved); holds for 2 to 282 octets; what is delivered is characterised for all lengths |
| C140 | DAHDI: queued messages go out once and in order | partial | `C140_order`, `C140_config_frees`, `C140_wake_partial`, `C140_progress`, `C140_idle`, `C140_stuck_violated` | order and completeness are proved for all histories; an update of the line stops the watching while messages are queued (proved) |
| C141 | DAHDI: blocks of TRAU, I.460 and raw time slots | proved | `C141_rev_bits`, `C141_trau_block`, `C141_i460_block`, `C141_raw_block`, `C141_short_block` |  |
| C142 | DAHDI: events | proved | `C142_events_exact`, `C142_lapd_events_exact` |  |

### mISDN driver (C143, C144, C145, C146, C147, C148, C149, C150)

* Source: src/input/misdn.c
* Lean: Verif.Misdn, Spec.Misdn, Proof.Misdn, Proof.MisdnUpd, Proof.MisdnRun, Proof.MisdnLink, Props.Misdn
* Modelled: the loop of mi_e1_setup with all its branches and errors, the D-channel, both variants of LAPD, every event handler, queues, timer, flow control, alarms, Sa bits, links with kernel channels, freed lines; the kernel's answers are arbitrary
* Not modelled: logging, allocation failures, return values of the event callbacks, big endian hosts, the id and tei of sent signalling headers (uninitialised in the code); multiplexer and LAPD are inputs here (own groups)
* Method: invariants over all histories, a balance relation for sockets, coherence of the signals and first-in first-out by induction over histories, a simulation of the configured types for the safety of proper histories; full domain evaluation only for one octet

| id | property | status | theorems | remark |
|----|----|----|----|----|
| C143 | mISDN: signals of a line are coherent | proved | `C143_coherent`, `C143_alternate`, `C143_indication_exact`, `C143_means_unique` |  |
| C144 | mISDN: sockets are opened and closed in pairs | partial | `C144_descriptors_partial`, `C144_stdin_violated`, `C144_release_violated` | false if the standard input is closed (descriptor 0 is never closed) and if a line is freed (its descriptors stay registered); proved for all other histories |
| C145 | mISDN: time slots are as configured | partial | `C145_as_configured_partial`, `C145_d_channel`, `C145_suits`, `C145_complete`, `C145_untouched`, `C145_retry_violated`, `C145_i460_violated` | false after a failed request: later updates return 0 without repeating it; I.460 time slots are bound to channel 0 and not served; the rest is proved |
| C146 | mISDN: queued messages go out once, in order, and not faster than confirmed | partial | `C146_order`, `C146_flow`, `C146_sign_awake`, `C146_b_awake_partial`, `C146_progress`, `C146_config_frees`, `C146_idle`, `C146_short_violated`, `C146_early_violated` | order and flow control are proved; a refused block, or a message sent before the first update, leaves the queue without event (proved) |
| C147 | mISDN: octets of frames | proved | `C147_rev_bits`, `C147_receive`, `C147_send` |  |
| C148 | mISDN: no frame or history leads to undefined behaviour | partial | `C148_safe_partial`, `C148_no_leak_partial`, `C148_short_frame_violated`, `C148_room_violated`, `C148_retype_violated`, `C148_leak_violated` | proved for histories that use the API properly; witnesses for frames without header, messages without room, retyped time slots and lost buffers |
| C149 | mISDN: signalling links with LAPD in the kernel | proved | `C149_channel`, `C149_lookup`, `C149_send`, `C149_receive` |  |
| C150 | mISDN: Sa bits | partial | `C150_sa_exact_partial`, `C150_sa_round`, `C150_unused_violated` | the request is exact; if time slot 16 is not in use it is written to descriptor 0 |

### Chains (C151, C152, C153)

* Source: src/trau/trau_frame.c, trau_sync.c, trau_rtp_conv.c, src/subchan_demux.c
* Lean: Spec.Chain, Props.Chain
* Modelled: nothing new: the theorems compose the models of the coder, converter, synchroniser, multiplexer and demultiplexer
* Not modelled: frames lengthened or shortened for time alignment in the stream; re-acquisition after a loss (C21, C22)
* Method: composition of C13-C15, C18, C19, C23, C25, C32, C33, C70, C74 by induction over the sequence of frames

| id | property | status | theorems | remark |
|----|----|----|----|----|
| C151 | Encoded TRAU frames reach the receiver through the synchroniser | proved | `C151_blocks`, `C151_stream`, `C151_decoded` | frame types the synchroniser can follow (see C70), sent in their standard length |
| C152 | Encoded TRAU frames reach the receiver through multiplexer and demultiplexer | proved | `C152_clean`, `C152_mux` | all types but extended data, which has no alignment bits behind the first 17 |
| C153 | Calls arrive as they were sent, from RTP to RTP | proved | `C153_sender`, `C153_sync`, `C153_mux` | up-link, receiver without TW-TS-001 extension |

### TRAU synchroniser, user acting within the call-back (C154)

* Source: src/trau/trau_sync.c
* Lean: Verif.TrauSyncRe, Proof.TrauSyncRe, Props.TrauSyncRe
* Modelled: both receive loops with the program counter kept apart from the state variable, an arbitrary user who selects patterns within each call-back depending on all call-backs so far
* Not modelled: feeding bits or freeing the instance from within the call-back
* Method: refinement to a bit-by-bit machine with an invariant; agreement with the model of C15-C22 for a user who makes no changes

| id | property | status | theorems | remark |
|----|----|----|----|----|
| C154 | Changing the synchronisation pattern from within the frame call-back | partial | `C154_no_fault`, `C154_silent`, `C154_new_pattern_violated`, `C154_chunking_partial`, `C154_next_call_partial`, `C154_next_call_exists` | safety is proved for every admissible user; after a change made while a frame is delivered the rest of the buffer is still cut into frames without the new pattern being found, and the division into calls shows (proved); both hold for changes on loss of alignment, and from the next call on |

### CCM handler of IPA client connections (C155)

* Source: src/input/ipaccess.c:775-845
* Lean: Verif.IpaCcm, Spec.IpaCcm, Props.IpaCcm
* Modelled: ipaccess_bts_handle_ccm with all its branches, on any connection the client API can produce
* Not modelled: what libosmocore's CCM functions send on their own and how they parse (their results are arbitrary)
* Method: case analysis over all results; composition with the client connection (C39, C40) and the BSC (C59, C121)

| id | property | status | theorems | remark |
|----|----|----|----|----|
| C155 | CCM messages on an IPA client connection are handled by the public handler | partial | `C155_other`, `C155_id_get`, `C155_result`, `C155_silent`, `C155_slot`, `C155_same_slot`, `C155_safe_partial`, `C155_safe_iff`, `C155_pong_violated`, `C155_empty_violated`, `C155_short_ack_violated`, `C155_queue_violated` | crashes on a PONG without keepalive FSM and on an empty CCM message; a short write of the ID ACK is not noticed; -1 returned through the read callback loses a queued message (all proved) |

### Chain: Ericsson CCU (C156)

* Source: src/trau/trau_sync.c, src/trau/trau_pcu_ericsson.c
* Lean: Props.ChainEr
* Modelled: nothing new: the theorems compose the models of the synchroniser and of the decoder
* Not modelled: frames lengthened or shortened for time alignment in the stream
* Method: composition of C15, C18, C19, C36, C37, C70

| id | property | status | theorems | remark |
|----|----|----|----|----|
| C156 | Frames of an Ericsson CCU reach the user through the synchroniser | partial | `C156_stream16`, `C156_ccu16`, `C156_stream64`, `C156_ccu64`, `C156_mcs9_alone_violated`, `C156_mcs9_first_violated` | proved for streams that begin with a frame of the primary pattern (a sync frame); MCS-9 frames before the first other frame are not delivered since only the primary pattern is searched, and without the secondary pattern the third MCS-9 frame in a row is lost (both proved) |

### Trace file for all lines (C157)

* Source: src/e1_input.c:142-216, 1074-1098
* Lean: Verif.E1Input, Props.E1Pcap
* Modelled: e1_set_pcap_fd, e1_set_pcap_fd2 and the trace part of e1inp_line_update, histories of them with LAPD instances
* Not modelled: clones and lines freed (C128), the global shutdown (shutdown_lapd_violated)
* Method: invariant over histories: the descriptors handed over and not closed are exactly those of the lines and the global one

| id | property | status | theorems | remark |
|----|----|----|----|----|
| C157 | The trace file for all lines | partial | `C157_owned`, `C157_set`, `C157_update`, `C157_no_lapd_violated`, `C157_update_violated` | ownership of descriptors is proved for all histories without clones and shutdown (see C128 for clones); violated by the code: only LAPD instances that exist are traced, and an update of a line ends its trace (proved) |

### LAPD parameters (C158)

* Source: src/input/lapd.c:84-139, 230-277, 710-714
* Lean: Verif.Lapd, Props.LapdParams
* Modelled: the profiles offered, and what of a profile is copied into a new data link
* Not modelled: the use of the timers and of the window by libosmocore; n202, T201 and T202 (not used by the code)
* Method: induction over histories: every data link is an old one or was set up by this very step with the profile in force

| id | property | status | theorems | remark |
|----|----|----|----|----|
| C158 | Data links work with the parameters of the LAPD profile | proved | `C158_params`, `C158_fixed`, `C158_profiles` |  |

### Demultiplexer: re-entrant call-back (C159)

* Source: src/subchan_demux.c:82-192
* Lean: Verif.DemuxRe, Props.DemuxRe
* Modelled: append_bit_resync_out and the loops of subch_demux_in with a call-back that has a state of its own and calls activate, deactivate and init
* Not modelled: subch_demux_in called from the call-back
* Method: the call-back's calls commute with what is done after it returns; induction over octets with the activity determined from the history

| id | property | status | theorems | remark |
|----|----|----|----|----|
| C159 | Changing sub-channels from within the frame call-back | proved | `C159_safe_active`, `C159_frames`, `C159_isolation`, `C159_example` | calls of subch_demux_in from within the call-back are not modelled |

### Chain: ip.access BTS and BSC (C160)

* Source: src/input/ipaccess.c, src/input/ipa.c
* Lean: Props.ChainIpa
* Modelled: nothing new: the theorems compose the models of BTS and BSC with the splitting of the octet stream by IPA headers
* Not modelled: TCP and the segmentation in libosmocore (trusted to be splitIpa)
* Method: composition of C102, C118, C122 by induction over the messages

| id | property | status | theorems | remark |
|----|----|----|----|----|
| C160 | Signalling messages between BTS and BSC, end to end | proved | `C160_uplink`, `C160_downlink`, `C160_example` | messages of 1 to 65535 octets, TEIs other than those of the IPA protocols 0xfe and 0xee |

### Multiplexer: frames of any length (C161)

* Source: src/subchan_demux.c:204-338
* Lean: Props.MuxAny, Spec.MuxAny
* Modelled: nothing new: the model of the multiplexer (Verif.Mux) with frames of any length, against a specification of one sub-channel
* Not modelled: as for C11-C13
* Method: the loop of get_subch_bits is computed for each number of bits left in the first and second frame; induction over octets and histories

| id | property | status | theorems | remark |
|----|----|----|----|----|
| C161 | What the multiplexer sends of frames of any length | proved | `C161_exact`, `C161_even` | the exact behaviour; where the scratch buffer is overrun is part of the statement |

### Serial line: transmission (C162)

* Source: src/input/rs232.c:81-113, 191-211; src/e1_input.c:293-327, 977-1028
* Lean: Props.Rs232Drv, Spec.Rs232Drv
* Modelled: the driver with the queues of the links, the events of the select loop, and setting up (Verif.Rs232Drv); reception is that of Verif.Rs232
* Not modelled: settings of the port, the pause behind a message, tracing
* Method: conservation of messages by induction over histories; the number of messages written is computed for every order of sending and writability

| id | property | status | theorems | remark |
|----|----|----|----|----|
| C162 | Serial line: every message is written, once and in order | partial | `C162_order_partial`, `C162_octets`, `C162_exact_partial`, `C162_paced_partial`, `C162_stall_violated`, `C162_two_violated`, `C162_before_violated` | order and conservation hold for all histories; that every message gets written is violated by the code (write events are not asked for again while messages are queued), the extent is exact |

### Serial line: setting up (C163)

* Source: src/input/rs232.c:214-289
* Lean: Props.Rs232Drv
* Modelled: rs232_setup with the result of each system call as a parameter
* Not modelled: as for C162
* Method: case analysis over the outcomes, for every state

| id | property | status | theorems | remark |
|----|----|----|----|----|
| C163 | Serial line: setting up a line | partial | `C163_fail_iff`, `C163_success_partial`, `C163_update_violated`, `C163_leak_violated` | violated by the code: a descriptor stays open if its attributes cannot be read or set, and updating a line in operation registers its descriptor twice |

### IPA proxy: configuration (C164)

* Source: src/ipa_proxy.c:594-640
* Lean: Props.IpaProxyCfg
* Modelled: ipa_cfg_write (Verif.IpaProxyCfg) on the model of the proxy (Verif.IpaProxy); lines are given by their fields
* Not modelled: the text of the lines
* Method: invariants of the lists of instances and routes (names and identities differ, types of the ends of a route) for all histories; the lines are read one by one

| id | property | status | theorems | remark |
|----|----|----|----|----|
| C164 | IPA proxy: the written configuration restores the proxy | partial | `C164_roundtrip_partial`, `C164_long_name_violated`, `C164_duplicate_violated`, `C164_addresses_partial` | holds for names of up to 15 octets and streams used once; violated otherwise |

### IPA proxy: addresses and ports (C165)

* Source: src/ipa_proxy.c:161-206, 211-255, 307-456
* Lean: Props.IpaProxyNet, Spec.IpaProxyNet
* Modelled: addresses, ports, listening sockets and clients (Verif.IpaProxyNet), added to the model of the proxy (Verif.IpaProxy)
* Not modelled: failures of the client connection; inet_aton() and atoi() are parameters
* Method: every instance is traced back to the command that created it, by induction over histories; the sockets are then computed

| id | property | status | theorems | remark |
|----|----|----|----|----|
| C165 | IPA proxy: addresses and ports | partial | `C165_instance`, `C165_listen_partial`, `C165_connect`, `C165_invalid_violated`, `C165_address_violated` | violated by the code: it listens at 0.0.0.0 whatever address was given, accepts strings that are no address, and takes ports modulo 65536 (proved); the rest holds |

### RTP sockets: descriptors (C166)

* Source: src/trau/osmo_ortp.c:248-266, 371-508, 615-710
* Lean: Props.OrtpNet, Spec.OrtpNet
* Modelled: the sockets of the session, the copies of their numbers, and the registration (Verif.OrtpNet)
* Not modelled: sockets left by a bind of oRTP that failed half way; addresses themselves
* Method: one step lemma with five effects, composed by induction over histories; the specification is computed from the history alone

| id | property | status | theorems | remark |
|----|----|----|----|----|
| C166 | RTP sockets: only the descriptors of the session are used | partial | `C166_closed`, `C166_own_partial`, `C166_ports`, `C166_connect`, `C166_autoconnect`, `C166_stdin_violated`, `C166_fresh_violated`, `C166_rebind_violated` | violated by the code: descriptor 0 is used before the socket is bound (in polling mode also after connecting), and the numbers of closed sockets are used and watched after a bind has failed (proved for all such histories); the half-way failure of a bind inside oRTP is not modelled |

### E1 lines: show commands (C167)

* Source: src/e1_input_vty.c:447-614, src/input/dahdi.c:530-547
* Lean: Props.E1Show, Spec.E1Show
* Modelled: the rows of octets the commands print (Verif.E1Show)
* Not modelled: rate counters, the conversions of vty_out (numbers and texts are rendered by own functions, which are proved equal to Lean's)
* Method: decimal numbers are read back; rows are split at the first octet that is no digit, names at the last driver name

| id | property | status | theorems | remark |
|----|----|----|----|----|
| C167 | E1 lines: what the show commands print | proved | `C167_line`, `C167_lines`, `C167_line_faithful`, `C167_slot`, `C167_slots`, `C167_slots_all`, `C167_slot_faithful` | configurations are those of C127 (CfgOk per line), 32 time slots per line; rate counters (stats) are not modelled |

### oRTP messages in the log (C168)

* Source: src/trau/osmo_ortp.c:71-134
* Lean: Props.OrtpLog
* Modelled: my_ortp_logfn with a vprintf for conversions of one letter (Verif.OrtpLog)
* Not modelled: flags, widths and precisions of conversions; the log header
* Method: induction over formats: a prefix without percent signs and a final newline are passed through

| id | property | status | theorems | remark |
|----|----|----|----|----|
| C168 | oRTP messages in the log | partial | `C168_text_partial`, `C168_level`, `C168_newline`, `C168_domain_violated` | violated by the code: the name of the domain becomes part of the format, so a percent sign in it is taken as a conversion (C168_domain_violated); proved for names without percent signs |

### IPA proxy: a proxied connection (C169)

* Source: src/ipa_proxy.c:102-206, src/input/ipa.c:330-337
* Lean: Props.IpaProxyPair, Spec.IpaProxyPair
* Modelled: the server connection, the client connection and the tables of the route as one state; the events of both sockets with the callbacks of the proxy (Verif.IpaProxyPair)
* Not modelled: changes of the routes during the connection (C165), octets of a short send() (C53), allocation failures
* Method: an invariant and two conservation equations per step, composed by induction over histories

| id | property | status | theorems | remark |
|----|----|----|----|----|
| C169 | IPA proxy: a proxied connection | partial | `C169_forward`, `C169_safe_partial`, `C169_no_hangup`, `C169_wake`, `C169_dst_lost_violated`, `C169_wake_violated`, `C169_src_lost_violated`, `C169_open_failed_violated` | proved for all histories: exactly the routed messages, in their order, each once, translated, are handed to send() or still queued (C169_forward), and no fault unless the destination sends a routed message after the peer is gone (C169_safe_partial). Violated by the code: the loss of one side is not passed on to the other (C169_no_hangup): after the destination is lost nothing is ever sent and all is queued (C169_dst_lost_violated), after the peer is lost its freed connection is used (C169_src_lost_violated); what arrives before the connection to the destination is established is not sent until more arrives (C169_wake, C169_wake_violated); if the client cannot be opened the accepted descriptor is closed while it is still registered (C169_open_failed_violated) |

### RTP sockets: statistics and conversions of time (C170)

* Source: src/trau/osmo_ortp.c:726-751, include/osmocom/trau/osmo_ortp.h:17-34
* Lean: Props.OrtpStat
* Modelled: the report as a function of the 64 bit counters of oRTP (Verif.OrtpStat)
* Not modelled: when oRTP counts; printing them in the log
* Method: truncation is a homomorphism; linear arithmetic

| id | property | status | theorems | remark |
|----|----|----|----|----|
| C170 | RTP sockets: statistics and conversions of time | partial | `C170_stats`, `C170_none`, `C170_delta`, `C170_samples`, `C170_fn_violated`, `C170_fn_error` | the statistics and the samples are proved; violated by the code: GSM_FN_TO_MS takes a TDMA frame as 4 ms instead of 120/26 ms, so it is right for no frame number above 1 (C170_fn_violated) |

### TRAU/RTP gateway (C171)

* Source: contrib/trau2rtp/trau2rtp.c:24-330
* Lean: Props.Gateway, Props.GatewayDead, Spec.Gateway, Proof.Gateway
* Modelled: the callbacks for frames, packets and empty queues on the two sub-slots, on the models of the frame codec, the conversion and the RTP sockets (Verif.Gw)
* Not modelled: the line itself: sub-slots and I.460 (libosmocore), the synchroniser (C17 and following), one of the two connect() failing without the other, allocation of msgb
* Method: an effect per step (queue, stream as a continuation, clock), composed by induction over runs; the step uses C23, C27, C29, C32, C33

| id | property | status | theorems | remark |
|----|----|----|----|----|
| C171 | TRAU/RTP gateway | partial | `C171_safe`, `C171_rtp`, `C171_unique`, `C171_stream_unique`, `C171_queued`, `C171_mute`, `C171_e2e_partial`, `C171_alloc_violated`, `C171_fr_violated`, `C171_connect_violated` | proved for all runs from the initial state, if both sockets could be connected and (C171_rtp) oRTP can allocate its packets. Violated by the code: if a packet cannot be allocated its 20 ms are lost from the time stamp (C171_alloc_violated); full rate frames are sent but never accepted, so they are not carried between two gateways (C171_fr_violated, with C171_e2e_partial for enhanced full rate); if the remote address cannot be set the program runs on and never sends or receives a packet (C171_connect_violated) |

### TRAU/RTP gateway with its synchronisers (C172)

* Source: contrib/trau2rtp/trau2rtp.c:76-151, 244-328
* Lean: Props.GatewayLine, Spec.GatewayLine
* Modelled: the gateway of C171 composed with two synchronisers (Verif.Gw.Line); call-backs after osmo_trau_sync_rx_ubits instead of within
* Not modelled: the I.460 demultiplexer (libosmocore), the timer of the synchroniser (the program has no select loop, so it never fires)
* Method: a history of the line is translated into one of the gateway whose frames are the events of the synchronisers; then C15, C18, C19 and C171

| id | property | status | theorems | remark |
|----|----|----|----|----|
| C172 | TRAU/RTP gateway: from the bits of the line to the RTP stream | partial | `C172_safe`, `C172_line`, `C172_uplink`, `C172_downlink`, `C172_clock_violated` | proved: the stream for all histories, as a function of the frames the synchroniser finds (C172_line), and frame by frame while alignment is kept (C172_uplink). Violated by the code: while alignment is lost no call-back is made, so the time stamp stops (C172_clock_violated) |
