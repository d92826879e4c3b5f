# further groups: g(ids, title, source, modules, modelled, not modelled, method)
g("C136-C142", "DAHDI driver", "src/input/dahdi.c", "Verif.Dahdi, Spec.Dahdi, Proof.Dahdi, Proof.DahdiRun, Props.Dahdi",
  "reading the spans, the channel numbers, the loop of dahdi_e1_setup with all its branches and errors, every event handler, queues, timer, LAPD output, exceptions, freed lines; the kernel's answers are arbitrary",
  "logging, allocation failures, dahdi_vty_show, the contents of the ioctl() requests for buffers; multiplexer and LAPD are inputs here (own groups)",
  "invariants over all histories (descriptor non-zero where registered, cache equal to the last answer), a balance relation for opening and closing, first-in first-out by induction over histories; a simulation of the configured types for the safety of proper histories; full domain evaluation only for bit reversal of one octet")
g("C143-C150", "mISDN driver", "src/input/misdn.c", "Verif.Misdn, Spec.Misdn, Proof.Misdn, Proof.MisdnUpd, Proof.MisdnRun, Proof.MisdnLink, Props.Misdn",
  "the loop of mi_e1_setup with all its branches and errors, the D-channel, both variants of LAPD, every event handler, queues, timer, flow control, alarms, Sa bits, links with kernel channels, freed lines; the kernel's answers are arbitrary",
  "logging, allocation failures, return values of the event callbacks, big endian hosts, the id and tei of sent signalling headers (uninitialised in the code); multiplexer and LAPD are inputs here (own groups)",
  "invariants over all histories, a balance relation for sockets, coherence of the signals and first-in first-out by induction over histories, a simulation of the configured types for the safety of proper histories; full domain evaluation only for one octet")
g("C151-C153", "Chains", "src/trau/trau_frame.c, trau_sync.c, trau_rtp_conv.c, src/subchan_demux.c", "Spec.Chain, Props.Chain",
  "nothing new: the theorems compose the models of the coder, converter, synchroniser, multiplexer and demultiplexer",
  "frames lengthened or shortened for time alignment in the stream; re-acquisition after a loss (C21, C22)",
  "composition of C13-C15, C18, C19, C23, C25, C32, C33, C70, C74 by induction over the sequence of frames")
g("C154", "TRAU synchroniser, user acting within the call-back", "src/trau/trau_sync.c", "Verif.TrauSyncRe, Proof.TrauSyncRe, Props.TrauSyncRe",
  "both receive loops with the program counter kept apart from the state variable, an arbitrary user who selects patterns within each call-back depending on all call-backs so far",
  "feeding bits or freeing the instance from within the call-back",
  "refinement to a bit-by-bit machine with an invariant; agreement with the model of C15-C22 for a user who makes no changes")
g("C155", "CCM handler of IPA client connections", "src/input/ipaccess.c:775-845", "Verif.IpaCcm, Spec.IpaCcm, Props.IpaCcm",
  "ipaccess_bts_handle_ccm with all its branches, on any connection the client API can produce",
  "what libosmocore's CCM functions send on their own and how they parse (their results are arbitrary)",
  "case analysis over all results; composition with the client connection (C39, C40) and the BSC (C59, C121)")
g("C156", "Chain: Ericsson CCU", "src/trau/trau_sync.c, src/trau/trau_pcu_ericsson.c", "Props.ChainEr",
  "nothing new: the theorems compose the models of the synchroniser and of the decoder",
  "frames lengthened or shortened for time alignment in the stream",
  "composition of C15, C18, C19, C36, C37, C70")
g("C157", "Trace file for all lines", "src/e1_input.c:142-216, 1074-1098", "Verif.E1Input, Props.E1Pcap",
  "e1_set_pcap_fd, e1_set_pcap_fd2 and the trace part of e1inp_line_update, histories of them with LAPD instances",
  "clones and lines freed (C128), the global shutdown (shutdown_lapd_violated)",
  "invariant over histories: the descriptors handed over and not closed are exactly those of the lines and the global one")
g("C158", "LAPD parameters", "src/input/lapd.c:84-139, 230-277, 710-714", "Verif.Lapd, Props.LapdParams",
  "the profiles offered, and what of a profile is copied into a new data link",
  "the use of the timers and of the window by libosmocore; n202, T201 and T202 (not used by the code)",
  "induction over histories: every data link is an old one or was set up by this very step with the profile in force")
g("C159", "Demultiplexer: re-entrant call-back", "src/subchan_demux.c:82-192", "Verif.DemuxRe, Props.DemuxRe",
  "append_bit_resync_out and the loops of subch_demux_in with a call-back that has a state of its own and calls activate, deactivate and init",
  "subch_demux_in called from the call-back",
  "the call-back's calls commute with what is done after it returns; induction over octets with the activity determined from the history")
g("C160", "Chain: ip.access BTS and BSC", "src/input/ipaccess.c, src/input/ipa.c", "Props.ChainIpa",
  "nothing new: the theorems compose the models of BTS and BSC with the splitting of the octet stream by IPA headers",
  "TCP and the segmentation in libosmocore (trusted to be splitIpa)",
  "composition of C102, C118, C122 by induction over the messages")
g("C161", "Multiplexer: frames of any length", "src/subchan_demux.c:204-338", "Props.MuxAny, Spec.MuxAny",
  "nothing new: the model of the multiplexer (Verif.Mux) with frames of any length, against a specification of one sub-channel",
  "as for C11-C13",
  "the loop of get_subch_bits is computed for each number of bits left in the first and second frame; induction over octets and histories")
g("C162", "Serial line: transmission", "src/input/rs232.c:81-113, 191-211; src/e1_input.c:293-327, 977-1028", "Props.Rs232Drv, Spec.Rs232Drv",
  "the driver with the queues of the links, the events of the select loop, and setting up (Verif.Rs232Drv); reception is that of Verif.Rs232",
  "settings of the port, the pause behind a message, tracing",
  "conservation of messages by induction over histories; the number of messages written is computed for every order of sending and writability")
g("C163", "Serial line: setting up", "src/input/rs232.c:214-289", "Props.Rs232Drv",
  "rs232_setup with the result of each system call as a parameter",
  "as for C162",
  "case analysis over the outcomes, for every state")
g("C164", "IPA proxy: configuration", "src/ipa_proxy.c:594-640", "Props.IpaProxyCfg",
  "ipa_cfg_write (Verif.IpaProxyCfg) on the model of the proxy (Verif.IpaProxy); lines are given by their fields",
  "the text of the lines",
  "invariants of the lists of instances and routes (names and identities differ, types of the ends of a route) for all histories; the lines are read one by one")
g("C165", "IPA proxy: addresses and ports", "src/ipa_proxy.c:161-206, 211-255, 307-456", "Props.IpaProxyNet, Spec.IpaProxyNet",
  "addresses, ports, listening sockets and clients (Verif.IpaProxyNet), added to the model of the proxy (Verif.IpaProxy)",
  "failures of the client connection; inet_aton() and atoi() are parameters",
  "every instance is traced back to the command that created it, by induction over histories; the sockets are then computed")
g("C166", "RTP sockets: descriptors", "src/trau/osmo_ortp.c:248-266, 371-508, 615-710", "Props.OrtpNet, Spec.OrtpNet",
  "the sockets of the session, the copies of their numbers, and the registration (Verif.OrtpNet)",
  "sockets left by a bind of oRTP that failed half way; addresses themselves",
  "one step lemma with five effects, composed by induction over histories; the specification is computed from the history alone")
g("C167", "E1 lines: show commands", "src/e1_input_vty.c:447-614, src/input/dahdi.c:530-547", "Props.E1Show, Spec.E1Show",
  "the rows of octets the commands print (Verif.E1Show)",
  "rate counters, the conversions of vty_out (numbers and texts are rendered by own functions, which are proved equal to Lean's)",
  "decimal numbers are read back; rows are split at the first octet that is no digit, names at the last driver name")
g("C168", "oRTP messages in the log", "src/trau/osmo_ortp.c:71-134", "Props.OrtpLog",
  "my_ortp_logfn with a vprintf for conversions of one letter (Verif.OrtpLog)",
  "flags, widths and precisions of conversions; the log header",
  "induction over formats: a prefix without percent signs and a final newline are passed through")
g("C169", "IPA proxy: a proxied connection", "src/ipa_proxy.c:102-206, src/input/ipa.c:330-337", "Props.IpaProxyPair, Spec.IpaProxyPair",
  "the server connection, the client connection and the tables of the route as one state; the events of both sockets with the callbacks of the proxy (Verif.IpaProxyPair)",
  "changes of the routes during the connection (C165), octets of a short send() (C53), allocation failures",
  "an invariant and two conservation equations per step, composed by induction over histories")
g("C170", "RTP sockets: statistics and conversions of time", "src/trau/osmo_ortp.c:726-751, include/osmocom/trau/osmo_ortp.h:17-34", "Props.OrtpStat",
  "the report as a function of the 64 bit counters of oRTP (Verif.OrtpStat)",
  "when oRTP counts; printing them in the log",
  "truncation is a homomorphism; linear arithmetic")
g("C171", "TRAU/RTP gateway", "contrib/trau2rtp/trau2rtp.c:24-330", "Props.Gateway, Props.GatewayDead, Spec.Gateway, Proof.Gateway",
  "the callbacks for frames, packets and empty queues on the two sub-slots, on the models of the frame codec, the conversion and the RTP sockets (Verif.Gw)",
  "the line itself: sub-slots and I.460 (libosmocore), the synchroniser (C17 and following), one of the two connect() failing without the other, allocation of msgb",
  "an effect per step (queue, stream as a continuation, clock), composed by induction over runs; the step uses C23, C27, C29, C32, C33")
g("C172", "TRAU/RTP gateway with its synchronisers", "contrib/trau2rtp/trau2rtp.c:76-151, 244-328", "Props.GatewayLine, Spec.GatewayLine",
  "the gateway of C171 composed with two synchronisers (Verif.Gw.Line); call-backs after osmo_trau_sync_rx_ubits instead of within",
  "the I.460 demultiplexer (libosmocore), the timer of the synchroniser (the program has no select loop, so it never fires)",
  "a history of the line is translated into one of the gateway whose frames are the events of the synchronisers; then C15, C18, C19 and C171")
