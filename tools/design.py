#!/usr/bin/env python3
# generates DESIGN.md: prose below + per-property table from properties.jsonl and MANIFEST.json
import json, os
root = os.path.dirname(os.path.dirname(os.path.abspath(__file__)))

HEAD = open(os.path.join(root, "tools", "design_head.md")).read()

def ids(spec):
    r = []
    for part in spec.split(","):
        part = part.strip()
        if "-" in part:
            a, b = part.split("-")
            r += ["C%02d" % i for i in range(int(a[1:]), int(b[1:]) + 1)]
        else:
            r.append(part)
    return r

# (properties, title, C source, Lean model / spec / theorems, modelled, not modelled, method)
G = []
def g(spec, title, src, mods, modelled, unmod, method):
    G.append((ids(spec), title, src, mods, modelled, unmod, method))

g("C01-C05", "RA2 and A-TRAU (RAA')", "src/trau/csd_ra2.c, raa_prime_encode.c, raa_prime_decode.c",
  "`Ra2`, `RaaPrime`; `Props/Raa`",
  "all functions of the three files, on bit lists with explicit buffer bounds",
  "nothing",
  "induction over the length; invariant of the scan for Z sequences, induction over Z sequences; a run-length invariant excludes sync emulation")
g("C06-C10,C62", "Sub-channel demultiplexer", "src/subchan_demux.c (demux half)",
  "`Demux`; `Spec/Demux`; `Props/Demux`",
  "all functions; the counter of consecutive zeros is a 32-bit word; the data call-back is an output",
  "calls of the API from within the call-back",
  "state invariant by induction over the bits and calls; chunking by the monoid law of the fold; isolation by projection of the state")
g("C11-C14", "Sub-channel multiplexer", "src/subchan_demux.c (mux half), trau_idle_frame",
  "`Mux`; `Props/Mux`",
  "all functions incl. the scratch buffer of `alloc_add_idle_frame`/`get_subch_bits`; a buffer overrun is an error value",
  "allocation failure",
  "queue invariant, induction over calls; C14 composes with C09")
g("C15-C22,C70", "TRAU synchroniser", "src/trau/trau_sync.c",
  "`TrauSync`; `Spec/TrauSync`, `Spec/Sync`; `Props/TrauSync`, `Props/SyncPat`",
  "completely: the FSM with the semantics of libosmocore, the ring buffer, all pattern tables",
  "API calls made from within the frame call-back",
  "refinement of the ring buffer to the list of received bits; induction over the history; the pattern tables are compared with TS 48.060/48.061 bit by bit")
g("C23-C29,C63-C69", "TRAU frame codec", "src/trau/trau_frame.c",
  "`TrauFrame`; `Spec/TrauFrame`; `Props/TrauFrame`, `Props/TrauClass`",
  "all encoders/decoders, both rates, time alignment; the output buffer has an explicit size; decoding reads only what the caller supplied",
  "osmo_trau_frame_dl_ta_us values that overflow `int` are an error value",
  "symbolic evaluation in the kernel over free payload bits: the frame is a list of free variables, so one reduction covers all payloads; case split over the finite frame types; witnesses for the defects")
g("C30-C31", "Legacy TRAU frame codec", "src/trau_frame.c",
  "`OldTrauFrame`; `Props/OldTrau`", "all functions", "nothing", "as for the TRAU frame codec")
g("C32-C35,C71-C75", "RTP conversion", "src/trau/trau_rtp_conv.c",
  "`RtpConv`; `Spec/RtpConv`; `Props/Rtp*`",
  "all conversions FR/EFR/HR16/HR8/data, CRCs bit by bit",
  "libosmocodec's SID classification and CRC parameters: parameters of the theorems; AMR conversion is not implemented in the C code",
  "the bit tables are proved to be permutations (full enumeration of the table in the kernel); symbolic evaluation; CRC linearity; composition with C23/C25 for the end-to-end theorems")
g("C36-C38,C76-C77", "Ericsson PCU-CCU frames", "src/trau/trau_pcu_ericsson.c",
  "`Ericsson`; `Spec/Ericsson`; `Props/Ericsson*`",
  "16k and 64k encoders and decoders for all coding schemes",
  "the hex dump helpers",
  "symbolic evaluation over free payload bits, table of the documented layout as independent specification; parity/CRC arguments by linearity")
g("C39-C41,C95-C102", "IPA client, server, keepalive", "src/input/ipa.c, src/input/ipa_keepalive.c",
  "`IpaClient`, `IpaServer`, `IpaKeepalive`; `Spec/Ipa*`; `Props/Ipa*`",
  "all functions; the kernel (results of connect/read/write) and the call-backs are inputs of the step function, their answers arbitrary",
  "libosmocore's message reassembly is modelled by its documented effect",
  "step function, invariants by induction over all event lists; witnesses are concrete histories evaluated by the kernel")
g("C42-C47,C84-C92", "E1 input core", "src/e1_input.c",
  "`E1Input`; `Spec/E1`; `Props/E1`, `E1Cfg`, `E1Hist`",
  "lines, timeslots, signalling links, tx queues, timers, reference counts, line cloning, pcap descriptors; drivers are an arbitrary environment",
  "statistics, signals other than link events, name tables",
  "one well-formedness invariant over all histories; ghost ledgers (sent / delivered / freed) for exactly-once properties")
g("C48-C53,C78-C83", "LAPD", "src/input/lapd.c",
  "`Lapd`; `Spec/Lapd`; `Props/Lapd`, `LapdHist`",
  "TEI management, SAP life cycle, header codec, receive path, pcap hook",
  "libosmogsm's lapd_core state machine: its calls into this file are arbitrary actions of the environment",
  "codec proved for all header values; list invariants by induction over histories")
g("C54-C55,C107-C109", "IPA proxy", "src/ipa_proxy.c",
  "`IpaProxy`; `Spec/IpaProxy`; `Props/IpaProxy`",
  "instances, routes, shared connections, translation and forwarding, deletion",
  "VTY text; sockets (see IPA client/server)",
  "invariant of the route table and of the ownership of shared objects; use after free is an error value")
g("C56-C57,C103", "RS232 driver", "src/input/rs232.c", "`Rs232`; `Spec/Rs232`; `Props/Rs232`",
  "framing, receive buffer, transmit path", "termios set-up", "induction over the fragmentation of reads")
g("C58,C104-C106", "Unix socket driver", "src/input/unixsocket.c", "`Unixsocket`; `Spec/Unixsocket`; `Props/Unixsocket`",
  "framing, control messages, connection, reconnection timer", "the socket itself (results of calls are inputs)",
  "invariant of the descriptor table over all histories")
g("C59", "ip.access numbering", "src/input/ipaccess.c, include/osmocom/abis/e1_input.h", "`IpAccess`; `Props/IpAccess`",
  "the mapping helpers", "-", "arithmetic")
g("C60,C110-C113", "RTP sockets", "src/trau/osmo_ortp.c", "`Ortp`; `Spec/Ortp`; `Props/Ortp`",
  "socket life cycle, time stamps, reception, jitter settings", "oRTP itself (results of its functions are inputs)",
  "induction over histories")
g("C61,C93-C94", "pcap traces", "src/input/lapd_pcap.c, src/e1_input.c (pcap part)", "`Pcap`; `Spec/Pcap`; `Props/Pcap`, `Props/PcapFail`",
  "file contents as octet list, partial writes", "the file system", "list reasoning; parser of the file as independent specification")
g("C114-C118", "ip.access, BSC side", "src/input/ipaccess.c", "`IpAccess`; `Spec/IpAccess`; `Props/IpAccess`",
  "accept, CCM identification, line cloning, sign links, keepalive, transmission, receive path",
  "address printing", "invariant over all histories with arbitrary peers")
g("C119-C122", "ip.access, BTS side", "src/input/ipaccess.c", "`IpAccessBts`; `Spec/IpAccessBts`; `Props/IpAccessBts`",
  "client connections per timeslot, identity response, keepalive, transmission", "-",
  "invariant over all histories with arbitrary peers")
g("C123,C125", "ip.access sockets", "src/input/ipaccess.c", "`IpAccessCfg`; `Props/IpAccessCfg`",
  "line update, DSCP/priority arguments, listening sockets", "the sockets", "case analysis; witnesses")
g("C124,C126-C127", "Configuration", "src/e1_input_vty.c", "`E1Vty`; `Spec/E1Vty`; `Props/E1Vty`",
  "all configuration commands after word splitting, config write", "`show` commands (C167); word splitting by libosmovty",
  "the written configuration is replayed symbolically; induction over lines")
g("C128-C129", "Traces and keepalive parameters of clones", "src/e1_input.c, src/e1_input_vty.c, src/input/ipaccess.c, lapd.c",
  "`LineTrace`; `Spec/LineTrace`; `Props/LineTrace`", "ownership of descriptors and parameter blocks shared by clones", "-",
  "invariant over histories")
g("C130-C135", "osmo-e1d driver", "src/input/e1d.c", "`E1d`; `Spec/E1d`; `Props/E1d`",
  "line update, connection and reconnection, descriptors per timeslot, raw/HDLC/TRAU read and write, alarms",
  "the daemon (its answers are inputs)", "invariant over all histories; refinement of the descriptor table")
exec(open(os.path.join(root, "tools", "design_more.py")).read())

props = [json.loads(l) for l in open(os.path.join(root, "properties.jsonl"))]
man = {c["property"]: c for c in json.load(open(os.path.join(root, "MANIFEST.json")))["claims"]}
seen = [i for gr in G for i in gr[0]]
assert len(seen) == len(set(seen)), [i for i in seen if seen.count(i) > 1]
assert set(seen) == {p["id"] for p in props}, set(seen) ^ {p["id"] for p in props}
byid = {p["id"]: p for p in props}
o = [HEAD.rstrip(), "", "## Plan and result per property", "",
     "For each group: the C source, the Lean modules (under `lean/Verif/`), what is modelled, what is not,",
     "and the method of proof; then one row per property. *partial* means: the property as stated in",
     "`properties.jsonl` does not hold of the code (the negation is proved, `*_violated`) or is proved only",
     "for part of its domain (`*_partial`); the note says which.", ""]
for (ii, title, src, mods, modelled, unmod, method) in G:
    o += ["### " + title + " (" + ", ".join(ii) + ")", "",
          "* Source: " + src, "* Lean: " + mods, "* Modelled: " + modelled,
          "* Not modelled: " + unmod, "* Method: " + method, "",
          "| id | property | status | theorems | remark |", "|----|----|----|----|----|"]
    for i in ii:
        c = man[i]
        th = ", ".join("`" + t.split(".")[-1] + "`" for t in c["theorems"])
        o.append("| %s | %s | %s | %s | %s |" % (i, byid[i]["title"].replace("|", "/"), c["status"], th, c["note"].replace("|", "/")))
    o.append("")
open(os.path.join(root, "DESIGN.md"), "w").write("\n".join(o).rstrip() + "\n")
print(len(seen), "properties")
