# Formal model of libosmo-abis in Lean 4 — design

(This file is generated by `tools/design.py` from `tools/design_head.md`, `properties.jsonl` and `MANIFEST.json`.)

## Approach

* Every modelled C function becomes a small, total, computable Lean function; the comment on
  each definition cites the file and lines it models and states any simplification.
* The bit-level code (`ubit_t` arrays holding 0/1) is modelled with `Bool`; octets with `BitVec 8`
  (or `Nat` where only sizes matter). A C assertion failure, an out-of-bounds access, the use of
  uninitialised memory or of freed objects and undefined arithmetic are *distinct outcomes* of the model
  (`Fault.oob`, `.assert`, `.uninit`, `.badptr`, `.ub` in an `Except`), never silently totalised, so that
  "never happens" is a provable statement.
* Event-driven code (FSMs, queues, sockets, timers) is modelled as a step function
  `state → event → Except Fault (state × outputs)`; histories are lists of events; properties quantify over
  all lists and are proved by induction with an invariant. What the kernel, a daemon, a peer or an
  application call-back answers is part of the event, hence arbitrary; contracts the API demands of the caller are
  explicit hypotheses (`Adm…`, `…Ok`) and `example`s show that non-trivial histories meet them.
* Specifications live in `Verif/Spec/*.lean`, which do not use the helpers of the model beyond its data types.
  Property theorems live in `Verif/Props/*.lean` and are named after the property (`C17_…`); next to
  them are `example`s showing that their hypotheses are met by concrete non-trivial data. Invariants and
  lemmas are in `Verif/Proof/*.lean`.
* Where the code violates the property a user would expect, the expected property is kept in
  `properties.jsonl`, its negation is proved (`*_violated`; for all inputs of a class where possible, else with a concrete
  witness), and the part that does hold is proved as `*_partial`. For many of them a theorem `*_iff` or `*_exact…` gives
  the exact extent: the property holds for these inputs, states or histories and for no others.

## Trusted base

* The Lean 4.33.0 kernel. Axioms used by the theorems: at most `propext`, `Classical.choice` and
  `Quot.sound` (the three of Lean's library; each theorem's set is printed by `#print axioms`, and `vcheck` checks it).
  No own axioms, no compiled evaluation.
* `kernel_rfl` (`Verif/KernelRfl.lean`) is a tactic that closes `a = b` with `Eq.refl a` and leaves the whole
  check to the kernel; `decide +kernel` is used on *complete* finite domains (all octets, all table
  indices, all frame types) inside general proofs, and on concrete histories in witnesses and examples.
* The hand translation from C to Lean, cited line by line. It was tested with seeded mistakes
  (`seeded/LOG.jsonl`: edit of a definition, the claim it breaks, the theorems that fail), which tests the
  theorems, not the translation.
* The specifications in `Verif/Spec`, to be compared with the English in `properties.jsonl`, and the
  standards they quote (TS 48.060, 48.061, 44.021 layouts).
* Assumptions about other software, as stated at each use: libosmocore (FSM core refuses transitions
  outside `out_state_mask` and events outside `in_event_mask`; `llist`, `msgb`, write queues, timers, `osmo_fd`
  registration, i.e. call-backs only for registered descriptors with requested events), talloc (freeing a parent frees its
  children), libosmocodec (parameters), oRTP (arbitrary answers), the kernel and daemons (arbitrary answers).

## Not modelled

Allocation failures (unless stated), logging, statistics, the splitting of
command lines into words by libosmovty, the state machine of libosmogsm's lapd_core (arbitrary actions on
existing data links), termios, the sockets themselves, `src/init.c`, threads (the library is single-threaded).
Integer overflow is modelled where a caller or peer can reach it.

## Defects of the code found while proving

Every `*_violated` theorem exhibits one; the remarks below name them (status *partial*). Notable ones:
use after free in the IPA keepalive handling of ip.access lines (C117, C120), swapped DSCP and priority (C123), the
receive buffer of the RS232 driver overrun by a length octet (C57), the TRAU synchroniser's error counter that survives a loss
(C21), swapped call-back arguments in `lapd_instance_alloc` (C53), TEI identity responses that lose the reference number (C78),
misplaced bits in 16k O&M and 8k AMR 6.7 TRAU frames (C24, C26), translation tables of the IPA proxy used in
the wrong direction (C54), write events switched off with queued messages in several drivers (C40, C86, C106, C133).
