import Verif.Dahdi
/-!
# What a user expects of the DAHDI driver
-/
namespace Verif.Dahdi

/-- the actions of one time slot -/
def ofSlot (l t : Nat) (a : Acts) : List Act := (a.filter (fun x => decide (x.1 = (l, t)))).map (·.2)

/-- opening, use and closing of the descriptors of a time slot: it is opened only if it is not open, and only an open descriptor is written to or closed;
the first argument is the descriptor that is open before (0: none), the last one that after the actions -/
def Balanced : Int → List Act → Int → Prop
  | s, [], s' => s = s'
  | s, .opened _ f :: as, s' => s = 0 ∧ Balanced f as s'
  | s, .closed f :: as, s' => 0 < s ∧ s = f ∧ Balanced 0 as s'
  | s, .write f _ _ :: as, s' => 0 < s ∧ s = f ∧ Balanced s as s'
  | s, .rx _ :: as, s' => Balanced s as s'
  | s, .toLapd _ :: as, s' => Balanced s as s'
  | s, .free _ :: as, s' => Balanced s as s'
  | s, .signal _ :: as, s' => Balanced s as s'
  | s, .count _ :: as, s' => Balanced s as s'

/-- the open descriptor of a time slot, 0 if there is none -/
def openFd (s : Slot) : Int := if 0 < s.fd then s.fd else 0

/-- the kernel never returns the descriptor 0: it is in use as the standard input -/
def NotStdin (E : Env) : Prop := ∀ n t f, (E.ans n t).fd = some f → 0 < f

/-- all requests of all updates succeed -/
def Works (E : Env) : Prop :=
  ∀ n, (∃ tot, E.ctl n = some tot) ∧ ∀ t, (∃ f, (E.ans n t).fd = some f) ∧ (E.ans n t).buf = true ∧ (E.ans n t).reg = true

/-- no span has more channels than a line has time slots -/
def SmallSpans (E : Env) : Prop := ∀ n tot, E.ctl n = some tot → ∀ p c, tot p = some c → c ≤ 32

/-- the number of channels of the first `p` spans -/
def chansOf (tot : Nat → Option Nat) : Nat → Nat
  | 0 => 0
  | p + 1 => chansOf tot p + (tot (p + 1)).getD 0

/-- the channels are numbered from 1, span after span -/
def chanNr (tot : Nat → Option Nat) (port t : Nat) : Nat := chansOf tot port + t

/-- what is known of the spans after `n` updates: the last answer of the kernel -/
def known (E : Env) : Nat → Option (Nat → Option Nat)
  | 0 => none
  | n + 1 => match E.ctl n with
    | some tot => some tot
    | none => known E n

/-- a time slot is as configured: not open without a use, else open and watched by the select loop; LAPD for signalling only -/
def AsConfigured (x : Slot) : Prop :=
  match x.ty with
  | .none => x.fd = 0 ∧ x.reg = false ∧ x.lapd = false
  | .sign => 0 < x.fd ∧ x.reg = true ∧ x.lapd = true
  | .hdlc => 0 < x.fd ∧ x.reg = true ∧ x.lapd = false
  | .trau => 0 < x.fd ∧ x.reg = true ∧ x.lapd = false
  | .i460 => 0 < x.fd ∧ x.reg = true ∧ x.lapd = false
  | .raw => 0 < x.fd ∧ x.reg = true ∧ x.lapd = false

/-- the messages that were sent on a time slot -/
def sent (l t : Nat) : List Op → List (List Byte)
  | [] => []
  | .send l' t' m :: ops => if l' = l ∧ t' = t then m :: sent l t ops else sent l t ops
  | _ :: ops => sent l t ops

/-- the messages that left the queue of a time slot: given to LAPD on a signalling time slot, to `write()` else, on an HDLC time slot with two more octets
that are replaced by the check sequence -/
def wentOut (ty : Ty) : List Act → List (List Byte)
  | [] => []
  | .toLapd d :: as => if ty = .sign then d :: wentOut ty as else wentOut ty as
  | .write _ d _ :: as => if ty = .raw then d :: wentOut ty as else if ty = .hdlc then d.take (d.length - 2) :: wentOut ty as else wentOut ty as
  | _ :: as => wentOut ty as

/-- what was received on a time slot -/
def received : List Act → List (List Byte)
  | [] => []
  | .rx d :: as => d :: received as
  | _ :: as => received as

/-- the time slot is not configured in a history -/
def Unchanged (l t : Nat) (ops : List Op) : Prop := ∀ op ∈ ops, ∀ ty, op ≠ .config l t ty

/-- no update of a line in a history -/
def NoUpdate (ops : List Op) : Prop := ∀ op ∈ ops, ∀ l, op ≠ .update l

/-- the way the API is used: a line is updated after its port or time slots were configured and before anything else happens to it, messages are
sent on signalling, raw and HDLC time slots only, and a line is not freed; `dirty`: lines that were configured but not yet updated, `ty`: the types of the
time slots -/
def Proper (dirty : Nat → Bool) (ty : Nat → Nat → Ty) : List Op → Prop
  | [] => True
  | .port l _ :: ops => Proper (fun a => if a = l then true else dirty a) ty ops
  | .config l t x :: ops => Proper (fun a => if a = l then true else dirty a) (fun a b => if a = l ∧ b = t then x else ty a b) ops
  | .update l :: ops => Proper (fun a => if a = l then false else dirty a) ty ops
  | .event l _ _ :: ops => dirty l = false ∧ Proper dirty ty ops
  | .send l t _ :: ops => dirty l = false ∧ (ty l t = .sign ∨ ty l t = .raw ∨ ty l t = .hdlc) ∧ Proper dirty ty ops
  | .timeout l _ :: ops => dirty l = false ∧ Proper dirty ty ops
  | .lapdTx l _ _ _ _ _ :: ops => dirty l = false ∧ Proper dirty ty ops
  | .release _ :: _ => False

/-- every span has `c` channels -/
def Cards (E : Env) (c : Nat) : Prop := ∀ n tot, E.ctl n = some tot → ∀ p, p < 127 → tot (p + 1) = some c

/-- the ports are those of cards, and a line is not freed -/
def Sane (ops : List Op) : Prop := ∀ op ∈ ops, (∀ l p, op = .port l p → p < 128) ∧ (∀ l, op ≠ .release l)

/-- the number of updates in a history -/
def updates : List Op → Nat
  | [] => 0
  | .update _ :: ops => updates ops + 1
  | _ :: ops => updates ops

/-- the port of a line after a history, if it was `p` before -/
def portOf (l : Nat) (p : Nat) : List Op → Nat
  | [] => p
  | .port l' p' :: ops => if l' = l then portOf l p' ops else portOf l p ops
  | _ :: ops => portOf l p ops

/-- what the kernel was asked for in an event: exceptions, and errors of `read()` and `write()` on time slots with HDLC controller -/
def asked (s : Slot) (e : Ev) : List (Option Evt) :=
  (if e.ex = true ∧ s.ty ≠ .none then [e.x1] else []) ++
  (if e.rd = true ∧ (s.ty = .sign ∨ s.ty = .hdlc) ∧ e.data = none then [e.x2] else []) ++
  (if e.wr = true ∧ s.ty = .hdlc ∧ s.q ≠ [] ∧ e.n = -1 then [e.x3] else [])

/-- what the events mean: an alarm is signalled and counted, its end is signalled, errors are counted -/
def meaning (x : Option Evt) : List Act :=
  match x with
  | some .alarm => [.signal true, .count .alarm]
  | some .noalarm => [.signal false]
  | some .abort => [.count .abort]
  | some .overrun => [.count .overrun]
  | some .badfcs => [.count .badfcs]
  | some .removed => [.count .removed]
  | some .other => []
  | none => []

/-- the signals and counters among the actions -/
def noticed (a : List Act) : List Act := a.filter (fun x => match x with | .signal _ => true | .count _ => true | _ => false)

end Verif.Dahdi
