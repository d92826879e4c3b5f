import Verif.Misdn
/-!
# What a user expects of the mISDN driver
-/
namespace Verif.Misdn

/-- the actions of one time slot -/
def ofSlot (l t : Nat) (a : Acts) : List Act := (a.filter (fun x => decide (x.1 = (l, t)))).map (·.2)

/-- opening, use and closing of the descriptors of a time slot: it is opened only if it is not open, and only an open descriptor is used or closed;
the first argument is the descriptor that is open before (0: none), the last one that after the actions -/
def Balanced : Int → List Act → Int → Prop
  | s, [], s' => s = s'
  | s, .socket _ f :: as, s' => s = 0 ∧ Balanced f as s'
  | s, .closed f :: as, s' => 0 < s ∧ s = f ∧ Balanced 0 as s'
  | s, .bind f _ _ :: as, s' => 0 < s ∧ s = f ∧ Balanced s as s'
  | s, .activate f :: as, s' => 0 < s ∧ s = f ∧ Balanced s as s'
  | s, .send f _ _ :: as, s' => 0 < s ∧ s = f ∧ Balanced s as s'
  | s, .sendTo f _ _ _ :: as, s' => 0 < s ∧ s = f ∧ Balanced s as s'
  | s, .rx _ :: as, s' => Balanced s as s'
  | s, .rxLink _ _ _ :: as, s' => Balanced s as s'
  | s, .rxLapd _ :: as, s' => Balanced s as s'
  | s, .toLapd _ :: as, s' => Balanced s as s'
  | s, .free _ :: as, s' => Balanced s as s'
  | s, .leak :: as, s' => Balanced s as s'
  | s, .up _ _ :: as, s' => Balanced s as s'
  | s, .down _ _ :: as, s' => Balanced s as s'
  | s, .signal _ :: as, s' => Balanced s as s'

/-- the open descriptor, 0 if there is none -/
def openFd (fd : Int) : Int := if 0 < fd then fd else 0

/-- the kernel never returns the descriptor 0: it is in use as the standard input -/
def NotStdin (E : Env) : Prop := (∀ n t, (E.ans n t).fd ≠ 0) ∧ ∀ n, (E.dummy n).1 ≠ 0

/-- a line is not freed, and Sa bits are not sent -/
def Sane (ops : List Op) : Prop := ∀ op ∈ ops, (∀ l, op ≠ .release l) ∧ (∀ l b n, op ≠ .sa l b n)

/-- all requests for a time slot succeed -/
def WorksAt (E : Env) (t : Nat) : Prop := ∀ n, 0 < (E.ans n t).fd ∧ (E.ans n t).bind = true ∧ (E.ans n t).clear = true ∧ (E.ans n t).reg = true

/-- all requests succeed -/
def Works (E : Env) : Prop := (∀ n, E.card n = none ∧ 0 < (E.dummy n).1 ∧ (E.dummy n).2 = true) ∧ ∀ t, WorksAt E t

/-- a time slot is as configured: not open without a use, else open and watched by the select loop; a LAPD instance exactly for signalling with LAPD in this library -/
def AsConfigured (ul : Bool) (x : Slot) : Prop :=
  match x.ty with
  | .none => x.fd = 0 ∧ x.reg = false ∧ x.lapd = false
  | .sign => 0 < x.fd ∧ x.reg = true ∧ x.lapd = ul
  | .trau => 0 < x.fd ∧ x.reg = true ∧ x.lapd = false
  | .raw => 0 < x.fd ∧ x.reg = true ∧ x.lapd = false
  | .hdlc => 0 < x.fd ∧ x.reg = true ∧ x.lapd = false
  | .i460 => 0 < x.fd ∧ x.reg = true ∧ x.lapd = false

/-- the socket a time slot in use needs: its protocol and channel; the D-channel is on time slot 16, and LAPD of the kernel is on
channel 0 (the last line is what the driver does for I.460, see `C145_i460_violated`) -/
inductive Suits (ul : Bool) (t : Nat) : Ty → Proto → Nat → Prop where
  | raw : t ≠ 16 → Suits ul t .raw .bRaw t
  | trau : t ≠ 16 → Suits ul t .trau .bRaw t
  | hdlc : t ≠ 16 → Suits ul t .hdlc .bHdlc t
  | dRaw : t = 16 → Suits ul t .raw .bRaw 0
  | dTrau : t = 16 → Suits ul t .trau .bRaw 0
  | dHdlc : t = 16 → Suits ul t .hdlc .ntE1 0
  | kernel : ul = false → Suits ul t .sign .lapdNt 0
  | library : ul = true → Suits ul t .sign .bHdlc t
  | i460 : Suits ul t .i460 .bRaw 0

/-- the time slot is not configured in a history -/
def Unchanged (l t : Nat) (ops : List Op) : Prop := ∀ op ∈ ops, ∀ ty, op ≠ .config l t ty

/-- the data of the messages that were sent on a time slot -/
def sent (l t : Nat) : List Op → List (List Byte)
  | [] => []
  | .send l' t' m :: ops => if l' = l ∧ t' = t then m.d :: sent l t ops else sent l t ops
  | _ :: ops => sent l t ops

/-- the data of the messages that left the queue of a time slot: given to LAPD, or sent with a header of 8 octets, on a raw time slot with the bits of each octet in the
reverse order -/
def wentOut (ty : Ty) : List Act → List (List Byte)
  | [] => []
  | .toLapd m :: as => if ty = .sign then m.d :: wentOut ty as else wentOut ty as
  | .sendTo _ _ d _ :: as => if ty = .sign then d.drop 8 :: wentOut ty as else wentOut ty as
  | .send _ d _ :: as => if ty = .raw then (d.drop 8).map rev :: wentOut ty as else if ty = .hdlc then d.drop 8 :: wentOut ty as else wentOut ty as
  | _ :: as => wentOut ty as

/-- how many blocks the kernel accepted completely -/
def accepted : List Act → Nat
  | [] => 0
  | .send _ d n :: as => if (d.length : Int) ≤ n then accepted as + 1 else accepted as
  | _ :: as => accepted as

/-- all blocks were accepted completely -/
def AllAccepted (as : List Act) : Prop := ∀ f d n, Act.send f d n ∈ as → (d.length : Int) ≤ n

/-- PH_DATA_CNF: the kernel can take the next block -/
def isCnf (e : Ev) : Bool := e.rd && (match e.data with | some d => decide (rd32 d 0 = 0x6002) | none => false)

/-- how many confirmations the kernel sent on a time slot -/
def cnfs (l t : Nat) : List Op → Nat
  | [] => 0
  | .event l' t' e :: ops => if l' = l ∧ t' = t ∧ isCnf e = true then cnfs l t ops + 1 else cnfs l t ops
  | _ :: ops => cnfs l t ops

/-- the signals of a line -/
def signals (l : Nat) : Acts → List Sig
  | [] => []
  | ((l', _), .signal s) :: as => if l' = l then s :: signals l as else signals l as
  | _ :: as => signals l as

/-- the state of the alarms after a signal: loss of signal, alarm indication signal, remote alarm indication -/
def after (st : Bool × Bool × Bool) : Sig → Bool × Bool × Bool
  | .los => (true, st.2.1, st.2.2)
  | .nolos => (false, st.2.1, st.2.2)
  | .ais => (st.1, true, st.2.2)
  | .noais => (st.1, false, st.2.2)
  | .rai => (st.1, st.2.1, true)
  | .norai => (st.1, st.2.1, false)
  | .alarm => st
  | .noalarm => st
  | .sa _ => st

def anyAlarm (st : Bool × Bool × Bool) : Bool := st.1 || st.2.1 || st.2.2

/-- the signals are coherent: an alarm is signalled exactly when the first of the three conditions appears, its end exactly when the last of them ends; `due`: the
signal that has to be next -/
def Coherent (st : Bool × Bool × Bool) (due : Option Sig) : List Sig → Prop
  | [] => due = none
  | .alarm :: ss => due = some .alarm ∧ Coherent st none ss
  | .noalarm :: ss => due = some .noalarm ∧ Coherent st none ss
  | s :: ss => due = none ∧ Coherent (after st s)
      (if anyAlarm st = false ∧ anyAlarm (after st s) = true then some .alarm else if anyAlarm st = true ∧ anyAlarm (after st s) = false then some .noalarm else none) ss

/-- alarm and end of alarm alternate; the first argument says whether there is an alarm before, the last one whether there is one after the signals -/
def Alternates : Bool → List Sig → Bool → Prop
  | b, [], b' => b = b'
  | b, .alarm :: ss, b' => b = false ∧ Alternates true ss b'
  | b, .noalarm :: ss, b' => b = true ∧ Alternates false ss b'
  | b, _ :: ss, b' => Alternates b ss b'

/-- the indication (MPH_INFORMATION_IND) that is received, if any: on signalling time slots with an address, and on HDLC time slots -/
def indicated (s : Slot) (e : Ev) : Option Nat :=
  if e.rd = true ∧ (s.ty = .sign ∧ e.addr = true ∨ s.ty = .hdlc) then
    (match e.data with | some d => if rd32 d 0 = 0x0702 then some (rd32 d 8) else none | none => none)
  else none

/-- what an indication of the kernel means: the signal it is passed on as -/
inductive Means : Nat → Sig → Prop where
  | losOff : Means 0x10 .nolos
  | losOn : Means 0x11 .los
  | aisOff : Means 0x12 .noais
  | aisOn : Means 0x13 .ais
  | rdiOff : Means 0x14 .norai
  | rdiOn : Means 0x15 .rai
  | sa (b : Nat) : b < 256 → Means (256 + b) (.sa b)

/-- DL_INFORMATION_IND or DL_ESTABLISH_IND -/
def assigns : Option (List Byte) → Bool
  | some d => decide (rd32 d 0 = 0x0008 ∨ rd32 d 0 = 0x1008)
  | none => false

/-- the channel of a link, as the kernel last said (DL_INFORMATION_IND or DL_ESTABLISH_IND for its address); `c`: what it was before -/
def told (l t tei sapi : Nat) (c : Nat) : List Op → Nat
  | [] => c
  | .event l' t' e :: ops =>
    if l' = l ∧ t' = t ∧ e.rd = true ∧ e.addr = true ∧ e.tei = tei ∧ e.sapi = sapi ∧ assigns e.data = true then told l t tei sapi e.chan ops
    else told l t tei sapi c ops
  | _ :: ops => told l t tei sapi c ops

/-- the way the API is used: a line is updated after its time slots were configured and before anything else happens to it, messages have room for a header and are
sent on signalling, raw and HDLC time slots only, frames of the kernel have a header, and a line is not freed; `dirty`: lines that were configured but not yet updated -/
def Proper (dirty : Nat → Bool) (ty : Nat → Nat → Ty) : List Op → Prop
  | [] => True
  | .port _ _ :: ops => Proper dirty ty ops
  | .config l t x :: ops => Proper (fun a => if a = l then true else dirty a) (fun a b => if a = l ∧ b = t then x else ty a b) ops
  | .addLink _ _ _ _ :: ops => Proper dirty ty ops
  | .update l :: ops => Proper (fun a => if a = l then false else dirty a) ty ops
  | .event l _ e :: ops => dirty l = false ∧ (∀ d, e.data = some d → 8 ≤ d.length) ∧ Proper dirty ty ops
  | .send l t m :: ops => dirty l = false ∧ (ty l t = .sign ∨ ty l t = .raw ∨ ty l t = .hdlc) ∧ 8 ≤ m.room ∧ Proper dirty ty ops
  | .timeout l _ :: ops => dirty l = false ∧ Proper dirty ty ops
  | .lapdTx l _ m _ :: ops => dirty l = false ∧ 8 ≤ m.room ∧ Proper dirty ty ops
  | .sa _ _ _ :: ops => Proper dirty ty ops
  | .release _ :: _ => False

end Verif.Misdn
