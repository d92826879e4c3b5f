import Verif.E1Input
/-!
# Vocabulary for the properties of the E1 input core

What an event hands in, which references it takes, what its actions dispose of, and which events
applications and drivers may cause.  Everything is read off the event, its return value and the recorded
actions.
-/
namespace Verif.E1

/-- the count of one use -/
def cnt (uses : List (Nat × Int)) (u : Nat) : Int :=
  ((uses.filter fun e => e.1 == u).map (·.2)).sum

/-- number of existing signalling links on timeslots of line `l` -/
def linksOn (st : St) (l : Nat) : Nat :=
  (List.range st.nextLink).countP fun k => (st.link k).any fun x => x.ts.1 == l

/-- the line exists -/
def Live (st : St) (l : Nat) : Prop := ∃ x, st.line l = some x

/-- the timeslot exists -/
def At (st : St) (r : TsRef) : Prop := Live st r.1 ∧ r.2 < 32

/-- the signalling links of a timeslot -/
def linksOf : U → List Nat
  | .sign ls _ => ls
  | _ => []

/-- messages queued in a raw or HDLC timeslot -/
def rawq : U → List Msg
  | .raw _ q => q
  | .hdlc _ q => q
  | _ => []

def IsSign (u : U) : Prop := ∃ ls d, u = .sign ls d

/-! what an event and its actions contribute -/

/-- messages handed to the library (or allocated by it) in an event -/
def enters (st : St) : Op → List Msg
  | .sendmsg _ m => [m]
  | .sendRaw _ m => [m]
  | .sendHdlc _ m => [m]
  | .rxTs _ m _ _ => [m]
  | .dlsapUp _ _ _ m _ _ => [m]
  | .txTs r i b =>
    match (st.ts r).u with
    | .trau _ mux => match Mux.muxOut mux 40 with | .ok (bs, _) => [⟨i, bs⟩] | .error _ => []
    | .i460 _ => [⟨i, b⟩]
    | _ => []
  | _ => []

/-- messages sent on a link -/
def sentTo (k : Nat) : Op → List Msg
  | .sendmsg (some j) m => if j = k then [m] else []
  | _ => []

/-- the library gives up a message: passes it on or frees it -/
def disposes : Act → Option Msg
  | .signCb _ m => some m
  | .free m => some m
  | .rawCb _ _ m => some m
  | .hdlcCb _ _ m => some m
  | .tx _ _ m => some m
  | _ => none

def disposed (acts : List Act) : List Msg := acts.filterMap disposes

/-- messages of link `k` handed to the driver -/
def txOf (k : Nat) (acts : List Act) : List Msg :=
  acts.filterMap fun a => match a with | .tx _ (some j) m => if j = k then some m else none | _ => none

/-- freed lines -/
def lineFrees (acts : List Act) : List Nat :=
  acts.filterMap fun a => match a with | .lineFree l => some l | _ => none

/-- freed links -/
def linkFrees (acts : List Act) : List Nat :=
  acts.filterMap fun a => match a with | .linkFree l => some l | _ => none

/-- the references an event takes and drops -/
def credit (st : St) (op : Op) (l u : Nat) : Int :=
  match op with
  | .lineGet l' u' => if l' = l ∧ u' = u then 1 else 0
  | .linePut l' u' => if l' = l ∧ u' = u then -1 else 0
  | .lineCreate nr name =>
    match lineCreate st nr name with
    | .ok (_, some l') => if l' = l ∧ u = uCtor then 1 else 0
    | _ => 0
  | .lineClone l' u' => match lineClone st l' u' with
    | .ok (_, c) => if c = l ∧ u' = u then 1 else 0
    | _ => 0
  | .linkCreate r ty trx tei sapi =>
    match linkCreate st r ty trx tei sapi with
    | .ok (_, some _, _) => if r.1 = l ∧ u = uLink then 1 else 0
    | _ => 0
  | .destroyEnd k =>
    match st.link k with
    | some x => if x.ts.1 = l ∧ u = uLink then -1 else 0
    | none => 0
  | _ => 0

/-- write interest or running timer -/
def Awake (t : Ts) : Prop := t.armed = true ∨ t.tmr = .pending

def queueOf (st : St) (k : Nat) : List Msg := match st.link k with | some x => x.tx | none => []

/-- the timeslot has the given type -/
def HasType (st : St) (r : TsRef) (ty : TsType) : Prop := (st.ts r).u.type = ty

/-- operations are bound to the line of the timeslot -/
def Bound (st : St) (r : TsRef) : Prop := ∃ x, st.line r.1 = some x ∧ x.ops.isSome = true

/-- What the application and the drivers may do (everything else is a programming error by the
documentation, or one of the defects shown separately):
objects passed exist; a reference is only put by who holds it, and the name "e1inp_sign_link" is not used
by the application; timeslots are configured for their own line and only re-typed without active
signalling links (and not from a type that leaves junk in the timer to signalling); cloned lines have no
configured timeslot; messages are sent on links that are not being destroyed, raw messages on raw
timeslots; frames for the multiplexer have even length and go to one of the four sub-channels. -/
def Adm (st : St) : Op → Prop
  | .driverRegister _ => True
  | .lineCreate _ _ => True
  | .lineFind _ => True
  | .lineClone l u => Live st l ∧ u ≠ uLink ∧ ∀ i < 32, (st.ts (l, i)).u = .none
  | .lineGet l u => Live st l ∧ u ≠ uLink
  | .linePut l u => u ≠ uLink ∧ ∃ x, st.line l = some x ∧ 0 < cnt x.uses u
  | .bindOps l _ => Live st l
  | .configTrau r l _ => At st r ∧ l = some r.1 ∧ (HasType st r .trau ∨ linksOf (st.ts r).u = [])
  | .configI460 r l _ => At st r ∧ l = some r.1 ∧ (HasType st r .i460 ∨ linksOf (st.ts r).u = [])
  | .configSign r l => At st r ∧ l = some r.1 ∧ (HasType st r .sign ∨ (st.ts r).tmr ≠ .junk)
  | .configRaw r l _ => At st r ∧ l = some r.1 ∧ (HasType st r .raw ∨ linksOf (st.ts r).u = [])
  | .configHdlc r l _ => At st r ∧ l = some r.1 ∧ (HasType st r .hdlc ∨ linksOf (st.ts r).u = [])
  | .configNone r l => At st r ∧ l = some r.1 ∧ (HasType st r .none ∨ linksOf (st.ts r).u = [])
  | .linkCreate r _ _ _ _ => At st r
  | .destroyBegin k => ∃ x, st.link k = some x
  | .destroyEnd k => ∃ x, st.link k = some x ∧ x.onList = false
  | .sendmsg none _ => True
  | .sendmsg (some k) _ => ∃ x, st.link k = some x ∧ x.onList = true
  | .sendRaw r _ => At st r ∧ HasType st r .raw
  | .sendHdlc r _ => At st r ∧ HasType st r .hdlc
  | .txTs r _ _ => At st r
  | .drvWrite r => At st r
  | .timerFire r => At st r
  | .muxEnqueue r c f => At st r ∧ HasType st r .trau ∧ c < 4 ∧ f.length % 2 = 0
  | .subchActivate r c => At st r ∧ HasType st r .trau ∧ 0 ≤ c
  | .subchDeactivate r c => At st r ∧ HasType st r .trau ∧ 0 ≤ c
  | .rxTs r _ _ _ => At st r ∧ (HasType st r .sign → Bound st r)
  | .dlsapUp r _ _ _ _ _ => At st r ∧ HasType st r .sign ∧ Bound st r
  | .event r _ _ _ => At st r ∧ HasType st r .sign

/-- count of one use of a line; zero if the line does not exist -/
def refsOf (st : St) (l u : Nat) : Int := match st.line l with | some x => cnt x.uses u | none => 0

/-- the link exists -/
def LinkLive (st : St) (k : Nat) : Prop := ∃ x, st.link k = some x

/-- other links of the same timeslot have nothing queued -/
def OthersIdle (st : St) (k : Nat) : Prop :=
  ∀ x, st.link k = some x → ∀ j y, st.link j = some y → y.ts = x.ts → y.onList = true → j ≠ k → y.tx = []

/-- messages queued on links -/
def linkMsgs (st : St) : List Msg := (List.range st.nextLink).flatMap (queueOf st)

/-- messages queued in the raw and HDLC timeslots of one line -/
def lineMsgs (st : St) (l : Nat) : List Msg := (List.range 32).flatMap fun i => rawq (st.ts (l, i)).u

/-- the same for a line that may have been freed -/
def lineMsgs' (st : St) (l : Nat) : List Msg := match st.line l with | some _ => lineMsgs st l | none => []

/-- all messages queued in the library -/
def queued (st : St) : List Msg := linkMsgs st ++ (List.range st.nextLine).flatMap (lineMsgs' st)

/-- messages in the queues of a line that an event frees: lost -/
def lost (st : St) (acts : List Act) : List Msg := (lineFrees acts).flatMap (lineMsgs st)

/-- every event of the history is allowed when it happens -/
def AdmRun (st : St) : List Op → Prop
  | [] => True
  | op :: ops => Adm st op ∧ ∀ st' acts, step st op = .ok (st', acts) → AdmRun st' ops

/-- the references of one kind to a line taken minus those dropped in a history -/
def held (st : St) (l u : Nat) : List Op → Int
  | [] => 0
  | op :: ops => credit st op l u + match step st op with | .ok (st', _) => held st' l u ops | .error _ => 0

/-- the messages handed to the library in a history -/
def entered (st : St) : List Op → List Msg
  | [] => []
  | op :: ops => enters st op ++ match step st op with | .ok (st', _) => entered st' ops | .error _ => []

/-- the messages lost in a history, see `lost` -/
def lostIn (st : St) : List Op → List Msg
  | [] => []
  | op :: ops => match step st op with | .ok (st', acts) => lost st acts ++ lostIn st' ops | .error _ => []

/-- whenever a link is destroyed, the other links of its timeslot have nothing queued -/
def AloneRun (st : St) : List Op → Prop
  | [] => True
  | op :: ops => (∀ k, op = .destroyBegin k → OthersIdle st k) ∧
      ∀ st' acts, step st op = .ok (st', acts) → AloneRun st' ops

end Verif.E1
