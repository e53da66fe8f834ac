/-!
# Texts of messages, and which of them are printed

Sources: `src/rotor/misc/default_stringifier.cpp:15-303`, `src/rotor/message_stringifier.cpp:7-10`, `src/rotor/plugin/delivery.cpp:52-135`.

A text is a list of characters. What addresses, names of types and errors look like is arbitrary: it is part of the message here (`ee->message()`
without a stringifier is `Verif.ExtendedError.message`). Type indices are unique (C51), so the chain of comparisons in `try_visit` and in
`get_message_level` selects by the type of the message. `payload.actor`, `payload.req` and `orig_message` are not null.
-/

namespace Verif.Texts

abbrev Text := List Char

/-- `c!"abc"` is the list of the characters of a literal -/
macro:max "c!" s:str : term => do
  let cs := s.getString.toList.toArray.map fun c => Lean.Syntax.mkCharLit c
  `([$cs,*])

/-- `owner_tag_t`, `include/rotor/subscription_point.h:29-34` -/
inductive Tag where
  | plugin | supervisor | foreign | anonymous
deriving DecidableEq, Repr

/-- what is shown of a `subscription_point_t`: its tag, its address and the type of messages of its handler -/
structure Point where
  tag : Tag
  addr : Text
  type : Text
deriving DecidableEq, Repr

/-- the message types of the library (`include/rotor/messages.hpp`), and all others -/
inductive Kind where
  | unsubscription | unsubscriptionExternal | subscription | externalSubscription | commitUnsubscription | handlerCall | initRequest | initResponse | startTrigger | shutdownTrigger | shutdownRequest | shutdownResponse | createActor | spawnActor | registrationRequest | registrationResponse | deregistrationNotify | deregistrationService | discoveryRequest | discoveryResponse | discoveryPromise | discoveryFuture | discoveryCancel | linkRequest | linkResponse | unlinkNotify | unlinkRequest | unlinkResponse | user
deriving DecidableEq, Repr

/-- a message with the parts that are shown; `dest` is its address. `handlerCall` carries the message it is about; `user`: a type that is not of
the library, with its name and its content -/
inductive Msg where
  | unsubscription (dest : Text) (p : Point)
  | unsubscriptionExternal (dest : Text) (p : Point)
  | subscription (dest : Text) (p : Point)
  | externalSubscription (dest : Text) (p : Point)
  | commitUnsubscription (dest : Text) (p : Point)
  | handlerCall (dest : Text) (orig : Msg) (actor : Text)
  | initRequest (dest : Text) (id : Nat)
  | initResponse (dest : Text) (id : Nat) (origin : Text) (ee : Option Text)
  | startTrigger (dest : Text)
  | shutdownTrigger (dest : Text) (actor : Text) (reason : Option Text)
  | shutdownRequest (dest : Text) (id : Nat) (origin : Text) (reason : Option Text)
  | shutdownResponse (dest : Text) (id : Nat) (origin : Text) (ee : Option Text)
  | createActor (dest : Text) (type : Text)
  | spawnActor (dest : Text) (spawner : Text)
  | registrationRequest (dest : Text) (id : Nat) (name addr : Text)
  | registrationResponse (dest : Text) (id : Nat) (name addr : Text) (ee : Option Text)
  | deregistrationNotify (dest : Text) (addr : Text)
  | deregistrationService (dest : Text) (name : Text)
  | discoveryRequest (dest : Text) (name : Text)
  | discoveryResponse (dest : Text) (name : Text) (ee : Option Text) (res : Text)
  | discoveryPromise (dest : Text) (name : Text)
  | discoveryFuture (dest : Text) (name : Text) (ee : Option Text) (res : Text)
  | discoveryCancel (dest : Text) (source : Text)
  | linkRequest (dest : Text) (origin : Text)
  | linkResponse (dest : Text) (origin : Text) (ee : Option Text)
  | unlinkNotify (dest : Text) (client : Text)
  | unlinkRequest (dest : Text) (server : Text)
  | unlinkResponse (dest : Text) (server : Text) (ee : Option Text)
  | user (dest : Text) (type content : Text)
deriving Repr

/-- the type of a message -/
def Msg.kind : Msg → Kind
  | .unsubscription .. => .unsubscription
  | .unsubscriptionExternal .. => .unsubscriptionExternal
  | .subscription .. => .subscription
  | .externalSubscription .. => .externalSubscription
  | .commitUnsubscription .. => .commitUnsubscription
  | .handlerCall .. => .handlerCall
  | .initRequest .. => .initRequest
  | .initResponse .. => .initResponse
  | .startTrigger .. => .startTrigger
  | .shutdownTrigger .. => .shutdownTrigger
  | .shutdownRequest .. => .shutdownRequest
  | .shutdownResponse .. => .shutdownResponse
  | .createActor .. => .createActor
  | .spawnActor .. => .spawnActor
  | .registrationRequest .. => .registrationRequest
  | .registrationResponse .. => .registrationResponse
  | .deregistrationNotify .. => .deregistrationNotify
  | .deregistrationService .. => .deregistrationService
  | .discoveryRequest .. => .discoveryRequest
  | .discoveryResponse .. => .discoveryResponse
  | .discoveryPromise .. => .discoveryPromise
  | .discoveryFuture .. => .discoveryFuture
  | .discoveryCancel .. => .discoveryCancel
  | .linkRequest .. => .linkRequest
  | .linkResponse .. => .linkResponse
  | .unlinkNotify .. => .unlinkNotify
  | .unlinkRequest .. => .unlinkRequest
  | .unlinkResponse .. => .unlinkResponse
  | .user .. => .user

/-- the address of a message -/
def Msg.dest : Msg → Text
  | .unsubscription d .. => d
  | .unsubscriptionExternal d .. => d
  | .subscription d .. => d
  | .externalSubscription d .. => d
  | .commitUnsubscription d .. => d
  | .handlerCall d .. => d
  | .initRequest d .. => d
  | .initResponse d .. => d
  | .startTrigger d .. => d
  | .shutdownTrigger d .. => d
  | .shutdownRequest d .. => d
  | .shutdownResponse d .. => d
  | .createActor d .. => d
  | .spawnActor d .. => d
  | .registrationRequest d .. => d
  | .registrationResponse d .. => d
  | .deregistrationNotify d .. => d
  | .deregistrationService d .. => d
  | .discoveryRequest d .. => d
  | .discoveryResponse d .. => d
  | .discoveryPromise d .. => d
  | .discoveryFuture d .. => d
  | .discoveryCancel d .. => d
  | .linkRequest d .. => d
  | .linkResponse d .. => d
  | .unlinkNotify d .. => d
  | .unlinkRequest d .. => d
  | .unlinkResponse d .. => d
  | .user d .. => d

/-- `operator<<` for subscription points, `default_stringifier.cpp:15-35` -/
def Point.text (p : Point) : Text :=
  c!"{" ++ (match p.tag with | .plugin => c!"P" | .supervisor => c!"S" | .foreign => c!"F" | .anonymous => c!"A") ++
    c!" : " ++ p.addr ++ c!" / " ++ p.type ++ c!"}"

/-- numbers in decimal notation -/
def num (n : Nat) : Text := Nat.toDigits 10 n

/-- `if (ee) { stream << ", fail:" << ee->message(); }` -/
def fail : Option Text → Text
  | some e => c!", fail:" ++ e
  | none => []

/-- `if (p.reason) { stream << " : " << p.reason->message(); }` -/
def because : Option Text → Text
  | some e => c!" : " ++ e
  | none => []

/-- the end of `discovery_response` and `discovery_future` -/
def found (ee : Option Text) (res : Text) : Text :=
  match ee with
  | some e => c!", fail:" ++ e
  | none => c!" -> @ " ++ res

/-- `stringify_to`, `default_stringifier.cpp:101-107`, with `try_visit`, `37-99`, and the functions `on`; `own`: what the `try_visit` of a derived
class does with messages of the user, given the name of the type and the content; it is asked first, as the documentation demands
(`default_stringifier.h:26-29`) -/
def stringify (own : Text → Text → Option Text) : Msg → Text
  -- 109-112
  | .unsubscription dest p =>
    c!"r::unsubscription " ++ p.text ++ c!" => " ++ dest
  -- 114-117
  | .unsubscriptionExternal dest p =>
    c!"r::unsubscription_external " ++ p.text ++ c!" => " ++ dest
  -- 119-122
  | .subscription dest p =>
    c!"r::subscription " ++ p.text ++ c!" => " ++ dest
  -- 124-127
  | .externalSubscription dest p =>
    c!"r::external_subscription " ++ p.text ++ c!" => " ++ dest
  -- 129-132
  | .commitUnsubscription dest p =>
    c!"r::commit_unsubscription " ++ p.text ++ c!" => " ++ dest
  -- 134-139
  | .handlerCall dest orig actor =>
    c!"r::handler_call " ++ c!"{" ++ stringify own orig ++ c!"} @ " ++ actor ++ c!" => " ++ dest
  -- 141-144
  | .initRequest dest id =>
    c!"r::init_request " ++ c!"#" ++ num id ++ c!" > " ++ dest ++ c!" => " ++ dest
  -- 146-154
  | .initResponse dest id origin ee =>
    c!"r::init_response " ++ c!"#" ++ num id ++ c!" > " ++ origin ++ fail ee ++ c!" => " ++ dest
  -- 156-159
  | .startTrigger dest =>
    c!"r::start_trigger " ++ c!"@ " ++ dest ++ c!" => " ++ dest
  -- 161-168
  | .shutdownTrigger dest actor reason =>
    c!"r::shutdown_trigger " ++ c!"@ " ++ actor ++ because reason ++ c!" => " ++ dest
  -- 170-177
  | .shutdownRequest dest id origin reason =>
    c!"r::shutdown_request " ++ c!"# " ++ num id ++ c!" > " ++ origin ++ because reason ++ c!" => " ++ dest
  -- 179-187
  | .shutdownResponse dest id origin ee =>
    c!"r::shutdown_response " ++ c!"# " ++ num id ++ c!" > " ++ origin ++ fail ee ++ c!" => " ++ dest
  -- 189-194
  | .createActor dest type =>
    c!"r::create_actor " ++ c!"@ " ++ dest ++ c!" : " ++ type ++ c!" => " ++ dest
  -- 196-199
  | .spawnActor dest spawner =>
    c!"r::spawn_actor " ++ c!"@{ " ++ dest ++ c!" -> " ++ spawner ++ c!"}" ++ c!" => " ++ dest
  -- 201-206
  | .registrationRequest dest id name addr =>
    c!"r::registration_request " ++ c!"# " ++ num id ++ c!" '" ++ name ++ c!" @ " ++ addr ++ c!" => " ++ dest
  -- 208-217
  | .registrationResponse dest id name addr ee =>
    c!"r::registration_response " ++ c!"# " ++ num id ++ c!" '" ++ name ++ c!"' @ " ++ addr ++ fail ee ++ c!" => " ++ dest
  -- 219-222
  | .deregistrationNotify dest addr =>
    c!"r::deregistration_notify " ++ c!"@ " ++ addr ++ c!" => " ++ dest
  -- 224-227
  | .deregistrationService dest name =>
    c!"r::deregistration_service " ++ c!"'" ++ name ++ c!"'" ++ c!" => " ++ dest
  -- 229-233
  | .discoveryRequest dest name =>
    c!"r::discovery_request " ++ c!"'" ++ name ++ c!"'" ++ c!" => " ++ dest
  -- 235-245
  | .discoveryResponse dest name ee res =>
    c!"r::discovery_response " ++ c!"'" ++ name ++ c!"'" ++ found ee res ++ c!" => " ++ dest
  -- 247-251
  | .discoveryPromise dest name =>
    c!"r::discovery_promise " ++ c!"'" ++ name ++ c!"'" ++ c!" => " ++ dest
  -- 253-263
  | .discoveryFuture dest name ee res =>
    c!"r::discovery_future " ++ c!"'" ++ name ++ c!"'" ++ found ee res ++ c!" => " ++ dest
  -- 265-268
  | .discoveryCancel dest source =>
    c!"r::discovery_cancel " ++ c!"@ " ++ source ++ c!" => " ++ dest
  -- 270-273
  | .linkRequest dest origin =>
    c!"r::link_request " ++ c!"@ " ++ dest ++ c!"-> @ " ++ origin ++ c!" => " ++ dest
  -- 275-283
  | .linkResponse dest origin ee =>
    c!"r::link_response " ++ c!"@ " ++ origin ++ fail ee ++ c!" => " ++ dest
  -- 285-288
  | .unlinkNotify dest client =>
    c!"r::unlink_notify " ++ c!"@ " ++ client ++ c!" => " ++ dest
  -- 290-293
  | .unlinkRequest dest server =>
    c!"r::unlink_request " ++ c!"@ " ++ server ++ c!" => " ++ dest
  -- 295-302
  | .unlinkResponse dest server ee =>
    c!"r::unlink_response " ++ c!"@ " ++ server ++ fail ee ++ c!" => " ++ dest
  | .user dest type content =>
    (match own type content with | some t => t | none => c!"[?] " ++ type) ++ c!" => " ++ dest

/-- `get_message_level`, `delivery.cpp:52-111` -/
def level : Kind → Int
  | .unsubscription => 9
  | .unsubscriptionExternal => 9
  | .subscription => 9
  | .externalSubscription => 9
  | .commitUnsubscription => 9
  | .handlerCall => 20
  | .initRequest => 11
  | .initResponse => 11
  | .startTrigger => 10
  | .shutdownTrigger => 1
  | .shutdownRequest => 15
  | .shutdownResponse => 15
  | .createActor => 7
  | .spawnActor => 7
  | .registrationRequest => 2
  | .registrationResponse => 2
  | .deregistrationNotify => 3
  | .deregistrationService => 2
  | .discoveryRequest => 2
  | .discoveryResponse => 2
  | .discoveryPromise => 2
  | .discoveryFuture => 2
  | .discoveryCancel => 2
  | .linkRequest => 5
  | .linkResponse => 3
  | .unlinkNotify => 8
  | .unlinkRequest => 8
  | .unlinkResponse => 8
  | .user => 0

/-- the digits at the beginning of a text -/
def digits : Text → Nat → Nat
  | [], n => n
  | c :: cs, n => if c.isDigit then digits cs (10 * n + (c.toNat - '0'.toNat)) else n

/-- `atoi` (values that do not fit in an `int` are left out): white space, a sign, digits -/
def atoi : Text → Int
  | [] => 0
  | c :: cs =>
    if c = ' ' ∨ c = '\t' ∨ c = '\n' then atoi cs
    else if c = '-' then - (digits cs 0 : Int)
    else if c = '+' then (digits cs 0 : Int)
    else (digits (c :: cs) 0 : Int)

/-- what happens to a message: it is delivered or there is nobody to take it -/
inductive Fate where
  | delivered | discarded
deriving DecidableEq, Repr

/-- the prefixes, `delivery.cpp:129,134` -/
def Fate.text : Fate → Text
  | .delivered => c!">> "
  | .discarded => c!"<DISCARDED> "

/-- a line of the output -/
def line (own : Text → Text → Option Text) (f : Fate) (m : Msg) : Text :=
  f.text ++ c!"{" ++ num (level m.kind).toNat ++ c!"} " ++ stringify own m ++ c!"\n"

/-- `dump_message`, `delivery.cpp:114-124`: what is printed; `var`: the value of `ROTOR_INSPECT_DELIVERY` -/
def dump (own : Text → Text → Option Text) (var : Option Text) (f : Fate) (m : Msg) : Text :=
  match var with
  | none => []
  | some v => if level m.kind ≤ atoi v then line own f m else []

end Verif.Texts
