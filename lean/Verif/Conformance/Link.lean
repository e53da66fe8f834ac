import Verif.Link.Cases
/-!
# The scenarios of `tests/019-link-unlink.cpp` in the model of links

Each `example` replays a test of the project and compares what it checks. They are tests of the model, not proofs of properties. Supervisors are left out:
what they send is given as an operation. The numbers are the lines of the test.
-/

namespace Verif.Link.Conformance
open Verif Verif.Link

/-- the other plugins agree at once -/
def o : Ora := ⟨true, true, [], true, false⟩

def chk (ops : List Op) (p : State → Bool) : Bool := match run .init ops with | .ok σ => p σ | .error _ => false

def is (σ : State) (a : Nat) (st : AState) : Bool := (σ.act a).st = st
/-- both plugins have agreed to the shutdown, nothing is left -/
def down (σ : State) (a : Nat) : Bool := (σ.act a).closed && (σ.act a).servers.isEmpty && (σ.act a).clients.isEmpty

/-- a plugin loses its subscriptions and the actor ends -/
def gone (a : Nat) : List Op := [.deafC a, .deafS a, .finish a]

/-- client 1 and server 0, "client/server, common workflow" (76) -/
def common : List Op := [.init 0 [] o, .init 1 [(0, false)] o, .up 1 0 o, .dn 0 1 o, .start 0, .start 1]

example : chk common (fun σ => is σ 0 .operational && is σ 1 .operational && (σ.hist 1 0).contains (.known 0 true)) := rfl
/-- "simultaneous shutdown" -/
example : chk (common ++ [.shutdown 0 true o, .shutdown 1 true o, .dn 0 1 o, .up 1 0 o]) (fun σ => down σ 0 && down σ 1) := rfl
/-- "client-initiated unlink via client-shutdown" -/
example : chk (common ++ [.shutdown 1 true o, .up 1 0 o] ++ gone 1) (fun σ => is σ 1 .shutDown && is σ 0 .operational && (σ.act 0).clients.isEmpty) := rfl
/-- "client-initiated unlink via server-shutdown": the client shuts itself down -/
example : chk (common ++ [.shutdown 0 true o, .dn 0 1 o, .shutdown 1 true o, .up 1 0 o] ++ gone 0 ++ gone 1)
    (fun σ => is σ 0 .shutDown && is σ 1 .shutDown) := rfl

/-- "link not possible (timeout) => shutdown" (121): nobody listens at the address, the request expires -/
example : chk [.init 1 [(5, false)] o, .timeoutL 1 5 0, .ltmo 1 5 o]
    (fun σ => is σ 1 .initializing && (σ.act 1).inits == [false] && (σ.hist 1 5).contains (.known 0 false)) := rfl

/-- "unlink failure" (205): the unlink request expires, the shutdown request is answered with an error and the server stays -/
example : chk (common ++ [.shutdown 0 true o, .timeoutU 0 1 1, .utmo 0 1]) (fun σ => is σ 0 .shuttingDown && (σ.act 0).shutErr == 1 && !down σ 0) := rfl

/-- "unlink-notify on unlink-request", "client, then server" (220) -/
example : chk (common ++ [.shutdown 1 true o, .shutdown 0 true o, .up 1 0 o, .dn 0 1 o]) (fun σ => down σ 0 && down σ 1) := rfl
/-- "server, then client" (229) -/
example : chk (common ++ [.shutdown 0 true o, .shutdown 1 true o, .up 1 0 o, .dn 0 1 o]) (fun σ => down σ 0 && down σ 1) := rfl

/-- "unlink reaction" (247): the user handles the request and forgets the link -/
example : chk (common ++ [.shutdown 0 true o, .dn 0 1 { o with handled := true }, .forget 1 0 1 o, .up 1 0 o])
    (fun σ => down σ 0 && (σ.act 1).servers.isEmpty) := rfl

/-- "auto-unlink on shutdown" (281): the client ends before the server has seen the request, which it answers later to nobody -/
example : chk ([.init 1 [(0, false)] o, .shutdown 1 true o] ++ gone 1) (fun σ => is σ 1 .shutDown) := rfl
example : chk ([.init 1 [(0, false)] o, .shutdown 1 true o] ++ gone 1 ++ [.init 0 [] o, .up 1 0 o, .up 1 0 o, .dn 0 1 o, .start 0])
    (fun σ => is σ 0 .operational && (σ.act 0).clients.isEmpty) := rfl

/-- "link to operational only" (315): 1 waits for 2, which waits for 3 -/
def chain : List Op := [.init 1 [(2, true)] o, .init 2 [(3, true)] o, .up 1 2 o]
example : chk chain (fun σ => is σ 1 .initializing && is σ 2 .initializing) := rfl
example : chk (chain ++ [.init 3 [] o, .up 2 3 o, .start 3, .dn 3 2 o, .start 2, .dn 2 1 o, .start 1])
    (fun σ => is σ 1 .operational && is σ 2 .operational && is σ 3 .operational) := rfl

/-- "unlink notify / response race" (376): the unlink request is lost, the notification frees the server -/
example : chk (common ++ [.shutdown 0 true o, .shutdown 1 true o, .up 1 0 o] ++ gone 1)
    (fun σ => down σ 0 && down σ 1 && (σ.ureq 0 1).isEmpty) := rfl

/-- "double link attempt" (435): the second request is answered with an error -/
example : (match onLinkReq 0 1 8 false (onLinkReq 0 1 7 false .init) with
    | σ => σ.dn 0 1 == [.linkRes 7 true, .linkRes 8 false]) = true := rfl

/-- "not linkable" (450): the server is shutting down (a plugin holds it) -/
example : chk [.init 0 [] o, .start 0, .shutdown 0 true { o with agree := false }, .init 1 [(0, false)] o, .up 1 0 o, .dn 0 1 o]
    (fun σ => is σ 0 .shuttingDown && (σ.act 1).inits == [false] && (σ.act 1).servers.isEmpty) := rfl
/-- "get the error during shutdown": nothing happens -/
example : chk [.init 0 [] o, .start 0, .shutdown 0 true { o with agree := false }, .init 1 [] o, .start 1, .link 1 0 false,
    .shutdown 1 true { o with agree := false }, .up 1 0 o, .dn 0 1 o]
    (fun σ => is σ 1 .shuttingDown && (σ.act 1).servers.isEmpty && !(σ.act 1).closed) := rfl

/-- "unlink during shutting down" (492): a plugin of the client holds the shutdown, the unlink request of the server comes meanwhile -/
example : chk (common ++ [.shutdown 1 true { o with agree := false }, .shutdown 0 true o, .dn 0 1 { o with agree := false }])
    (fun σ => is σ 1 .shuttingDown && !(σ.act 1).closed && (σ.act 1).servers.isEmpty) := rfl
example : chk (common ++ [.shutdown 1 true { o with agree := false }, .shutdown 0 true o, .dn 0 1 { o with agree := false }, .cont 1 o, .up 1 0 o])
    (fun σ => down σ 0 && down σ 1) := rfl

/-- "proper shutdown order, defined by linkage" (527): all are asked at once; 1 is free at once, then 2, then 3 -/
def three : List Op := [.init 1 [(2, false), (3, false)] o, .init 2 [(3, false)] o, .init 3 [] o, .up 1 2 o, .up 1 3 o, .up 2 3 o,
  .dn 2 1 o, .dn 3 1 o, .dn 3 2 o, .start 1, .start 2, .start 3, .shutdown 1 true o, .shutdown 2 true o, .shutdown 3 true o]
example : chk three (fun σ => down σ 1 && !(σ.act 2).closed && !(σ.act 3).closed) := rfl
/-- what 1 sends to 3 is not enough for 3 -/
example : chk (three ++ [.up 1 3 o]) (fun σ => !(σ.act 2).closed && !(σ.act 3).closed) := rfl
example : chk (three ++ [.up 1 3 o, .up 1 2 o]) (fun σ => down σ 2 && !(σ.act 3).closed) := rfl
example : chk (three ++ [.up 1 3 o, .up 1 2 o, .up 2 3 o]) (fun σ => down σ 2 && down σ 3) := rfl

/-- "ignore unlink" (607): `on_unlink` returns false, the client goes on -/
example : chk (common ++ [.shutdown 0 true o, .dn 0 1 { o with unl := false }, .up 1 0 o] ++ gone 0)
    (fun σ => is σ 1 .operational && is σ 0 .shutDown && (σ.act 1).servers.isEmpty) := rfl

end Verif.Link.Conformance
